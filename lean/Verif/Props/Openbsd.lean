import Verif.Proof.OpenbsdGet
import Verif.Props.IpcList
/-! C65: the interface to the OpenBSD kernel. -/
namespace WG
open Spec Spec.Obsd

/-! ### Setting -/

theorem wantPeer_request (p : Peer) : (Obsd.wantPeer p).request =
    some { key := p.publicKey, remove := p.flags.removeMe, replaceIPs := p.flags.replaceAllowedIPs
           psk := if p.flags.hasPresharedKey then some p.presharedKey else none
           endpoint := if p.endpoint = .unset then none else some p.endpoint
           keepalive := if p.flags.hasKeepalive then some p.keepalive else none
           ips := p.allowedIPs } := rfl

theorem wantIface_request (d : Device) : (Obsd.wantIface d).request = some (requestOf d) := by
  have : (d.peers.map Obsd.wantPeer).mapM IoPeer.request = some (requestOf d).peers := by
    rw [List.mapM_map]
    simp only [requestOf]
    induction d.peers with
    | nil => rfl
    | cons p l ih => rw [List.mapM_cons, ih]; rfl
  rw [IoIface.request]
  change ((d.peers.map Obsd.wantPeer).mapM IoPeer.request).map _ = _
  rw [this]
  rfl

/-- C65. Setting: exactly one request reaches the kernel, for the interface of that name; no byte outside the buffer is touched, and the buffer read by the documented layout is what the configuration
asks for, with nothing missing and nothing behind it. The code is 0 if the kernel accepts it and otherwise the kernel's error. -/
theorem c65_set (env : Obsd.SetEnv) (h1 : env.sock = none) (h2 : env.calloc = none) (d : Device) (hn : d.name.length ≤ 15)
    (hsz : d.peers.length < 2 ^ 64 ∧ ∀ p ∈ d.peers, p.allowedIPs.length < 2 ^ 64)
    (hip : ∀ p ∈ d.peers, ∀ a ∈ p.allowedIPs, a.cidr.toNat ≤ addrBits a.addr) :
    ∃ mem i, Obsd.kernelSet env d = .ok (-((env.ioctl d.name mem).getD 0 : Nat), some (d.name, mem)) ∧ readIface mem = some i ∧ i.request = some (requestOf d) := by
  obtain ⟨g1, -, g3⟩ := Obsd.setBuffer_spec d
  refine ⟨_, _, ?_, g3 hsz.2 hsz.1 hip, wantIface_request d⟩
  rw [Obsd.kernelSet, h1, h2]
  dsimp only
  rw [g1, Obsd.okb, List.take_of_length_le hn]
  cases env.ioctl d.name (Obsd.ifaceBlock d) <;> rfl

/-- C65. Without a socket or memory nothing is sent and the error is returned. -/
theorem c65_set_fails (env : Obsd.SetEnv) (d : Device) (e : Nat) (h : env.sock = some e ∨ (env.sock = none ∧ env.calloc = some e)) :
    Obsd.kernelSet env d = .ok (-(e : Int), none) := by
  rcases h with h | ⟨h1, h2⟩
  · rw [Obsd.kernelSet, h]
  · rw [Obsd.kernelSet, h1, h2]

/-- C65. So with a kernel that does what it is asked (Spec/Driver), a successful operation leaves the interface as the configuration says. -/
theorem c65_set_effect (env : Obsd.SetEnv) (h1 : env.sock = none) (h2 : env.calloc = none) (d : Device) (hn : d.name.length ≤ 15)
    (hsz : d.peers.length < 2 ^ 64 ∧ ∀ p ∈ d.peers, p.allowedIPs.length < 2 ^ 64)
    (hip : ∀ p ∈ d.peers, ∀ a ∈ p.allowedIPs, a.cidr.toNat ≤ addrBits a.addr)
    (before after : Iface) (hk : ∀ mem i r, env.ioctl d.name mem = none → readIface mem = some i → i.request = some r → after = applyReq before r) (sent : Option (CStr × List UInt8))
    (hpos : ∀ n m, env.ioctl n m ≠ some 0)
    (hok : Obsd.kernelSet env d = .ok (0, sent)) : after = applyReq before (requestOf d) := by
  obtain ⟨mem, i, g1, g2, g3⟩ := c65_set env h1 h2 d hn hsz hip
  rw [g1] at hok
  have hz : env.ioctl d.name mem = none := by
    cases hio : env.ioctl d.name mem with
    | none => rfl
    | some e =>
      rw [hio] at hok
      have : e ≠ 0 := fun h => hpos d.name mem (by rw [hio, h])
      simp at hok
      omega
  exact hk mem i _ hz g2 g3

/-! ### Getting -/

/-- IPv6 endpoints removed. -/
def withoutV6 (i : IoIface) : IoIface :=
  { i with peers := i.peers.map fun p => { p with endpoint := match p.endpoint with | some (.in6 ..) => none | e => e } }

theorem seenDevice_eq (name : CStr) (i : IoIface) : Obsd.seenDevice name i = (withoutV6 i).shown name := by
  have : i.peers.map Obsd.seenPeer = (withoutV6 i).peers.map IoPeer.shown := by
    rw [withoutV6, List.map_map]
    apply List.map_congr_left
    intro p _
    simp only [Function.comp, Obsd.seenPeer, IoPeer.shown]
    congr 1
    cases p.endpoint with
    | none => rfl
    | some e => cases e <;> rfl
  rw [Obsd.seenDevice, this]; rfl

/-- C65. Getting: while the interface may change from call to call (`image k`: what the k-th call finds), the tool shows what one single call found, all of it, except that IPv6 endpoints are
missing; it asks again only as long as the interface keeps growing. No byte outside the answer is read. -/
theorem c65_get (env : Obsd.GetEnv) (h1 : env.sock = none) (iface : CStr) (hn : iface.length ≤ 15) (image : Nat → List UInt8) (state : Nat → IoIface)
    (hst : ∀ k, readIface (image k) = some (state k))
    (hio : ∀ k size, env.ioctl k iface size = .ok (answers image k size).1 (answers image k size).2) (hheap : ∀ n, env.heap.fail n = none) (fuel : Nat) :
    (∃ k < fuel, Obsd.kernelGet env iface fuel = .ok (0, some ((withoutV6 (state k)).shown iface)) ∧
      ((∀ p ∈ (state k).peers, ¬ p.HasV6) → withoutV6 (state k) = state k)) ∨
    (Obsd.kernelGet env iface fuel = .running ∧ ∀ k, k + 1 < fuel → (image k).length < (image (k + 1)).length) := by
  have hne : ∀ k, image k ≠ [] := by
    intro k h
    have := hst k
    rw [h] at this
    cases this
  have htake : iface.take 15 = iface := List.take_of_length_le hn
  rw [Obsd.kernelGet, h1]
  dsimp only
  rw [htake]
  rcases Obsd.getLoop_spec env iface image hne hio hheap fuel 0 none (fun _ => rfl) (by omega) with ⟨h2, h3⟩ | ⟨j, post, -, h3, h4⟩
  · right
    refine ⟨by rw [show Obsd.getLoop env iface fuel 0 0 none = .running from h2], fun k hk => ?_⟩
    exact h3 (k + 1) (by omega) (by omega)
  · left
    refine ⟨j, by omega, ?_, ?_⟩
    · rw [show Obsd.getLoop env iface fuel 0 0 none = .ok (.ok (some (image j ++ post))) from h4, Obsd.okb]
      dsimp only
      rw [Obsd.getDevice_spec (hst j), Obsd.okb, htake, seenDevice_eq]
    · intro hv
      have : (state j).peers.map (fun p => { p with endpoint := match p.endpoint with | some (.in6 ..) => none | e => e }) = (state j).peers := by
        conv => rhs; rw [← List.map_id (state j).peers]
        apply List.map_congr_left
        intro p hp
        have h := hv p hp
        obtain ⟨key, psk, ka, ep, a, b, c, d, e, f, g⟩ := p
        cases ep with
        | none => rfl
        | some ep =>
          cases ep with
          | unset => rfl
          | in4 a q => rfl
          | in6 a q fl sc => exact absurd ⟨a, q, fl, sc, rfl⟩ h
      rw [withoutV6, this]

/-- C65. An error of the kernel or lack of memory is returned, without a device. -/
theorem c65_get_fails (env : Obsd.GetEnv) (iface : CStr) (fuel : Nat) (code : Int) (d : Option Device) (h : Obsd.kernelGet env iface fuel = .ok (code, d)) :
    (code = 0 ∧ d.isSome = true) ∨ (d = none ∧ ∃ e : Nat, code = -(e : Int) ∧
      (env.sock = some e ∨ ∃ k, (∃ size, env.ioctl k (iface.take 15) size = .err e) ∨ env.heap.fail k = some e)) := by
  rw [Obsd.kernelGet] at h
  cases hs : env.sock with
  | some e =>
    rw [hs] at h
    cases h
    exact .inr ⟨rfl, e, rfl, .inl rfl⟩
  | none =>
    rw [hs] at h
    dsimp only at h
    cases hl : Obsd.getLoop env (iface.take 15) fuel 0 0 none with
    | ok r =>
      rw [hl, Obsd.okb] at h
      match r with
      | .error e =>
        cases h
        obtain ⟨j, hj⟩ := Obsd.getLoop_err env _ _ _ _ _ _ hl
        exact .inr ⟨rfl, e, rfl, .inr ⟨j, hj⟩⟩
      | .ok none => cases h
      | .ok (some mem) =>
        dsimp only at h
        cases hd : Obsd.getDevice mem iface with
        | ok x => rw [hd, Obsd.okb] at h; cases h; exact .inl ⟨rfl, rfl⟩
        | fail => rw [hd] at h; cases h
        | exit1 => rw [hd] at h; cases h
        | ub => rw [hd] at h; cases h
        | running => rw [hd] at h; cases h
    | fail => rw [hl] at h; cases h
    | exit1 => rw [hl] at h; cases h
    | ub => rw [hl] at h; cases h
    | running => rw [hl] at h; cases h

theorem priv_shown (o : Option Key) : (if o.isSome = true then o.getD zeroKey else zeroKey) = o.getD zeroKey := by cases o <;> rfl

theorem psk_shown (o : Option Key) : o.getD zeroKey = if o.any (· ≠ zeroKey) = true then o.getD zeroKey else zeroKey := by
  cases o with
  | none => rfl
  | some k =>
    by_cases hk : k = zeroKey
    · simp [hk]
    · simp [hk]

/-- C65. What is shown without IPv6 endpoints is a faithful report (as `wg showconf` needs it, C38) of an interface that the kernel described. -/
theorem c65_reports (name : CStr) (i : IoIface) (s : Iface) (h : Describes i s) : Reports (i.shown name) s := by
  have hkey : ∀ p ∈ i.peers, some p.shown.publicKey = p.key := by
    intro p hp
    have := h.named p hp
    simp only [IoPeer.shown]
    cases hk : p.key with
    | none => rw [hk] at this; cases this
    | some k => rfl
  have hmap : (i.peers.map fun p => p.shown.publicKey).map some = i.peers.map (·.key) := by
    rw [List.map_map]
    exact List.map_congr_left hkey
  refine ⟨h.port, h.mark, ?_, ?_, ?_, ?_, ?_, ?_⟩
  · rw [← h.priv]
    simp only [IoIface.shown]
    exact priv_shown _
  · have := h.keys
    rw [← hmap] at this
    have : (i.peers.map fun p => p.shown.publicKey).Nodup := (List.pairwise_map.1 this).imp fun h e => h (congrArg some e)
    simp only [IoIface.shown, List.map_map]
    exact this
  · intro p hp
    simp only [IoIface.shown, List.mem_map] at hp
    obtain ⟨q, hq, rfl⟩ := hp
    rw [h.peer q hq _ (hkey q hq).symm]
    congr 2
    simp only [IoPeer.shown]
    exact psk_shown _
  · intro k hk
    apply h.none
    intro hc
    rw [← hmap, List.mem_map] at hc
    obtain ⟨k', h1, h2⟩ := hc
    cases h2
    apply hk
    simpa [IoIface.shown] using h1
  · intro n k
    rw [h.owner]
    simp only [IoIface.shown, List.mem_map]
    constructor
    · rintro ⟨p, hp, h1, h2⟩
      refine ⟨_, ⟨p, hp, rfl⟩, ?_, h2⟩
      have := hkey p hp
      rw [h1] at this
      exact Option.some.inj this
    · rintro ⟨_, ⟨p, hp, rfl⟩, h1, h2⟩
      exact ⟨p, hp, by rw [← hkey p hp, h1], h2⟩
  · intro p hp a ha
    simp only [IoIface.shown, List.mem_map] at hp
    obtain ⟨q, hq, rfl⟩ := hp
    exact h.net q hq a ha

/-- C65 (a defect). A peer with an IPv6 endpoint is shown without endpoint: the endpoint is copied only if it fits a `struct sockaddr`, which an IPv6 address does not. -/
theorem c65_counterexample_ipv6_endpoint (name : CStr) (i : IoIface) (n : Nat) (p : IoPeer) (hp : i.peers[n]? = some p) (h : p.HasV6) :
    ∃ q, ((withoutV6 i).shown name).peers[n]? = some q ∧ q.endpoint = .unset ∧ p.shown.endpoint ≠ .unset ∧ q.publicKey = p.shown.publicKey := by
  obtain ⟨a, q, fl, sc, he⟩ := h
  refine ⟨({ p with endpoint := none } : IoPeer).shown, by simp [IoIface.shown, withoutV6, hp, he], rfl, ?_, rfl⟩
  · simp [IoPeer.shown, he]

/-- C65 (a defect). A name that is too long is cut without notice: `wg show` of it shows another interface. -/
theorem c65_counterexample_long_name (env : Obsd.GetEnv) (iface : CStr) (fuel : Nat) : Obsd.kernelGet env iface fuel = Obsd.kernelGet env (iface.take 15) fuel := by
  have h : (iface.take 15).take 15 = iface.take 15 := by rw [List.take_take]; rfl
  have hd : ∀ mem, Obsd.getDevice mem (iface.take 15) = Obsd.getDevice mem iface := by
    intro mem
    rw [Obsd.getDevice, Obsd.getDevice, h]
  rw [Obsd.kernelGet, Obsd.kernelGet, h]
  simp only [hd]

/-! ### Listing -/

theorem memStr_field (pre post : List UInt8) (n : CStr) (h0 : (0 : UInt8) ∉ n) (hl : n.length ≤ 15) : memStr (pre ++ nameField n ++ post) pre.length = .ok n := by
  have := memStr_name n h0 pre (List.replicate (15 - n.length) 0 ++ post)
  rw [← this]
  congr 1
  rw [nameField, show 16 - n.length = (15 - n.length) + 1 by omega, List.replicate_succ]
  simp

theorem nameField_length (n : CStr) (hl : n.length ≤ 16) : (nameField n).length = 16 := by simp [nameField]; omega

theorem listLoop_addAll (heap : Heap) : ∀ (names : List CStr) (pre post : List UInt8) (fuel : Nat) (l : StrList), (∀ n ∈ names, (0 : UInt8) ∉ n ∧ n.length ≤ 15) → names.length < fuel →
    16 * names.length < 2 ^ 32 →
    Obsd.listLoop heap (pre ++ names.flatMap nameField ++ post) fuel pre.length (16 * names.length) l = addAll heap names l := by
  intro names
  induction names with
  | nil =>
    intro pre post fuel l _ hf _
    match fuel, hf with
    | fuel + 1, _ => rfl
  | cons n names ih =>
    intro pre post fuel l hn hf hsz
    match fuel, hf with
    | fuel + 1, hf =>
      simp only [List.length_cons] at hf hsz
      have hn0 := hn n (by simp)
      have e : pre ++ (n :: names).flatMap nameField ++ post = pre ++ nameField n ++ (names.flatMap nameField ++ post) := by simp
      have e2 : pre ++ nameField n ++ (names.flatMap nameField ++ post) = (pre ++ nameField n) ++ names.flatMap nameField ++ post := by simp
      rw [Obsd.listLoop, if_neg (by simp), e, memStr_field _ _ _ hn0.1 hn0.2, Obsd.okb, addAll]
      cases hr : stringListAdd heap l n with
      | ok r =>
        obtain ⟨r1, r2⟩ := r
        rw [Obsd.okb, Obsd.okb]
        by_cases h : r1 < 0
        · rw [if_pos h]
          exact (if_pos h).symm
        · rw [if_neg h]
          refine Eq.trans ?_ (if_neg h).symm
          have := ih (pre ++ nameField n) post fuel r2 (fun m hm => hn m (by simp [hm])) (by omega) (by omega)
          rw [List.length_append, nameField_length n (by omega)] at this
          have hleft : (16 * (n :: names).length + 2 ^ 32 - 16) % 2 ^ 32 = 16 * names.length := by rw [List.length_cons]; omega
          rw [e2, hleft]
          exact this
      | fail => rfl
      | exit1 => rfl
      | ub => rfl
      | running => rfl

/-- C65. Listing: the members of the interface group `wg`, in the kernel's order. `len`: the length the kernel said first; then there may be fewer (never more: it refuses), and the length it says
last, `16 * count`, covers at least those it wrote. Only lack of memory makes it fail. -/
theorem c65_list (heap : Heap) (hF : ∀ n e, heap.fail n = some e → 0 < e) (env : Obsd.ListEnv) (h1 : env.sock = none) (len : Nat) (h2 : env.first = .ok len) (h3 : env.calloc = none)
    (names : List CStr) (hn : ∀ n ∈ names, IsName n ∧ n.length ≤ 15) (count : Nat) (hc : names.length ≤ count ∧ 16 * count ≤ len) (hlen : len < 2 ^ 32)
    (h4 : env.second len = .ok (16 * count, names.flatMap nameField)) :
    (∃ l, Obsd.kernelList heap env {} = .ok (0, l) ∧ Content l names) ∨ ∃ n e l, heap.fail n = some e ∧ Obsd.kernelList heap env {} = .ok (-(e : Int), l) := by
  have hfl : (names.flatMap nameField).length = 16 * names.length := by
    clear h4 hc
    induction names with
    | nil => rfl
    | cons n names ih =>
      have := nameField_length n (by have := (hn n (by simp)).2; omega)
      rw [List.flatMap_cons, List.length_append, this, ih fun m hm => hn m (by simp [hm]), List.length_cons]; omega
  have hzero : ∀ k : Nat, (List.replicate k ([] : CStr)).flatMap nameField = List.replicate (16 * k) 0 := by
    intro k
    induction k with
    | zero => rfl
    | succ k ih => rw [List.replicate_succ, List.flatMap_cons, ih, show 16 * (k + 1) = 16 + 16 * k by omega, List.replicate_add]; rfl
  have hmem : Obsd.wrote (names.flatMap nameField) (List.replicate len 0) =
      [] ++ (names ++ List.replicate (count - names.length) []).flatMap nameField ++ List.replicate (len - 16 * count) 0 := by
    rw [Obsd.wrote_fits (by rw [hfl, List.length_replicate]; omega), List.flatMap_append, hzero, hfl, List.drop_replicate, List.nil_append, List.append_assoc, List.replicate_append_replicate]
    congr 2
    omega
  have hlist := listLoop_addAll heap (names ++ List.replicate (count - names.length) []) [] (List.replicate (len - 16 * count) 0) (len + 2) {} (by
    intro m hm
    rcases List.mem_append.1 hm with hm | hm
    · exact ⟨(hn m hm).1.2, (hn m hm).2⟩
    · rw [List.mem_replicate] at hm; rw [hm.2]; simp) (by simp; omega) (by simp; omega)
  have hcnt : 16 * (names ++ List.replicate (count - names.length) ([] : CStr)).length = 16 * count := by simp; omega
  have hfilter : (names ++ List.replicate (count - names.length) ([] : CStr)).filter (· ≠ []) = names := by
    rw [List.filter_append, List.filter_eq_self.2 fun m hm => by simpa using (hn m hm).1.1]
    simp
  rw [Obsd.kernelList, h1, h2, h3]
  dsimp only
  rw [h4]
  dsimp only
  rw [show (Obsd.wrote (names.flatMap nameField) (List.replicate len 0)).length = len by rw [Obsd.wrote_length]; simp, hmem]
  rw [hcnt] at hlist
  have hlist' : Obsd.listLoop heap ([] ++ (names ++ List.replicate (count - names.length) []).flatMap nameField ++ List.replicate (len - 16 * count) 0) (len + 2) 0 (16 * count) {} = _ := hlist
  rw [hlist']
  rcases c44_names_added heap hF (names ++ List.replicate (count - names.length) []) (by
    rw [hfilter, nameBuffer_length]
    have : ∀ l : List CStr, (∀ n ∈ l, n.length ≤ 15) → (l.flatMap (· ++ [0])).length ≤ 16 * l.length := by
      intro l hl
      induction l with
      | nil => simp
      | cons n l ih =>
        have h1 := hl n (by simp)
        have h2 := ih fun m hm => hl m (by simp [hm])
        simp only [List.flatMap_cons, List.length_append, List.length_cons, List.length_nil] at h2 ⊢
        omega
    have := this names fun n h => (hn n h).2
    omega) with ⟨l, g1, g2⟩ | ⟨_, _, _, n, e, l, -, g2, g3, -⟩
  · exact .inl ⟨l, g1, by rw [hfilter] at g2; exact g2⟩
  · exact .inr ⟨n, e, l, g2, g3⟩

/-- C65. No group `wg` means no interfaces; any other error is returned. -/
theorem c65_list_none (heap : Heap) (env : Obsd.ListEnv) (h1 : env.sock = none) (e : Nat) (h2 : env.first = .error e) :
    Obsd.kernelList heap env {} = .ok (if e = 2 then 0 else -(e : Int), {}) := by
  rw [Obsd.kernelList, h1, h2]

/-! ### Concrete cases -/

/-- An interface with two peers, one with an IPv6 endpoint, allowed IPs of both families. -/
def obsdDevice : Device where
  name := b!"wg0"
  flags := { replacePeers := true, hasPrivateKey := true, hasListenPort := true, hasFwmark := true }
  privateKey := Vector.replicate 32 7
  listenPort := 51820
  fwmark := 3
  peers := [
    { flags := { replaceAllowedIPs := true, hasPublicKey := true, hasPresharedKey := true, hasKeepalive := true }, publicKey := Vector.replicate 32 1, presharedKey := Vector.replicate 32 2
      keepalive := 25, endpoint := .in4 #v[192, 0, 2, 1] 4242, allowedIPs := [⟨.v4 #v[10, 0, 0, 0], 8⟩, ⟨.v6 #v[0xfd, 0, 0, 0, 0, 0, 0, 0, 0, 0, 0, 0, 0, 0, 0, 0], 8⟩] },
    { flags := { removeMe := true, hasPublicKey := true }, publicKey := Vector.replicate 32 3, endpoint := .in6 (Vector.replicate 16 9) 53 1 2 }]

example : ∃ mem i, Obsd.kernelSet ⟨none, none, fun _ _ => some 1⟩ obsdDevice = .ok (-1, some (b!"wg0", mem)) ∧ readIface mem = some i ∧ i.request = some (requestOf obsdDevice) :=
  c65_set ⟨none, none, fun _ _ => some 1⟩ rfl rfl obsdDevice (by decide) (by decide) (by decide)

/-- The image of that interface, and one with the first peer only. -/
def obsdImage : Nat → List UInt8
  | 0 => Obsd.ifaceBlock { obsdDevice with peers := obsdDevice.peers.take 1 }
  | _ => Obsd.ifaceBlock obsdDevice

def obsdState : Nat → IoIface
  | 0 => Obsd.wantIface { obsdDevice with peers := obsdDevice.peers.take 1 }
  | _ => Obsd.wantIface obsdDevice

def obsdEnv : Obsd.GetEnv := ⟨none, fun k _ size => .ok (answers obsdImage k size).1 (answers obsdImage k size).2, ⟨fun _ => none, fun _ _ => 0xaa⟩⟩

theorem obsdState_spec (k : Nat) : readIface (obsdImage k) = some (obsdState k) := by
  cases k with
  | zero => exact (Obsd.setBuffer_spec { obsdDevice with peers := obsdDevice.peers.take 1 }).2.2 (by decide) (by decide) (by decide)
  | succ k => exact (Obsd.setBuffer_spec obsdDevice).2.2 (by decide) (by decide) (by decide)

/-- A peer is added between the first and the second call: the third sees both peers, the second without its endpoint. -/
example : ∃ k < 5, Obsd.kernelGet obsdEnv b!"wg0" 5 = .ok (0, some ((withoutV6 (obsdState k)).shown b!"wg0")) := by
  rcases c65_get obsdEnv rfl b!"wg0" (by decide) obsdImage obsdState obsdState_spec (fun _ _ => rfl) (fun _ => rfl) 5 with ⟨k, h1, h2, -⟩ | ⟨-, h⟩
  · exact ⟨k, h1, h2⟩
  · exact absurd (h 1 (by decide)) (Nat.lt_irrefl _)

example : (obsdState 1).peers[1]?.any (fun p => p.shown.endpoint = .in6 (Vector.replicate 16 9) 53 1 2) = true ∧
    ((withoutV6 (obsdState 1)).shown b!"wg0").peers[1]?.any (fun p => p.endpoint = .unset) = true := by decide +kernel

example : (∃ l, Obsd.kernelList ⟨fun _ => none, fun _ _ => 0xaa⟩ ⟨none, .ok 48, none, fun _ => .ok (48, nameField b!"wg0" ++ nameField b!"wg1")⟩ {} = .ok (0, l) ∧ Content l [b!"wg0", b!"wg1"]) ∨
    ∃ n e l, (⟨fun _ => none, fun _ _ => 0xaa⟩ : Heap).fail n = some e ∧
      Obsd.kernelList ⟨fun _ => none, fun _ _ => 0xaa⟩ ⟨none, .ok 48, none, fun _ => .ok (48, nameField b!"wg0" ++ nameField b!"wg1")⟩ {} = .ok (-(e : Int), l) :=
  c65_list ⟨fun _ => none, fun _ _ => 0xaa⟩ (by intro n e h; cases h) ⟨none, .ok 48, none, fun _ => .ok (48, nameField b!"wg0" ++ nameField b!"wg1")⟩ rfl 48 rfl rfl [b!"wg0", b!"wg1"]
    (by simp [IsName]) 3 (by decide) (by decide) (by simp)

/-- An interface with one peer, as the kernel describes it. -/
example : Describes { port := some 51820, peers := [{ key := some (Vector.replicate 32 1), keepalive := some 25, ips := [⟨.v4 #v[10, 0, 0, 0], 8⟩] }] }
    { listenPort := 51820, peers := fun k => if k = Vector.replicate 32 1 then some { keepalive := 25 } else none
      owner := fun n => if n = ⟨.v4 #v[10, 0, 0, 0], 8⟩ then some (Vector.replicate 32 1) else none } := by
  constructor
  · rfl
  · rfl
  · rfl
  · decide
  · decide
  · intro p hp k hk
    simp only [List.mem_singleton] at hp
    subst hp
    cases hk
    simp
  · intro k hk
    simp only [List.map_cons, List.map_nil, List.mem_singleton, Option.some.injEq] at hk
    simp [hk]
  · intro n k
    constructor
    · intro h
      dsimp only at h
      split at h
      · rename_i hn
        cases h
        exact ⟨_, List.mem_singleton_self _, rfl, by simp [hn]⟩
      · cases h
    · rintro ⟨p, hp, h1, h2⟩
      simp only [List.mem_singleton] at hp
      subst hp
      simp only [List.mem_singleton] at h2
      cases h1
      simp [h2]
  · decide +kernel

end WG
