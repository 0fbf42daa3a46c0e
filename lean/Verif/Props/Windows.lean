import Verif.Proof.WindowsGet
import Verif.Props.Openbsd
/-! C69: the interface to the Windows driver. -/
namespace WG
open Spec Spec.Win

/-! ### Setting -/

theorem winWant_request (d : Device) : (Win.wantIface d).request = some { requestOf d with fwmark := none } := by
  have : (d.peers.map Win.wantPeer).mapM IoPeer.request = some (requestOf d).peers := by
    rw [List.mapM_map]
    simp only [requestOf]
    induction d.peers with
    | nil => rfl
    | cons p l ih => rw [List.mapM_cons, ih]; rfl
  rw [IoIface.request]
  change ((d.peers.map Win.wantPeer).mapM IoPeer.request).map _ = _
  rw [this]
  rfl

theorem requestSize_eq (d : Device) : requestSize d = 80 + Win.peersSize d.peers := rfl

theorem size_bounds (d : Device) (h : requestSize d < 2 ^ 32) : d.peers.length < 2 ^ 32 ∧ ∀ p ∈ d.peers, p.allowedIPs.length < 2 ^ 32 := by
  have aux : ∀ l : List Peer, l.length ≤ (l.map fun p => 136 + 24 * p.allowedIPs.length).sum ∧ ∀ p ∈ l, p.allowedIPs.length ≤ (l.map fun p => 136 + 24 * p.allowedIPs.length).sum := by
    intro l
    induction l with
    | nil => simp
    | cons p l ih =>
      rw [List.map_cons, List.sum_cons, List.length_cons]
      refine ⟨by omega, fun q hq => ?_⟩
      rcases List.mem_cons.1 hq with rfl | hq
      · omega
      · have := ih.2 q hq; omega
  have := aux d.peers
  rw [requestSize] at h
  exact ⟨by omega, fun p hp => by have := this.2 p hp; omega⟩

/-- C69. Setting: exactly one request reaches the driver; no byte outside the buffer is touched, and the buffer read by the documented layout is what the configuration asks for except a mark
(see c69_counterexample_mark), with nothing missing and nothing behind it. The code is 0 if the driver accepts it and EACCES if not. The adapter is closed. -/
theorem c69_set (env : Win.SetEnv) (h1 : env.handle = none) (h2 : env.calloc = none) (d : Device) (hsz : requestSize d < 2 ^ 32)
    (hip : ∀ p ∈ d.peers, ∀ a ∈ p.allowedIPs, a.cidr.toNat ≤ addrBits a.addr) :
    ∃ mem i, Win.kernelSet env d = .ok ⟨if env.ioctl mem then 0 else -13, some mem, true, true⟩ ∧ mem.length = requestSize d ∧ readIface mem = some i ∧
      i.request = some { requestOf d with fwmark := none } := by
  obtain ⟨g1, g2, g3⟩ := Win.setBuffer_spec d
  obtain ⟨b1, b2⟩ := size_bounds d hsz
  refine ⟨_, _, ?_, g2, g3 b2 b1 hip, winWant_request d⟩
  rw [requestSize_eq] at hsz
  rw [Win.kernelSet, h1, h2]
  dsimp only
  rw [Win.addPeers_eq _ _ (by omega), if_pos hsz]
  dsimp only
  rw [g1, Obsd.okb]
  cases env.ioctl (Win.ifaceBlock d) <;> rfl

/-- C69. A configuration that does not fit into 32 bits of length is refused with EOVERFLOW; without the adapter or memory the error is returned. In these cases nothing is sent. -/
theorem c69_set_fails (env : Win.SetEnv) (d : Device) (e : Nat) :
    (env.handle = some e → Win.kernelSet env d = .ok ⟨-(e : Int), none, false, false⟩) ∧
    (env.handle = none → 2 ^ 32 ≤ requestSize d → Win.kernelSet env d = .ok ⟨-132, none, true, true⟩) ∧
    (env.handle = none → requestSize d < 2 ^ 32 → env.calloc = some e → Win.kernelSet env d = .ok ⟨-(e : Int), none, true, true⟩) := by
  refine ⟨fun h => by rw [Win.kernelSet, h], fun h1 h2 => ?_, fun h1 h2 h3 => ?_⟩
  · rw [requestSize_eq] at h2
    rw [Win.kernelSet, h1]
    dsimp only
    rw [Win.addPeers_eq _ _ (by omega), if_neg (by omega)]
  · rw [requestSize_eq] at h2
    rw [Win.kernelSet, h1]
    dsimp only
    rw [Win.addPeers_eq _ _ (by omega), if_pos h2, h3]

/-- C69. So with a driver that does what it is asked (Spec/Driver), a successful operation on an adapter that could be opened leaves the interface as the configuration says, if it has no mark. -/
theorem c69_set_effect (env : Win.SetEnv) (h1 : env.handle = none) (h2 : env.calloc ≠ some 0) (d : Device) (hm : d.flags.hasFwmark = false)
    (hip : ∀ p ∈ d.peers, ∀ a ∈ p.allowedIPs, a.cidr.toNat ≤ addrBits a.addr)
    (before after : Iface) (hk : ∀ mem i r, env.ioctl mem = true → readIface mem = some i → i.request = some r → after = applyReq before r) (done : Win.SetDone)
    (hok : Win.kernelSet env d = .ok done) (h0 : done.code = 0) : after = applyReq before (requestOf d) := by
  by_cases hsz : requestSize d < 2 ^ 32
  · cases hc : env.calloc with
    | some e =>
      rw [(c69_set_fails env d e).2.2 h1 hsz hc] at hok
      cases hok
      have : e ≠ 0 := fun h => h2 (by rw [hc, h])
      simp at h0
      omega
    | none =>
      obtain ⟨mem, i, g1, -, g2, g3⟩ := c69_set env h1 hc d hsz hip
      rw [g1] at hok
      cases hok
      have hz : env.ioctl mem = true := by
        cases hio : env.ioctl mem with
        | true => rfl
        | false => simp [hio] at h0
      have := hk mem i _ hz g2 g3
      rw [this]
      congr 1
      simp [requestOf, hm]
  · rw [(c69_set_fails env d 0).2.1 h1 (by omega)] at hok
    cases hok
    cases h0

/-- C69 (a defect). A mark is dropped without notice: the request is the same as without, and the operation succeeds. -/
theorem c69_counterexample_mark (env : Win.SetEnv) (d : Device) (mark : UInt32) :
    Win.kernelSet env { d with fwmark := mark, flags := { d.flags with hasFwmark := true } } = Win.kernelSet env { d with flags := { d.flags with hasFwmark := false } } := by
  rfl

/-! ### Getting -/

/-- C69. Getting: while the interface may change from call to call (`image k`: what the k-th call finds), the tool shows what one single call found, all of it; it asks again only as long as the
interface keeps growing. No byte outside the answer is read, and the adapter is closed. -/
theorem c69_get (env : Win.GetEnv) (h1 : env.handle = none) (iface : CStr) (hn : iface.length ≤ 63) (image : Nat → List UInt8) (state : Nat → IoIface)
    (hst : ∀ k, readIface (image k) = some (state k))
    (hio : ∀ k size, env.ioctl k size = match answers image k size with | .ok b => .ok b | .error n => .more n) (hheap : ∀ n, env.heap.fail n = none) (fuel : Nat) :
    (∃ k < fuel, Win.kernelGet env iface fuel = .ok ⟨0, some ((state k).shown iface), true, true⟩) ∨
    (Win.kernelGet env iface fuel = .running ∧ ∀ k, k + 1 < fuel → (image k).length < (image (k + 1)).length) := by
  have hne : ∀ k, image k ≠ [] := by
    intro k h
    have := hst k
    rw [h] at this
    cases this
  have htake : iface.take 63 = iface := List.take_of_length_le hn
  rw [Win.kernelGet, h1]
  dsimp only
  rcases Win.getLoop_spec env image hne hio hheap fuel 0 none rfl with ⟨h2, h3⟩ | ⟨j, post, -, h3, h4⟩
  · right
    refine ⟨by rw [h2], fun k hk => ?_⟩
    exact h3 (k + 1) (by omega) (by omega)
  · left
    refine ⟨j, by omega, ?_⟩
    rw [h4, Obsd.okb]
    dsimp only
    rw [Win.getDevice_spec (hst j), Obsd.okb, htake]

/-- C69. Otherwise: an error of the driver (EACCES), lack of memory or of the adapter is returned, without a device. A code of 0 comes without a device only if the adapter could not be opened and
`errno` was not set (see c70_counterexample_silent). -/
theorem c69_get_fails (env : Win.GetEnv) (iface : CStr) (fuel : Nat) (r : Win.GetDone) (h : Win.kernelGet env iface fuel = .ok r) :
    (r.code = 0 ∧ r.device.isSome = true ∧ r.opened = true ∧ r.closed = true) ∨
    (r.device = none ∧ r.closed = false ∧ ∃ e : Nat, r.code = -(e : Int) ∧
      ((env.handle = some e ∧ r.opened = false) ∨ (r.opened = true ∧ ∃ k, (e = 13 ∧ ∃ size, env.ioctl k size = .failed) ∨ env.heap.fail k = some e))) := by
  rw [Win.kernelGet] at h
  cases hs : env.handle with
  | some e =>
    rw [hs] at h
    cases h
    exact .inr ⟨rfl, rfl, e, rfl, .inl ⟨rfl, rfl⟩⟩
  | none =>
    rw [hs] at h
    dsimp only at h
    cases hl : Win.getLoop env fuel 0 none with
    | ok x =>
      rw [hl, Obsd.okb] at h
      match x with
      | .error e =>
        cases h
        obtain ⟨j, hj⟩ := Win.getLoop_err env _ _ _ _ hl
        exact .inr ⟨rfl, rfl, e, rfl, .inr ⟨rfl, j, hj⟩⟩
      | .ok none => cases h
      | .ok (some mem) =>
        dsimp only at h
        cases hd : Win.getDevice mem iface with
        | ok x => rw [hd, Obsd.okb] at h; cases h; exact .inl ⟨rfl, rfl, rfl, rfl⟩
        | fail => rw [hd] at h; cases h
        | exit1 => rw [hd] at h; cases h
        | ub => rw [hd] at h; cases h
        | running => rw [hd] at h; cases h
    | fail => rw [hl] at h; cases h
    | exit1 => rw [hl] at h; cases h
    | ub => rw [hl] at h; cases h
    | running => rw [hl] at h; cases h

/-- C69 (a defect). When the driver refuses, the adapter stays open. -/
theorem c69_counterexample_leak (env : Win.GetEnv) (h1 : env.handle = none) (h2 : env.ioctl 0 0 = .failed) (iface : CStr) (fuel : Nat) :
    Win.kernelGet env iface (fuel + 1) = .ok ⟨-13, none, true, false⟩ := by
  rw [Win.kernelGet, h1]
  dsimp only
  rw [Win.getLoop, Option.getD_none, List.length_nil, h2]
  rfl

/-- C69. The shown time of a handshake is the time in the driver's answer: seconds and nanoseconds since 1970, in units of 100 ns since 1601. -/
theorem c69_handshake (p : IoPeer) (h : p.handshake ≠ 0) :
    p.shown.handshakeSec * 10 ^ 9 + p.shown.handshakeNsec = ((p.handshake : Int) - 116444736000000000) * 100 ∧ 0 ≤ p.shown.handshakeNsec ∧ p.shown.handshakeNsec < 10 ^ 9 := by
  simp only [IoPeer.shown, if_neg h]
  omega

/-- C69. What is shown is a faithful report (as `wg showconf` needs it, C38) of an interface that the driver described. -/
theorem c69_reports (name : CStr) (i : IoIface) (s : Iface) (h : Describes i s) : Reports (i.shown name) s := by
  have hkey : ∀ p ∈ i.peers, some p.shown.publicKey = p.key := by
    intro p hp
    have := h.named p hp
    simp only [IoPeer.shown]
    cases hk : p.key with
    | none => rw [hk] at this; cases this
    | some k => rfl
  have hmap : (i.peers.map fun p => p.shown.publicKey).map some = i.peers.map (·.key) := by
    rw [List.map_map]
    exact List.map_congr_left hkey
  refine ⟨h.port, h.mark.symm, ?_, ?_, ?_, ?_, ?_, ?_⟩
  · rw [← h.priv]
    simp only [IoIface.shown]
    exact priv_shown _
  · have := h.keys
    rw [← hmap] at this
    have : (i.peers.map fun p => p.shown.publicKey).Nodup := (List.pairwise_map.1 this).imp fun h e => h (congrArg some e)
    simp only [IoIface.shown, List.map_map]
    exact this
  · intro p hp
    simp only [IoIface.shown, List.mem_map] at hp
    obtain ⟨q, hq, rfl⟩ := hp
    rw [h.peer q hq _ (hkey q hq).symm]
    congr 2
    simp only [IoPeer.shown]
    exact psk_shown _
  · intro k hk
    apply h.none
    intro hc
    rw [← hmap, List.mem_map] at hc
    obtain ⟨k', h1, h2⟩ := hc
    cases h2
    apply hk
    simpa [IoIface.shown] using h1
  · intro n k
    rw [h.owner]
    simp only [IoIface.shown, List.mem_map]
    constructor
    · rintro ⟨p, hp, h1, h2⟩
      refine ⟨_, ⟨p, hp, rfl⟩, ?_, h2⟩
      have := hkey p hp
      rw [h1] at this
      exact Option.some.inj this
    · rintro ⟨_, ⟨p, hp, rfl⟩, h1, h2⟩
      exact ⟨p, hp, by rw [← hkey p hp, h1], h2⟩
  · intro p hp a ha
    simp only [IoIface.shown, List.mem_map] at hp
    obtain ⟨q, hq, rfl⟩ := hp
    exact h.net q hq a ha

/-! ### Concrete cases -/

example : ∃ mem i, Win.kernelSet ⟨none, none, fun _ => true⟩ obsdDevice = .ok ⟨0, some mem, true, true⟩ ∧ mem.length = requestSize obsdDevice ∧ readIface mem = some i ∧
    i.request = some { requestOf obsdDevice with fwmark := none } :=
  c69_set ⟨none, none, fun _ => true⟩ rfl rfl obsdDevice (by decide +kernel) (by decide)

/-- The image of that interface, and one with the first peer only. -/
def winImage : Nat → List UInt8
  | 0 => Win.ifaceBlock { obsdDevice with peers := obsdDevice.peers.take 1 }
  | _ => Win.ifaceBlock obsdDevice

def winState : Nat → IoIface
  | 0 => Win.wantIface { obsdDevice with peers := obsdDevice.peers.take 1 }
  | _ => Win.wantIface obsdDevice

def winEnv : Win.GetEnv := ⟨none, fun k size => match answers winImage k size with | .ok b => .ok b | .error n => .more n, ⟨fun _ => none, fun _ _ => 0xaa⟩⟩

theorem winState_spec (k : Nat) : readIface (winImage k) = some (winState k) := by
  cases k with
  | zero => exact (Win.setBuffer_spec { obsdDevice with peers := obsdDevice.peers.take 1 }).2.2 (by decide) (by decide) (by decide)
  | succ k => exact (Win.setBuffer_spec obsdDevice).2.2 (by decide) (by decide) (by decide)

/-- A peer is added between the first and the second call: the third sees both peers. -/
example : ∃ k < 5, Win.kernelGet winEnv b!"wg0" 5 = .ok ⟨0, some ((winState k).shown b!"wg0"), true, true⟩ := by
  rcases c69_get winEnv rfl b!"wg0" (by decide) winImage winState winState_spec (fun _ _ => rfl) (fun _ => rfl) 5 with h | ⟨-, h⟩
  · exact h
  · exact absurd (h 1 (by decide)) (Nat.lt_irrefl _)

/-- The 1st of January 2021 and 50 ms. -/
example : ({ handshake := 132539328000500000 } : IoPeer).shown.handshakeSec = 1609459200 ∧ ({ handshake := 132539328000500000 } : IoPeer).shown.handshakeNsec = 50000000 := by
  decide +kernel

/-- An interface with one peer, as the driver describes it. -/
example : Describes { port := some 51820, peers := [{ key := some (Vector.replicate 32 1), keepalive := some 25, ips := [⟨.v4 #v[10, 0, 0, 0], 8⟩] }] }
    { listenPort := 51820, peers := fun k => if k = Vector.replicate 32 1 then some { keepalive := 25 } else none
      owner := fun n => if n = ⟨.v4 #v[10, 0, 0, 0], 8⟩ then some (Vector.replicate 32 1) else none } := by
  constructor
  · rfl
  · rfl
  · rfl
  · decide
  · decide
  · intro p hp k hk
    simp only [List.mem_singleton] at hp
    subst hp
    cases hk
    simp
  · intro k hk
    simp only [List.map_cons, List.map_nil, List.mem_singleton, Option.some.injEq] at hk
    simp [hk]
  · intro n k
    constructor
    · intro h
      dsimp only at h
      split at h
      · rename_i hn
        cases h
        exact ⟨_, List.mem_singleton_self _, rfl, by simp [hn]⟩
      · cases h
    · rintro ⟨p, hp, h1, h2⟩
      simp only [List.mem_singleton] at hp
      subst hp
      simp only [List.mem_singleton] at h2
      cases h1
      simp [h2]
  · decide +kernel

end WG
