import Verif.Proof.Freebsd
import Verif.Props.Openbsd
/-! C66: the interface to the FreeBSD kernel. -/
namespace WG
open Spec Spec.Obsd Spec.Fbsd

/-! ### Setting -/

theorem fbsd_wantIface_request (d : Device) : (Fbsd.wantIface d).request = some (requestOf d) := wantIface_request d

/-- C66. Setting, for every pattern of failing allocations: either an allocation fails, its error is returned, nothing is sent and everything allocated before is released; or there is no
socket and that error is returned; or exactly one request is sent, for the interface of that name: a name-value list that, read by name, is what the configuration asks for; the code is 0 if the
kernel accepts it and -1 if it does not (with the reason in errno). Nothing is released twice or used after release; but once the request is packed, its buffer is never released. -/
theorem c66_set (env : Fbsd.SetEnv) (d : Device) (hn : d.name.length ≤ 15) (hip : ∀ p ∈ d.peers, ∀ a ∈ p.allowedIPs, a.cidr.toNat ≤ addrBits a.addr) :
    (Fbsd.kernelSet env d).mem.bad = false ∧
    ((∃ n e, env.fails n = some e ∧ (Fbsd.kernelSet env d).code = -(e : Int) ∧ (Fbsd.kernelSet env d).errno = some e ∧ (Fbsd.kernelSet env d).sent = none ∧ (Fbsd.kernelSet env d).mem.held = []) ∨
     (∃ e, env.sock = some e ∧ (Fbsd.kernelSet env d).code = -(e : Int) ∧ (Fbsd.kernelSet env d).errno = some e ∧ (Fbsd.kernelSet env d).sent = none ∧ (Fbsd.kernelSet env d).mem.held.length = 1) ∨
     (env.sock = none ∧ ∃ l i, (Fbsd.kernelSet env d).sent = some (d.name, l) ∧ nvIface l = some i ∧ i.request = some (requestOf d) ∧
       (Fbsd.kernelSet env d).code = (if env.ioctl d.name l = none then 0 else -1) ∧ (Fbsd.kernelSet env d).errno = env.ioctl d.name l ∧ (Fbsd.kernelSet env d).mem.held.length = 1)) := by
  rcases Fbsd.kernelSet_cases env d with ⟨n, e, m, h1, h2, h3⟩ | ⟨a, m, h1, h2⟩
  · rw [h2]
    exact ⟨h3.1, .inl ⟨n, e, h1, rfl, rfl, rfl, List.perm_nil.1 h3.2⟩⟩
  · rw [h1, Fbsd.sendOff, List.take_of_length_le hn]
    have hl : m.held.length = 1 := by simpa using h2.2.length_eq
    cases hs : env.sock with
    | some e => exact ⟨h2.1, .inr (.inl ⟨e, rfl, rfl, rfl, rfl, hl⟩)⟩
    | none =>
      dsimp only
      have hr := Fbsd.nvIface_list d hip
      have hq := fbsd_wantIface_request d
      cases hio : env.ioctl d.name (Fbsd.deviceList d) with
      | none => exact ⟨h2.1, .inr (.inr ⟨rfl, _, _, rfl, hr, hq, by rw [if_pos hio], hio.symm, hl⟩)⟩
      | some e => exact ⟨h2.1, .inr (.inr ⟨rfl, _, _, rfl, hr, hq, by rw [if_neg (by simp [hio])], hio.symm, hl⟩)⟩

/-- C66. When memory and a socket can be had, the request does reach the kernel. -/
theorem c66_set_sent (env : Fbsd.SetEnv) (h1 : ∀ n, env.fails n = none) (h2 : env.sock = none) (d : Device) (hn : d.name.length ≤ 15)
    (hip : ∀ p ∈ d.peers, ∀ a ∈ p.allowedIPs, a.cidr.toNat ≤ addrBits a.addr) :
    ∃ l i, (Fbsd.kernelSet env d).sent = some (d.name, l) ∧ nvIface l = some i ∧ i.request = some (requestOf d) ∧ (Fbsd.kernelSet env d).code = if env.ioctl d.name l = none then 0 else -1 := by
  rcases (c66_set env d hn hip).2 with ⟨n, e, g, -⟩ | ⟨e, g, -⟩ | ⟨-, l, i, g1, g2, g3, g4, -⟩
  · rw [h1] at g; cases g
  · rw [h2] at g; cases g
  · exact ⟨l, i, g1, g2, g3, g4⟩

/-- C66. So with a kernel that does what it is asked (Spec/Driver), a successful operation leaves the interface as the configuration says. -/
theorem c66_set_effect (env : Fbsd.SetEnv) (hF : ∀ n, env.fails n ≠ some 0) (hS : env.sock ≠ some 0) (d : Device) (hn : d.name.length ≤ 15)
    (hip : ∀ p ∈ d.peers, ∀ a ∈ p.allowedIPs, a.cidr.toNat ≤ addrBits a.addr) (before after : Iface)
    (hk : ∀ l i r, env.ioctl d.name l = none → nvIface l = some i → i.request = some r → after = applyReq before r) (hok : (Fbsd.kernelSet env d).code = 0) :
    after = applyReq before (requestOf d) := by
  rcases (c66_set env d hn hip).2 with ⟨n, e, g, g1, -⟩ | ⟨e, g, g1, -⟩ | ⟨-, l, i, -, g2, g3, g4, -⟩
  · have : e ≠ 0 := fun h => hF n (by rw [g, h])
    omega
  · have : e ≠ 0 := fun h => hS (by rw [g, h])
    omega
  · by_cases hio : env.ioctl d.name l = none
    · exact hk l i _ hio g2 g3
    · rw [if_neg hio] at g4
      omega

/-! ### Getting -/

/-- C66. Getting: if the interface, as the second call finds it, still fits the size told by the first, then all of it is shown, IPv6 endpoints included; no byte outside the answer is read. -/
theorem c66_get (env : Fbsd.GetEnv) (h1 : env.sock = none) (h2 : env.malloc = none) (iface : CStr) (hn : iface.length ≤ 15) (size : Nat) (hf : env.first iface = .ok size) (l : Fbsd.NvList) (i : IoIface)
    (hs : env.second iface size = .ok (.ok l)) (hl : nvIface l = some i) : Fbsd.kernelGet env iface = .ok (0, some (i.shown iface)) := by
  rw [Fbsd.kernelGet, h1]
  dsimp only
  rw [List.take_of_length_le hn, hf]
  dsimp only
  rw [h2]
  dsimp only
  rw [hs]
  dsimp only
  rw [nvIface] at hl
  by_cases hu : unique l = true
  · rw [if_neg (by simp [hu])] at hl
    obtain ⟨pub, g1, hl⟩ := Option.bind_eq_some_iff.1 hl
    obtain ⟨priv, g2, hl⟩ := Option.bind_eq_some_iff.1 hl
    obtain ⟨port, g3, hl⟩ := Option.bind_eq_some_iff.1 hl
    obtain ⟨mark, g4, hl⟩ := Option.bind_eq_some_iff.1 hl
    obtain ⟨rep, -, hl⟩ := Option.bind_eq_some_iff.1 hl
    obtain ⟨ls, g5, hl⟩ := Option.bind_eq_some_iff.1 hl
    obtain ⟨ps, g6, rfl⟩ := Option.map_eq_some_iff.1 hl
    rw [Fbsd.binOf_eq hu g1, Fbsd.binOf_eq hu g2, Fbsd.numUpTo_eq hu g3, Fbsd.numUpTo_eq hu g4, Fbsd.find_lists hu g5, Fbsd.getPeers_spec _ _ g6, Obsd.okb]
    dsimp only
    rw [Fbsd.keyOf, Fbsd.keyOf, Fbsd.numGet16, Fbsd.numGet32]
    simp only [IoIface.shown, Option.isSome_map]
  · rw [if_pos (by simpa using hu)] at hl; cases hl

/-- C66. What is shown is a faithful report of the interface (as `wg showconf` needs it, C38), when the kernel's list describes it. -/
theorem c66_reports (env : Fbsd.GetEnv) (h1 : env.sock = none) (h2 : env.malloc = none) (iface : CStr) (hn : iface.length ≤ 15) (size : Nat) (hf : env.first iface = .ok size) (l : Fbsd.NvList) (i : IoIface)
    (hs : env.second iface size = .ok (.ok l)) (hl : nvIface l = some i) (s : Iface) (hd : Describes i s) :
    ∃ d, Fbsd.kernelGet env iface = .ok (0, some d) ∧ Reports d s :=
  ⟨_, c66_get env h1 h2 iface hn size hf l i hs hl, c65_reports iface i s hd⟩

/-- C66. Every way to fail: an error of the socket, of either call (an interface that has grown between them included), of memory or of unpacking is returned negated, without a device. The only
other outcome without a device is the code 22 (see below). -/
theorem c66_get_fails (env : Fbsd.GetEnv) (iface : CStr) (code : Int) (d : Option Device) (h : Fbsd.kernelGet env iface = .ok (code, d)) :
    (code = 0 ∧ d.isSome = true) ∨ (code = 22 ∧ d = none) ∨ (d = none ∧ ∃ e : Nat, code = -(e : Int) ∧
      (env.sock = some e ∨ env.first (iface.take 15) = .error e ∨ env.malloc = some e ∨ ∃ size, env.second (iface.take 15) size = .error e ∨ env.second (iface.take 15) size = .ok (.error e))) := by
  rw [Fbsd.kernelGet] at h
  cases hs : env.sock with
  | some e => rw [hs] at h; cases h; exact .inr (.inr ⟨rfl, e, rfl, .inl rfl⟩)
  | none =>
    rw [hs] at h
    dsimp only at h
    cases hf : env.first (iface.take 15) with
    | error e => rw [hf] at h; cases h; exact .inr (.inr ⟨rfl, e, rfl, .inr (.inl rfl)⟩)
    | ok size =>
      rw [hf] at h
      dsimp only at h
      cases hm : env.malloc with
      | some e => rw [hm] at h; cases h; exact .inr (.inr ⟨rfl, e, rfl, .inr (.inr (.inl rfl))⟩)
      | none =>
        rw [hm] at h
        dsimp only at h
        cases h2 : env.second (iface.take 15) size with
        | error e => rw [h2] at h; cases h; exact .inr (.inr ⟨rfl, e, rfl, .inr (.inr (.inr ⟨size, .inl h2⟩))⟩)
        | ok r =>
          rw [h2] at h
          cases r with
          | error e => cases h; exact .inr (.inr ⟨rfl, e, rfl, .inr (.inr (.inr ⟨size, .inr h2⟩))⟩)
          | ok l =>
            dsimp only at h
            generalize hp : Fbsd.getPeers ((Fbsd.find Fbsd.Nv.lists? l b!"peers").getD []) = r at h
            cases r with
            | ok r =>
              rw [Obsd.okb] at h
              cases r with
              | none => cases h; exact .inr (.inl ⟨rfl, rfl⟩)
              | some r => cases h; exact .inl ⟨rfl, rfl⟩
            | fail => cases h
            | exit1 => cases h
            | ub => cases h
            | running => cases h

/-- The interface with one peer with one allowed IP given by this list. -/
def oneAip (aip : Fbsd.NvList) : Fbsd.GetEnv :=
  ⟨none, fun _ => .ok 100, none, fun _ _ => .ok (.ok [(b!"peers", .lists [[(b!"public-key", .bin (List.replicate 32 1)), (b!"allowed-ips", .lists [aip])]])])⟩

/-- C66 (a defect). For a prefix length out of range the code is 22, not negative, and there is no device: the callers, which look for negative codes, go on with a null pointer. -/
theorem c66_counterexample_positive_error (n : Nat) (b : List UInt8) (iface : CStr) :
    (32 < n → Fbsd.kernelGet (oneAip [(b!"cidr", .num n), (b!"ipv4", .bin b)]) iface = .ok (22, none)) ∧
    (128 < n → Fbsd.kernelGet (oneAip [(b!"cidr", .num n), (b!"ipv6", .bin b)]) iface = .ok (22, none)) := by
  constructor
  · intro h
    have : Fbsd.getAips [[(b!"cidr", .num n), (b!"ipv4", .bin b)]] = .ok none := by
      change (if n > 32 then _ else _) = _
      rw [if_pos h]
    change ((Fbsd.getPeers _).bind _ : Res (Int × Option Device)) = _
    rw [show Fbsd.getPeers _ = Res.ok none by
      change ((Fbsd.getPeer _).bind _ : Res _) = _
      rw [show Fbsd.getPeer _ = Res.ok none by
        change ((Fbsd.getAips [[(b!"cidr", .num n), (b!"ipv4", .bin b)]]).bind _ : Res _) = _
        rw [this]; rfl]]
  · intro h
    have : Fbsd.getAips [[(b!"cidr", .num n), (b!"ipv6", .bin b)]] = .ok none := by
      change (if n > 128 then _ else _) = _
      rw [if_pos h]
    change ((Fbsd.getPeers _).bind _ : Res (Int × Option Device)) = _
    rw [show Fbsd.getPeers _ = Res.ok none by
      change ((Fbsd.getPeer _).bind _ : Res _) = _
      rw [show Fbsd.getPeer _ = Res.ok none by
        change ((Fbsd.getAips [[(b!"cidr", .num n), (b!"ipv6", .bin b)]]).bind _ : Res _) = _
        rw [this]; rfl]]

/-- C66 (a defect). The size of an allowed IP's address is not looked at: a shorter one is read beyond its end. -/
theorem c66_counterexample_short_address (iface : CStr) : Fbsd.kernelGet (oneAip [(b!"cidr", .num 8), (b!"ipv6", .bin [10, 0, 0, 0])]) iface = .ub := rfl

/-- C66 (a defect). A name that is too long is cut without notice: `wg show` of it shows another interface, `wg set` of it changes another. -/
theorem c66_counterexample_long_name (env : Fbsd.GetEnv) (senv : Fbsd.SetEnv) (iface : CStr) (d : Device) :
    Fbsd.kernelGet env iface = Fbsd.kernelGet env (iface.take 15) ∧ Fbsd.kernelSet senv d = Fbsd.kernelSet senv { d with name := d.name.take 15 } := by
  have h : ∀ n : CStr, (n.take 15).take 15 = n.take 15 := fun n => by rw [List.take_take]; rfl
  constructor
  · rw [Fbsd.kernelGet, Fbsd.kernelGet, h]
  · rw [Fbsd.kernelSet, Fbsd.kernelSet]
    simp only [h]
    rfl

/-! ### Concrete cases -/

example : ∃ l i, (Fbsd.kernelSet ⟨fun _ => none, none, fun _ _ => some 1⟩ obsdDevice).sent = some (b!"wg0", l) ∧ nvIface l = some i ∧ i.request = some (requestOf obsdDevice) ∧
    (Fbsd.kernelSet ⟨fun _ => none, none, fun _ _ => some 1⟩ obsdDevice).code = -1 := by
  obtain ⟨l, i, h1, h2, h3, h4⟩ := c66_set_sent ⟨fun _ => none, none, fun _ _ => some 1⟩ (fun _ => rfl) rfl obsdDevice (by decide) (by decide)
  exact ⟨l, i, h1, h2, h3, h4⟩

/-- The fifth allocation fails: everything before is released. -/
example : (Fbsd.kernelSet ⟨fun n => if n = 4 then some 12 else none, none, fun _ _ => none⟩ obsdDevice).code = -12 ∧
    (Fbsd.kernelSet ⟨fun n => if n = 4 then some 12 else none, none, fun _ _ => none⟩ obsdDevice).mem = { next := 5 } := ⟨rfl, rfl⟩

/-- The kernel's list of an interface with an IPv6 endpoint. -/
def fbsdList : Fbsd.NvList := [
  (b!"listen-port", .num 51820), (b!"public-key", .bin (List.replicate 32 5)),
  (b!"peers", .lists [[(b!"public-key", .bin (List.replicate 32 1)), (b!"rx-bytes", .num 100), (b!"last-handshake-time", .bin (WG.Obsd.leBytes 8 1700000000 ++ WG.Obsd.leBytes 8 5)),
    (b!"endpoint", .bin ([28, 28, 0, 53] ++ List.replicate 24 9)), (b!"allowed-ips", .lists [[(b!"ipv4", .bin [10, 0, 0, 0]), (b!"cidr", .num 8)]])]])]

example : ∃ i, nvIface fbsdList = some i ∧ Fbsd.kernelGet ⟨none, fun _ => .ok 9, none, fun _ _ => .ok (.ok fbsdList)⟩ b!"wg0" = .ok (0, some (i.shown b!"wg0")) ∧
    (i.shown b!"wg0").peers.map (·.endpoint) = [.in6 (Vector.replicate 16 9) 53 0x09090909 0x09090909] ∧ (i.shown b!"wg0").peers.map (·.handshakeSec) = [1700000000] := by
  have h : ((nvIface fbsdList).map fun i => decide ((i.shown b!"wg0").peers.map (·.endpoint) = [.in6 (Vector.replicate 16 9) 53 0x09090909 0x09090909] ∧
    (i.shown b!"wg0").peers.map (·.handshakeSec) = [1700000000])) = some true := by decide +kernel
  obtain ⟨i, hi, h2⟩ := Option.map_eq_some_iff.1 h
  have h2 := of_decide_eq_true h2
  exact ⟨i, hi, c66_get ⟨none, fun _ => .ok 9, none, fun _ _ => .ok (.ok fbsdList)⟩ rfl rfl b!"wg0" (by decide) 9 rfl fbsdList i rfl hi, h2.1, h2.2⟩

/-- The interface has grown between the calls. -/
example : Fbsd.kernelGet ⟨none, fun _ => .ok 9, none, fun _ size => if size < 10 then .error 28 else .ok (.ok fbsdList)⟩ b!"wg0" = .ok (-28, none) := rfl

end WG
