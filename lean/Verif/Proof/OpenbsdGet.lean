import Verif.Proof.Openbsd
import Verif.Proof.NetlinkDump
/-! Proofs about the OpenBSD interface: getting and listing (C65). -/
namespace WG.Obsd
open Spec Spec.Obsd

theorem rdBytes_mid0 (pre blk post : List UInt8) (n : Nat) (h : n ≤ blk.length) : rdBytes (pre ++ blk ++ post) pre.length n = .ok (field blk 0 n) :=
  rdBytes_mid pre blk post 0 n (by omega)

theorem rdNum_mid0 (pre blk post : List UInt8) (n : Nat) (h : n ≤ blk.length) : rdNum (pre ++ blk ++ post) pre.length n = .ok (number blk 0 n) :=
  rdNum_mid pre blk post 0 n (by omega)

theorem field_take {m : List UInt8} {i n k : Nat} (h : i + n ≤ k) : field (m.take k) i n = field m i n := by
  have := field_field (m := m) (i := 0) (n := k) (a := i) (b := n) h
  simpa [field] using this

theorem number_take {m : List UInt8} {i n k : Nat} (h : i + n ≤ k) : number (m.take k) i n = number m i n := by rw [number, field_take h]; rfl

/-! ### One structure after another -/

theorem getAip_mid {m : List UInt8} {a : AllowedIP} (hl : 24 ≤ m.length) (h : readAip (m.take 24) = some a) (pre post : List UInt8) :
    getAip (pre ++ m ++ post) pre.length = .ok a := by
  rw [readAip] at h
  rw [number_take (by omega), number_take (by omega), field_take (by omega), field_take (by omega)] at h
  rw [getAip, rdNum_mid0 _ _ _ _ (by omega), okb]
  by_cases h2 : number m 0 1 = 2 ∧ number m 4 4 ≤ 32
  · rw [if_pos h2] at h
    obtain ⟨v, hv, rfl⟩ := Option.map_eq_some_iff.1 h
    rw [if_pos h2.1, rdBytes_mid _ _ _ _ _ (by omega), okb, rdNum_mid _ _ _ _ _ (by omega), okb, bytes?_some hv, vecAt_toList']
  · rw [if_neg h2] at h
    by_cases h3 : number m 0 1 = 24 ∧ number m 4 4 ≤ 128
    · rw [if_pos h3] at h
      obtain ⟨v, hv, rfl⟩ := Option.map_eq_some_iff.1 h
      rw [if_neg (by omega), if_pos h3.1, rdBytes_mid _ _ _ _ _ (by omega), okb, rdNum_mid _ _ _ _ _ (by omega), okb, bytes?_some hv, vecAt_toList']
    · rw [if_neg h3] at h; cases h

theorem getAips_mid : ∀ (n : Nat) (m : List UInt8) (l : List AllowedIP) (r : List UInt8), readAips n m = some (l, r) → ∀ (pre post : List UInt8),
    getAips (pre ++ m ++ post) n pre.length = .ok (l, pre.length + 24 * n) ∧ m = m.take (24 * n) ++ r ∧ 24 * n ≤ m.length ∧ l.length = n := by
  intro n
  induction n with
  | zero =>
    intro m l r h pre post
    simp only [readAips, Option.some.injEq, Prod.mk.injEq] at h
    obtain ⟨rfl, rfl⟩ := h
    exact ⟨rfl, by simp, by simp, rfl⟩
  | succ n ih =>
    intro m l r h pre post
    rw [readAips] at h
    by_cases hl : m.length < 24
    · rw [if_pos hl] at h; cases h
    rw [if_neg hl] at h
    obtain ⟨a, ha, h⟩ := Option.bind_eq_some_iff.1 h
    obtain ⟨⟨l', r'⟩, hr, h⟩ := Option.map_eq_some_iff.1 h
    simp only [Prod.mk.injEq] at h
    obtain ⟨rfl, rfl⟩ := h
    have i := ih (m.drop 24) l' r' hr (pre ++ m.take 24) post
    have e : pre ++ m.take 24 ++ m.drop 24 ++ post = pre ++ m ++ post := by rw [List.append_assoc pre, List.take_append_drop]
    have e2 : (pre ++ m.take 24).length = pre.length + 24 := by simp; omega
    rw [e, e2] at i
    refine ⟨?_, ?_, ?_, by simp [i.2.2.2]⟩
    · rw [getAips, getAip_mid (by omega) ha, okb, i.1, okb]
      congr 2
      omega
    · rw [show 24 * (n + 1) = 24 + 24 * n by omega, List.take_add, List.append_assoc, ← i.2.1, List.take_append_drop]
    · have := i.2.2.1
      simp at this
      omega

/-- IPv4 endpoints only. -/
def v4Only : Option Endpoint → Endpoint
  | some (.in4 a q) => .in4 a q
  | _ => .unset

/-- How the tool sees a peer. -/
def seenPeer (p : IoPeer) : Peer where
  flags := { hasPublicKey := p.key.isSome, hasPresharedKey := p.psk.any (· ≠ zeroKey), hasKeepalive := p.keepalive.isSome }
  publicKey := p.key.getD zeroKey
  presharedKey := p.psk.getD zeroKey
  keepalive := p.keepalive.getD 0
  endpoint := v4Only p.endpoint
  rx := p.rx
  tx := p.tx
  handshakeSec := p.sec
  handshakeNsec := p.nsec
  allowedIPs := p.ips

theorem vecAt_nil : (vecAt [] : Key) = zeroKey := by decide

theorem flagged_some {α : Type} {b : Bool} {x : Option α} {y : Option α} (h : flagged b x = some y) : (b = true → ∃ v, x = some v ∧ y = some v) ∧ (b = false → y = none) := by
  cases b
  · simp only [flagged, if_false, Bool.false_eq_true] at h
    exact ⟨nofun, fun _ => (Option.some.inj h).symm⟩
  · simp only [flagged, if_true] at h
    obtain ⟨v, h1, h2⟩ := Option.map_eq_some_iff.1 h
    exact ⟨fun _ => ⟨v, h1, h2.symm⟩, nofun⟩

theorem rdIf_key {m pre post : List UInt8} {b : Bool} {k : Nat} {key : Option Key} (hk : k + 32 ≤ m.length) (h : flagged b (bytes? 32 (field m k 32)) = some key) :
    rdIf b (rdBytes (pre ++ m ++ post) (pre.length + k) 32) = .ok (key.map (·.toList)) := by
  cases b
  · rw [(flagged_some h).2 rfl]; rfl
  · obtain ⟨v, h1, h2⟩ := (flagged_some h).1 rfl
    rw [rdIf, if_pos rfl, rdBytes_mid _ _ _ _ _ hk, okb, bytes?_some h1, h2]; rfl

theorem rdIf_num {m pre post : List UInt8} {b : Bool} {k n : Nat} (hk : k + n ≤ m.length) :
    rdIf b (rdNum (pre ++ m ++ post) (pre.length + k) n) = .ok (if b then some (number m k n) else none) := by
  cases b
  · rfl
  · rw [rdIf, if_pos rfl, rdNum_mid _ _ _ _ _ hk]; rfl

theorem number_lt (m : List UInt8) (i n : Nat) : number m i n < 256 ^ n := by
  have aux : ∀ (l : List UInt8), le l < 256 ^ l.length := by
    intro l
    induction l with
    | nil => simp [le]
    | cons a l ih =>
      have := a.toNat_lt
      rw [le, List.length_cons, Nat.pow_succ']; omega
  refine Nat.lt_of_lt_of_le (aux _) ?_
  apply Nat.pow_le_pow_right (by omega)
  simp [field]; omega

theorem toInt64_signed {n : Nat} (h : n < 256 ^ 8) : toInt64 n = signed64 n := by
  rw [toInt64, signed64]
  split <;> omega

theorem le_single {x : List UInt8} {v : Nat} (hx : x.length = 1) (h : le x = v) : x = [UInt8.ofNat v] := by
  match x, hx with
  | [a], _ => simp [le] at h; rw [← h]; simp

/-- The endpoint as copied. -/
theorem endpoint_seen {m : List UInt8} (hl : 144 ≤ m.length) {e : Endpoint} (h : readBsdSockaddr (field m 76 28) = some e) :
    (∃ a q, e = .in4 a q ∧ number m 76 1 = 16 ∧ seeUnion (field m 76 16) = .in4 a q) ∨ (∃ a q fl sc, e = .in6 a q fl sc ∧ number m 76 1 = 28) := by
  rw [readBsdSockaddr] at h
  have sub (i n : Nat) (hi : i + n ≤ 28) : field (field m 76 28) i n = field m (76 + i) n := field_field hi
  have subn (i n : Nat) (hi : i + n ≤ 28) : number (field m 76 28) i n = number m (76 + i) n := by rw [number, sub i n hi]; rfl
  rw [subn 0 1 (by omega), subn 1 1 (by omega), sub 4 4 (by omega), sub 2 2 (by omega), sub 8 16 (by omega)] at h
  by_cases h1 : number m 76 1 = 16 ∧ number m (76 + 1) 1 = 2
  · rw [if_pos h1] at h
    obtain ⟨v, hv, rfl⟩ := Option.map_eq_some_iff.1 h
    left
    refine ⟨v, _, rfl, h1.1, ?_⟩
    have e1 : field m 77 1 = [2] := le_single (field_length (by omega)) h1.2
    have hv' := bytes?_some hv
    have e16 : field m 76 16 = field m 76 1 ++ field m 77 1 ++ field m 78 2 ++ v.toList ++ field m 84 8 := by
      have : field m 80 4 = v.toList := hv'
      rw [← this]
      have cut (i a b : Nat) : field m i (a + b) = field m i a ++ field m (i + a) b := by
        rw [field, List.take_add, List.drop_drop]; rfl
      rw [show (16 : Nat) = 1 + (1 + (2 + (4 + 8))) from rfl, cut, cut, cut, cut]
      simp
    have e0 : ∃ x, field m 76 1 = [x] := by
      have := field_length (m := m) (i := 76) (n := 1) (by omega)
      match h : field m 76 1, this with
      | [x], _ => exact ⟨x, rfl⟩
    obtain ⟨x, hx⟩ := e0
    have e78 : ∃ y z, field m 78 2 = [y, z] := by
      have := field_length (m := m) (i := 78) (n := 2) (by omega)
      match h : field m 78 2, this with
      | [y, z], _ => exact ⟨y, z, rfl⟩
    obtain ⟨y, z, hyz⟩ := e78
    rw [e16, e1, hx, hyz]
    rw [seeUnion]
    simp only [List.cons_append, List.nil_append, List.getD_cons_succ, List.getD_cons_zero, if_true, List.drop_succ_cons, List.drop_zero]
    rw [vecAt_toList]
    simp [bePort, le, leNat]
  · rw [if_neg h1] at h
    by_cases h2 : number m 76 1 = 28 ∧ number m (76 + 1) 1 = 24
    · rw [if_pos h2] at h
      obtain ⟨v, hv, rfl⟩ := Option.map_eq_some_iff.1 h
      right
      exact ⟨_, _, _, _, rfl, h2.1⟩
    · rw [if_neg h2] at h; cases h

theorem getPeer_mid {m : List UInt8} {p : IoPeer} {r : List UInt8} (h : readPeer m = some (p, r)) (pre post : List UInt8) :
    ∃ k, getPeer (pre ++ m ++ post) pre.length = .ok (seenPeer p, pre.length + k) ∧ m = m.take k ++ r ∧ k ≤ m.length := by
  rw [readPeer] at h
  by_cases hl : m.length < 144
  · rw [if_pos hl] at h; cases h
  rw [if_neg hl] at h
  dsimp only at h
  obtain ⟨key, hkey, h⟩ := Option.bind_eq_some_iff.1 h
  obtain ⟨psk, hpsk, h⟩ := Option.bind_eq_some_iff.1 h
  obtain ⟨ka, hka, h⟩ := Option.bind_eq_some_iff.1 h
  obtain ⟨ep, hep, h⟩ := Option.bind_eq_some_iff.1 h
  obtain ⟨⟨ips, r'⟩, hr, h⟩ := Option.map_eq_some_iff.1 h
  simp only [Prod.mk.injEq] at h
  obtain ⟨rfl, rfl⟩ := h
  have i := getAips_mid _ _ _ _ hr (pre ++ m.take 144) post
  have e : pre ++ m.take 144 ++ m.drop 144 ++ post = pre ++ m ++ post := by rw [List.append_assoc pre, List.take_append_drop]
  have e2 : (pre ++ m.take 144).length = pre.length + 144 := by simp; omega
  rw [e, e2] at i
  refine ⟨144 + 24 * number m 136 8, ?_, ?_, ?_⟩
  rotate_left
  · rw [List.take_add, List.append_assoc, ← i.2.1, List.take_append_drop]
  · have := i.2.2.1
    simp at this
    omega
  rw [getPeer, rdNum_mid0 _ _ _ _ (by omega), okb, rdIf_key (by omega) hkey, okb, rdIf_key (by omega) hpsk, okb, rdIf_num (by omega), okb, rdIf_num (by omega), okb]
  have hep' : ∃ epb : Option (List UInt8), rdIf ((if (number m 0 4).testBit 3 then some (number m 76 1) else none).any (· ≤ 16))
        (rdBytes (pre ++ m ++ post) (pre.length + 76) ((if (number m 0 4).testBit 3 then some (number m 76 1) else none).getD 0)) = .ok epb ∧
      seeUnion (epb.getD []) = v4Only ep := by
    cases hb : (number m 0 4).testBit 3 with
    | false =>
      rw [hb] at hep
      rw [(flagged_some hep).2 rfl]
      exact ⟨none, rfl, rfl⟩
    | true =>
      rw [hb] at hep
      obtain ⟨v, h1, h2⟩ := (flagged_some hep).1 rfl
      rcases endpoint_seen (by omega) h1 with ⟨a, q, rfl, h3, h4⟩ | ⟨a, q, fl, sc, rfl, h3⟩
      · refine ⟨some (field m 76 16), ?_, ?_⟩
        · simp only [if_true, h3, Option.getD_some]
          rw [rdBytes_mid _ _ _ _ _ (by omega)]; rfl
        · rw [h2]; exact h4
      · refine ⟨none, ?_, ?_⟩
        · simp only [if_true, h3, Option.getD_some]; rfl
        · rw [h2]; rfl
  obtain ⟨epb, g1, g2⟩ := hep'
  rw [g1, okb, rdNum_mid _ _ _ _ _ (by omega), okb, rdNum_mid _ _ _ _ _ (by omega), okb, rdNum_mid _ _ _ _ _ (by omega), okb, rdNum_mid _ _ _ _ _ (by omega), okb,
    rdNum_mid _ _ _ _ _ (by omega), okb, i.1, okb]
  have hk : (vecAt ((key.map (·.toList)).getD []) : Key) = key.getD zeroKey := by
    cases key
    · exact vecAt_nil
    · exact vecAt_toList' _
  have hp : (vecAt ((psk.map (·.toList)).getD []) : Key) = psk.getD zeroKey := by
    cases psk
    · exact vecAt_nil
    · exact vecAt_toList' _
  have hz : ((psk.map (·.toList)).any (¬ allZero ·)) = psk.any (· ≠ zeroKey) := by
    cases psk
    · rfl
    · simp [allZero_key]
  have hka' : ka = if (number m 0 4).testBit 2 then some (UInt16.ofNat (number m 72 2)) else none := by
    cases hb : (number m 0 4).testBit 2 with
    | false => rw [hb] at hka; rw [(flagged_some hka).2 rfl]; rfl
    | true =>
      rw [hb] at hka
      obtain ⟨v, h1, h2⟩ := (flagged_some hka).1 rfl
      rw [h2, ← h1]; rfl
  have e3 : pre.length + 144 + 24 * number m 136 8 = pre.length + (144 + 24 * number m 136 8) := by omega
  dsimp only
  rw [hk, hp, hz, g2, toInt64_signed (number_lt _ _ _), toInt64_signed (number_lt _ _ _), e3]
  congr 2
  rw [seenPeer, hka']
  cases (number m 0 4).testBit 2 <;> simp

theorem getPeers_mid : ∀ (n : Nat) (m : List UInt8) (l : List IoPeer) (r : List UInt8), readPeers n m = some (l, r) → ∀ (pre post : List UInt8),
    getPeers (pre ++ m ++ post) n pre.length = .ok (l.map seenPeer) := by
  intro n
  induction n with
  | zero =>
    intro m l r h pre post
    simp only [readPeers, Option.some.injEq, Prod.mk.injEq] at h
    obtain ⟨rfl, rfl⟩ := h
    rfl
  | succ n ih =>
    intro m l r h pre post
    rw [readPeers] at h
    obtain ⟨⟨p, r1⟩, hp, h⟩ := Option.bind_eq_some_iff.1 h
    obtain ⟨⟨l', r'⟩, hr, h⟩ := Option.map_eq_some_iff.1 h
    simp only [Prod.mk.injEq] at h
    obtain ⟨rfl, rfl⟩ := h
    obtain ⟨k, h1, h2, h3⟩ := getPeer_mid hp pre post
    have i := ih r1 l' r' hr (pre ++ m.take k) post
    have e : pre ++ m.take k ++ r1 ++ post = pre ++ m ++ post := by rw [List.append_assoc pre, ← h2]
    have e2 : (pre ++ m.take k).length = pre.length + k := by simp; omega
    rw [e, e2] at i
    rw [getPeers, h1, okb, i]
    rfl

/-- How the tool sees an interface. -/
def seenDevice (name : CStr) (i : IoIface) : Device where
  name := name
  flags := { hasFwmark := i.rtable.isSome, hasListenPort := i.port.isSome, hasPublicKey := i.publicKey.isSome, hasPrivateKey := i.privateKey.isSome }
  fwmark := i.rtable.getD 0
  listenPort := i.port.getD 0
  publicKey := i.publicKey.getD zeroKey
  privateKey := i.privateKey.getD zeroKey
  peers := i.peers.map seenPeer

theorem getDevice_spec {m : List UInt8} {i : IoIface} (h : readIface m = some i) (post : List UInt8) (iface : CStr) :
    getDevice (m ++ post) iface = .ok (seenDevice (iface.take 15) i) := by
  rw [readIface] at h
  by_cases hl : m.length < 80
  · rw [if_pos hl] at h; cases h
  rw [if_neg hl] at h
  dsimp only at h
  obtain ⟨pub, hpub, h⟩ := Option.bind_eq_some_iff.1 h
  obtain ⟨priv, hpriv, h⟩ := Option.bind_eq_some_iff.1 h
  obtain ⟨port, hport, h⟩ := Option.bind_eq_some_iff.1 h
  obtain ⟨rt, hrt, h⟩ := Option.bind_eq_some_iff.1 h
  obtain ⟨⟨peers, r⟩, hr, h⟩ := Option.bind_eq_some_iff.1 h
  dsimp only at h
  by_cases hr' : r ≠ []
  · rw [if_pos hr'] at h; cases h
  rw [if_neg hr'] at h
  have h := Option.some.inj h
  subst h
  have nb (k n : Nat) (hk : k + n ≤ m.length) : rdNum (m ++ post) k n = .ok (number m k n) := by
    have := rdNum_mid [] m post k n hk
    simpa using this
  have kb (b : Bool) (k : Nat) (key : Option Key) (hk : k + 32 ≤ m.length) (h : flagged b (bytes? 32 (field m k 32)) = some key) :
      rdIf b (rdBytes (m ++ post) k 32) = .ok (key.map (·.toList)) := by
    have := rdIf_key (pre := []) (post := post) hk h
    simpa using this
  have nif (b : Bool) (k n : Nat) (hk : k + n ≤ m.length) : rdIf b (rdNum (m ++ post) k n) = .ok (if b then some (number m k n) else none) := by
    have := rdIf_num (pre := []) (post := post) (b := b) hk
    simpa using this
  have hp := getPeers_mid _ _ _ _ hr (m.take 80) post
  have e2 : (m.take 80).length = 80 := by simp; omega
  rw [List.take_append_drop, e2] at hp
  rw [getDevice, nb 0 1 (by omega), okb, nif _ 4 4 (by omega), okb, nif _ 2 2 (by omega), okb, kb _ 8 _ (by omega) hpub, okb, kb _ 40 _ (by omega) hpriv, okb, nb 72 8 (by omega), okb, hp, okb]
  have hk : ∀ key : Option Key, (vecAt ((key.map (·.toList)).getD []) : Key) = key.getD zeroKey := by
    intro key
    cases key
    · exact vecAt_nil
    · exact vecAt_toList' _
  have hport' : port = if (number m 0 1).testBit 2 then some (UInt16.ofNat (number m 2 2)) else none := by
    cases hb : (number m 0 1).testBit 2 with
    | false => rw [hb] at hport; rw [(flagged_some hport).2 rfl]; rfl
    | true =>
      rw [hb] at hport
      obtain ⟨v, h1, h2⟩ := (flagged_some hport).1 rfl
      rw [h2, ← h1]; rfl
  have hrt' : rt = if (number m 0 1).testBit 3 then some (UInt32.ofNat (number m 4 4)) else none := by
    cases hb : (number m 0 1).testBit 3 with
    | false => rw [hb] at hrt; rw [(flagged_some hrt).2 rfl]; rfl
    | true =>
      rw [hb] at hrt
      obtain ⟨v, h1, h2⟩ := (flagged_some hrt).1 rfl
      rw [h2, ← h1]; rfl
  rw [hk, hk, hport', hrt']
  congr 1
  rw [seenDevice]
  cases (number m 0 1).testBit 2 <;> cases (number m 0 1).testBit 3 <;> simp

/-! ### The loop around SIOCGWG -/

theorem wrote_length (data b : List UInt8) : (wrote data b).length = b.length := by simp [wrote]; omega

theorem wrote_fits {data b : List UInt8} (h : data.length ≤ b.length) : wrote data b = data ++ b.drop data.length := by
  rw [wrote, List.take_of_length_le h]

/-- The size of the last answer before call `k`. -/
def lastSize (image : Nat → List UInt8) : Nat → Nat
  | 0 => 0
  | k + 1 => (image k).length

theorem getLoop_spec (env : GetEnv) (name : CStr) (image : Nat → List UInt8) (hne : ∀ k, image k ≠ [])
    (hio : ∀ k size, env.ioctl k name size = .ok (answers image k size).1 (answers image k size).2) (hheap : ∀ n, env.heap.fail n = none) :
    ∀ (fuel k : Nat) (buf : Option (List UInt8)), (k = 0 → buf = none) → (k ≠ 0 → ∃ b, buf = some b ∧ b.length = lastSize image k) →
      (getLoop env name fuel k (lastSize image k) buf = .running ∧ ∀ j, k ≤ j → j < k + fuel → lastSize image j < (image j).length) ∨
      ∃ j post, k ≤ j ∧ j < k + fuel ∧ getLoop env name fuel k (lastSize image k) buf = .ok (.ok (some (image j ++ post))) := by
  intro fuel
  induction fuel with
  | zero => intro k buf _ _; exact .inl ⟨rfl, by omega⟩
  | succ fuel ih =>
    intro k buf h0 h1
    rw [getLoop, hio]
    dsimp only [answers]
    have hpos : 0 < (image k).length := List.length_pos_iff.2 (hne k)
    by_cases hle : lastSize image k ≥ (image k).length
    · have hk : k ≠ 0 := by rintro rfl; simp only [lastSize] at hle; omega
      obtain ⟨b, rfl, hb⟩ := h1 hk
      right
      refine ⟨k, b.drop (image k).length, by omega, by omega, ?_⟩
      rw [if_pos hle, if_pos hle, Option.map_some, wrote_fits (by omega)]
    · rw [if_neg hle, hheap, if_neg hle]
      dsimp only
      have hb : ((buf.map (wrote [])).getD []).length ≤ (image k).length := by
        by_cases hk : k = 0
        · rw [h0 hk]; simp
        · obtain ⟨b, rfl, hb⟩ := h1 hk
          rw [Option.map_some, Option.getD_some, wrote_length]; omega
      have hl : (reallocBytes env.heap k (buf.map (wrote [])) (image k).length).length = (image k).length := by
        simp [reallocBytes]; omega
      rcases ih (k + 1) (some (reallocBytes env.heap k (buf.map (wrote [])) (image k).length)) (by omega) (fun _ => ⟨_, rfl, hl⟩) with ⟨h2, h3⟩ | ⟨j, post, h2, h3, h4⟩
      · refine .inl ⟨h2, fun j hj1 hj2 => ?_⟩
        by_cases hj : j = k
        · subst hj; omega
        · exact h3 j (by omega) (by omega)
      · exact .inr ⟨j, post, by omega, by omega, h4⟩

/-- An error of the k-th call ends the loop. -/
theorem getLoop_err (env : GetEnv) (name : CStr) : ∀ (fuel k last : Nat) (buf : Option (List UInt8)) (e : Nat),
    getLoop env name fuel k last buf = .ok (.error e) → ∃ j, (∃ size, env.ioctl j name size = .err e) ∨ env.heap.fail j = some e := by
  intro fuel
  induction fuel with
  | zero => intro k last buf e h; cases h
  | succ fuel ih =>
    intro k last buf e h
    rw [getLoop] at h
    split at h
    · rename_i e' he
      cases h
      exact ⟨k, .inl ⟨last, he⟩⟩
    · rename_i size data he
      dsimp only at h
      split at h
      · cases h
      · split at h
        · rename_i e' hf
          cases h
          exact ⟨k, .inr hf⟩
        · exact ih _ _ _ _ h

end WG.Obsd
