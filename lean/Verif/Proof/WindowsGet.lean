import Verif.Proof.Windows
/-! Proofs about the Windows interface: getting (C69). -/
namespace WG.Win
open Obsd (put field_put_same field_put_ne put_length field_length leBytes leBytes_length le_eq leNat_leBytes rdBytes_mid rdNum_mid field_append_left okb field_field rdBytes_mid0 rdNum_mid0
  field_take number_take vecAt_nil flagged_some rdIf_key rdIf_num number_lt rdIf wrote wrote_length wrote_fits)
open Spec hiding addrBytes readSockaddr
open Spec.Obsd (field number flagged)
open Spec.Win

theorem getAip_mid {m : List UInt8} {a : AllowedIP} (hl : 24 ≤ m.length) (h : readAip (m.take 24) = some a) (pre post : List UInt8) :
    getAip (pre ++ m ++ post) pre.length = .ok a := by
  rw [readAip] at h
  rw [number_take (by omega), number_take (by omega), field_take (by omega), field_take (by omega)] at h
  rw [getAip, rdNum_mid _ _ _ _ _ (by omega), okb]
  by_cases h2 : number m 16 2 = 2 ∧ number m 18 1 ≤ 32
  · rw [if_pos h2] at h
    obtain ⟨v, hv, rfl⟩ := Option.map_eq_some_iff.1 h
    rw [if_pos h2.1, rdBytes_mid0 _ _ _ _ (by omega), okb, rdNum_mid _ _ _ _ _ (by omega), okb, bytes?_some hv, vecAt_toList']
  · rw [if_neg h2] at h
    by_cases h3 : number m 16 2 = 23 ∧ number m 18 1 ≤ 128
    · rw [if_pos h3] at h
      obtain ⟨v, hv, rfl⟩ := Option.map_eq_some_iff.1 h
      rw [if_neg (by omega), if_pos h3.1, rdBytes_mid0 _ _ _ _ (by omega), okb, rdNum_mid _ _ _ _ _ (by omega), okb, bytes?_some hv, vecAt_toList']
    · rw [if_neg h3] at h; cases h

theorem getAips_mid : ∀ (n : Nat) (m : List UInt8) (l : List AllowedIP) (r : List UInt8), readAips n m = some (l, r) → ∀ (pre post : List UInt8),
    getAips (pre ++ m ++ post) n pre.length = .ok (l, pre.length + 24 * n) ∧ m = m.take (24 * n) ++ r ∧ 24 * n ≤ m.length ∧ l.length = n := by
  intro n
  induction n with
  | zero =>
    intro m l r h pre post
    simp only [readAips, Option.some.injEq, Prod.mk.injEq] at h
    obtain ⟨rfl, rfl⟩ := h
    exact ⟨rfl, by simp, by simp, rfl⟩
  | succ n ih =>
    intro m l r h pre post
    rw [readAips] at h
    by_cases hl : m.length < 24
    · rw [if_pos hl] at h; cases h
    rw [if_neg hl] at h
    obtain ⟨a, ha, h⟩ := Option.bind_eq_some_iff.1 h
    obtain ⟨⟨l', r'⟩, hr, h⟩ := Option.map_eq_some_iff.1 h
    simp only [Prod.mk.injEq] at h
    obtain ⟨rfl, rfl⟩ := h
    have i := ih (m.drop 24) l' r' hr (pre ++ m.take 24) post
    have e : pre ++ m.take 24 ++ m.drop 24 ++ post = pre ++ m ++ post := by rw [List.append_assoc pre, List.take_append_drop]
    have e2 : (pre ++ m.take 24).length = pre.length + 24 := by simp; omega
    rw [e, e2] at i
    refine ⟨?_, ?_, ?_, by simp [i.2.2.2]⟩
    · rw [getAips, getAip_mid (by omega) ha, okb, i.1, okb]
      congr 2
      omega
    · rw [show 24 * (n + 1) = 24 + 24 * n by omega, List.take_add, List.append_assoc, ← i.2.1, List.take_append_drop]
    · have := i.2.2.1
      simp at this
      omega

theorem sec_eq {t : Nat} (h : t < 256 ^ 8) : handshakeSecOf t = if t = 0 then 0 else ((t / 10 ^ 7 : Nat) : Int) - 11644473600 := by
  rw [handshakeSecOf, show (10000000 : Nat) = 10 ^ 7 from rfl]
  by_cases h0 : t = 0
  · rw [if_pos h0, if_pos h0]
  rw [if_neg h0, if_neg h0]
  have h1 : t / 10 ^ 7 < 2 ^ 62 := by omega
  generalize t / 10 ^ 7 = q at h1
  rw [toInt64]
  by_cases h2 : q < 11644473600
  · rw [Nat.mod_eq_of_lt (by omega)]; omega
  · rw [show q + 2 ^ 64 - 11644473600 = (q - 11644473600) + 2 ^ 64 by omega, Nat.add_mod_right, Nat.mod_eq_of_lt (by omega)]; omega

theorem nsec_eq (t : Nat) : handshakeNsecOf t = if t = 0 then 0 else ((t % 10 ^ 7 * 100 : Nat) : Int) := by
  rw [handshakeNsecOf, show (10000000 : Nat) = 10 ^ 7 from rfl]
  by_cases h0 : t = 0
  · rw [if_pos h0, if_pos h0]
  rw [if_neg h0, if_neg h0]
  have : t % 10 ^ 7 < 10 ^ 7 := Nat.mod_lt _ (by decide)
  generalize t % 10 ^ 7 = q at this
  rw [toInt64]; omega

theorem cutf (m : List UInt8) (i a b : Nat) : field m i (a + b) = field m i a ++ field m (i + a) b := by
  rw [field, List.take_add, List.drop_drop]; rfl

theorem le_pair {x : List UInt8} (hx : x.length = 2) : ∃ y z, x = [y, z] := by
  match x, hx with
  | [y, z], _ => exact ⟨y, z, rfl⟩

/-- The endpoint as copied. -/
theorem endpoint_seen {m : List UInt8} (hl : 128 ≤ m.length) {e : Endpoint} (h : readSockaddr (field m 76 28) = some e) :
    ∃ n, epCopied (some (number m 76 2)) = some n ∧ 76 + n ≤ 128 ∧ seeUnion (field m 76 n) = e := by
  rw [readSockaddr] at h
  have sub (i n : Nat) (hi : i + n ≤ 28) : field (field m 76 28) i n = field m (76 + i) n := field_field hi
  have subn (i n : Nat) (hi : i + n ≤ 28) : number (field m 76 28) i n = number m (76 + i) n := by rw [number, sub i n hi]; rfl
  rw [subn 0 2 (by omega), sub 4 4 (by omega), sub 2 2 (by omega), sub 8 16 (by omega), subn 4 4 (by omega), subn 24 4 (by omega)] at h
  obtain ⟨y, z, hyz⟩ := le_pair (field_length (m := m) (i := 78) (n := 2) (by omega))
  obtain ⟨u, v, huv⟩ := le_pair (field_length (m := m) (i := 76) (n := 2) (by omega))
  have hn2 : number m 76 2 = leNat [u, v] := by rw [number, huv, le_eq]
  by_cases h1 : number m 76 2 = 2
  · rw [if_pos h1] at h
    obtain ⟨w, hw, rfl⟩ := Option.map_eq_some_iff.1 h
    refine ⟨16, by rw [h1]; rfl, by omega, ?_⟩
    have hw' : field m 80 4 = w.toList := bytes?_some hw
    have e16 : field m 76 16 = [u, v] ++ [y, z] ++ w.toList ++ field m 84 8 := by
      rw [← hw', ← hyz, ← huv, show (16 : Nat) = 2 + (2 + (4 + 8)) from rfl, cutf, cutf, cutf]
      simp
    rw [e16, seeUnion]
    simp only [List.cons_append, List.nil_append, List.take_succ_cons, List.take_zero, List.drop_succ_cons, List.drop_zero]
    rw [← hn2, if_pos h1, vecAt_toList, hyz]
    simp [bePort, le, leNat]
  · rw [if_neg h1] at h
    by_cases h2 : number m 76 2 = 23
    · rw [if_pos h2] at h
      obtain ⟨w, hw, rfl⟩ := Option.map_eq_some_iff.1 h
      refine ⟨28, by rw [h2]; rfl, by omega, ?_⟩
      have hw' : field m 84 16 = w.toList := bytes?_some hw
      obtain ⟨c, hc⟩ : ∃ c, c = field m 80 4 := ⟨_, rfl⟩
      have hcl : c.length = 4 := by rw [hc]; exact field_length (by omega)
      obtain ⟨d, hd⟩ : ∃ d, d = field m 100 4 := ⟨_, rfl⟩
      have hdl : d.length = 4 := by rw [hd]; exact field_length (by omega)
      have e28 : field m 76 28 = [u, v] ++ [y, z] ++ c ++ w.toList ++ d := by
        rw [← hw', ← hyz, ← huv, hc, hd, show (28 : Nat) = 2 + (2 + (4 + (16 + 4))) from rfl, cutf, cutf, cutf, cutf]
        simp
      rw [e28, seeUnion]
      simp only [List.cons_append, List.nil_append, List.take_succ_cons, List.take_zero, List.drop_succ_cons, List.drop_zero]
      have hwl : w.toList.length = 16 := by simp
      have d8 : (c ++ w.toList ++ d).drop 4 = w.toList ++ d := by rw [List.append_assoc, List.drop_left' hcl]
      have t4 : (c ++ w.toList ++ d).take 4 = c := by rw [List.append_assoc, List.take_left' hcl]
      have d24 : ((c ++ w.toList ++ d).drop 20).take 4 = d := by
        rw [List.drop_left' (by rw [List.length_append]; omega), List.take_of_length_le (by omega)]
      rw [← hn2, if_neg h1, if_pos h2, d8, t4, d24, vecAt_toList, hyz, number, ← hc, number, ← hd, le_eq, le_eq]
      simp [bePort, le, leNat]
    · rw [if_neg h2] at h; cases h

theorem getPeer_mid {m : List UInt8} {p : IoPeer} {r : List UInt8} (h : readPeer m = some (p, r)) (pre post : List UInt8) :
    ∃ k, getPeer (pre ++ m ++ post) pre.length = .ok (p.shown, pre.length + k) ∧ m = m.take k ++ r ∧ k ≤ m.length := by
  rw [readPeer] at h
  by_cases hl : m.length < 136
  · rw [if_pos hl] at h; cases h
  rw [if_neg hl] at h
  dsimp only at h
  obtain ⟨key, hkey, h⟩ := Option.bind_eq_some_iff.1 h
  obtain ⟨psk, hpsk, h⟩ := Option.bind_eq_some_iff.1 h
  obtain ⟨ka, hka, h⟩ := Option.bind_eq_some_iff.1 h
  obtain ⟨ep, hep, h⟩ := Option.bind_eq_some_iff.1 h
  obtain ⟨⟨ips, r'⟩, hr, h⟩ := Option.map_eq_some_iff.1 h
  simp only [Prod.mk.injEq] at h
  obtain ⟨rfl, rfl⟩ := h
  have i := getAips_mid _ _ _ _ hr (pre ++ m.take 136) post
  have e : pre ++ m.take 136 ++ m.drop 136 ++ post = pre ++ m ++ post := by rw [List.append_assoc pre, List.take_append_drop]
  have e2 : (pre ++ m.take 136).length = pre.length + 136 := by simp; omega
  rw [e, e2] at i
  refine ⟨136 + 24 * number m 128 4, ?_, ?_, ?_⟩
  rotate_left
  · rw [List.take_add, List.append_assoc, ← i.2.1, List.take_append_drop]
  · have := i.2.2.1
    simp at this
    omega
  rw [getPeer, rdNum_mid0 _ _ _ _ (by omega), okb, rdIf_key (by omega) hkey, okb, rdIf_key (by omega) hpsk, okb, rdIf_num (by omega), okb, rdIf_num (by omega), okb]
  have hep' : ∃ epb : Option (List UInt8), rdIf (epCopied (if (number m 0 4).testBit 3 then some (number m 76 2) else none)).isSome
        (rdBytes (pre ++ m ++ post) (pre.length + 76) ((epCopied (if (number m 0 4).testBit 3 then some (number m 76 2) else none)).getD 0)) = .ok epb ∧
      seeUnion (epb.getD []) = ep.getD .unset := by
    cases hb : (number m 0 4).testBit 3 with
    | false =>
      rw [hb] at hep
      rw [(flagged_some hep).2 rfl]
      exact ⟨none, rfl, rfl⟩
    | true =>
      rw [hb] at hep
      obtain ⟨v, h1, h2⟩ := (flagged_some hep).1 rfl
      obtain ⟨n, h3, h4, h5⟩ := endpoint_seen (by omega) h1
      refine ⟨some (field m 76 n), ?_, ?_⟩
      · simp only [if_true, h3, Option.getD_some]
        rw [rdBytes_mid _ _ _ _ _ (by omega)]; rfl
      · rw [h2]; exact h5
  obtain ⟨epb, g1, g2⟩ := hep'
  rw [g1, okb, rdNum_mid _ _ _ _ _ (by omega), okb, rdNum_mid _ _ _ _ _ (by omega), okb, rdNum_mid _ _ _ _ _ (by omega), okb,
    rdNum_mid _ _ _ _ _ (by omega), okb, i.1, okb]
  have hk : (vecAt ((key.map (·.toList)).getD []) : Key) = key.getD zeroKey := by
    cases key
    · exact vecAt_nil
    · exact vecAt_toList' _
  have hp : (vecAt ((psk.map (·.toList)).getD []) : Key) = psk.getD zeroKey := by
    cases psk
    · exact vecAt_nil
    · exact vecAt_toList' _
  have hz : ((psk.map (·.toList)).any (¬ allZero ·)) = psk.any (· ≠ zeroKey) := by
    cases psk
    · rfl
    · simp [allZero_key]
  have hka' : ka = if (number m 0 4).testBit 2 then some (UInt16.ofNat (number m 72 2)) else none := by
    cases hb : (number m 0 4).testBit 2 with
    | false => rw [hb] at hka; rw [(flagged_some hka).2 rfl]; rfl
    | true =>
      rw [hb] at hka
      obtain ⟨v, h1, h2⟩ := (flagged_some hka).1 rfl
      rw [h2, ← h1]; rfl
  have e3 : pre.length + 136 + 24 * number m 128 4 = pre.length + (136 + 24 * number m 128 4) := by omega
  dsimp only
  rw [hk, hp, hz, g2, sec_eq (number_lt _ _ _), nsec_eq, e3]
  congr 2
  rw [IoPeer.shown, hka']
  cases (number m 0 4).testBit 2 <;> simp

theorem getPeers_mid : ∀ (n : Nat) (m : List UInt8) (l : List IoPeer) (r : List UInt8), readPeers n m = some (l, r) → ∀ (pre post : List UInt8),
    getPeers (pre ++ m ++ post) n pre.length = .ok (l.map IoPeer.shown) := by
  intro n
  induction n with
  | zero =>
    intro m l r h pre post
    simp only [readPeers, Option.some.injEq, Prod.mk.injEq] at h
    obtain ⟨rfl, rfl⟩ := h
    rfl
  | succ n ih =>
    intro m l r h pre post
    rw [readPeers] at h
    obtain ⟨⟨p, r1⟩, hp, h⟩ := Option.bind_eq_some_iff.1 h
    obtain ⟨⟨l', r'⟩, hr, h⟩ := Option.map_eq_some_iff.1 h
    simp only [Prod.mk.injEq] at h
    obtain ⟨rfl, rfl⟩ := h
    obtain ⟨k, h1, h2, h3⟩ := getPeer_mid hp pre post
    have i := ih r1 l' r' hr (pre ++ m.take k) post
    have e : pre ++ m.take k ++ r1 ++ post = pre ++ m ++ post := by rw [List.append_assoc pre, ← h2]
    have e2 : (pre ++ m.take k).length = pre.length + k := by simp; omega
    rw [e, e2] at i
    rw [getPeers, h1, okb, i]
    rfl

theorem getDevice_spec {m : List UInt8} {i : IoIface} (h : readIface m = some i) (post : List UInt8) (iface : CStr) :
    getDevice (m ++ post) iface = .ok (i.shown (iface.take 63)) := by
  rw [readIface] at h
  by_cases hl : m.length < 80
  · rw [if_pos hl] at h; cases h
  rw [if_neg hl] at h
  dsimp only at h
  obtain ⟨pub, hpub, h⟩ := Option.bind_eq_some_iff.1 h
  obtain ⟨priv, hpriv, h⟩ := Option.bind_eq_some_iff.1 h
  obtain ⟨port, hport, h⟩ := Option.bind_eq_some_iff.1 h
  obtain ⟨⟨peers, r⟩, hr, h⟩ := Option.bind_eq_some_iff.1 h
  dsimp only at h
  by_cases hr' : r ≠ []
  · rw [if_pos hr'] at h; cases h
  rw [if_neg hr'] at h
  have h := Option.some.inj h
  subst h
  have nb (k n : Nat) (hk : k + n ≤ m.length) : rdNum (m ++ post) k n = .ok (number m k n) := by
    have := rdNum_mid [] m post k n hk
    simpa using this
  have kb (b : Bool) (k : Nat) (key : Option Key) (hk : k + 32 ≤ m.length) (h : flagged b (bytes? 32 (field m k 32)) = some key) :
      rdIf b (rdBytes (m ++ post) k 32) = .ok (key.map (·.toList)) := by
    have := rdIf_key (pre := []) (post := post) hk h
    simpa using this
  have nif (b : Bool) (k n : Nat) (hk : k + n ≤ m.length) : rdIf b (rdNum (m ++ post) k n) = .ok (if b then some (number m k n) else none) := by
    have := rdIf_num (pre := []) (post := post) (b := b) hk
    simpa using this
  have hp := getPeers_mid _ _ _ _ hr (m.take 80) post
  have e2 : (m.take 80).length = 80 := by simp; omega
  rw [List.take_append_drop, e2] at hp
  rw [getDevice, nb 0 4 (by omega), okb, nif _ 4 2 (by omega), okb, kb _ 38 _ (by omega) hpub, okb, kb _ 6 _ (by omega) hpriv, okb, nb 72 4 (by omega), okb, hp, okb]
  have hk : ∀ key : Option Key, (vecAt ((key.map (·.toList)).getD []) : Key) = key.getD zeroKey := by
    intro key
    cases key
    · exact vecAt_nil
    · exact vecAt_toList' _
  have hport' : port = if (number m 0 4).testBit 2 then some (UInt16.ofNat (number m 4 2)) else none := by
    cases hb : (number m 0 4).testBit 2 with
    | false => rw [hb] at hport; rw [(flagged_some hport).2 rfl]; rfl
    | true =>
      rw [hb] at hport
      obtain ⟨v, h1, h2⟩ := (flagged_some hport).1 rfl
      rw [h2, ← h1]; rfl
  rw [hk, hk, hport']
  congr 1
  rw [IoIface.shown]
  cases (number m 0 4).testBit 2 <;> simp

/-! ### The loop around WG_IOCTL_GET -/

/-- The driver answers as specified. -/
def Driver (env : GetEnv) (image : Nat → List UInt8) : Prop :=
  ∀ k size, env.ioctl k size = match answers image k size with | .ok b => .ok b | .error n => .more n

theorem getLoop_spec (env : GetEnv) (image : Nat → List UInt8) (hne : ∀ k, image k ≠ []) (hio : Driver env image) (hheap : ∀ n, env.heap.fail n = none) :
    ∀ (fuel k : Nat) (buf : Option (List UInt8)), (buf.getD []).length = Obsd.lastSize image k →
      (getLoop env fuel k buf = .running ∧ ∀ j, k ≤ j → j < k + fuel → Obsd.lastSize image j < (image j).length) ∨
      ∃ j post, k ≤ j ∧ j < k + fuel ∧ getLoop env fuel k buf = .ok (.ok (some (image j ++ post))) := by
  intro fuel
  induction fuel with
  | zero => intro k buf _; exact .inl ⟨rfl, by omega⟩
  | succ fuel ih =>
    intro k buf h0
    rw [getLoop, hio, h0, answers]
    have hpos : 0 < (image k).length := List.length_pos_iff.2 (hne k)
    by_cases hle : (image k).length ≤ Obsd.lastSize image k
    · rw [if_pos hle]
      cases buf with
      | none => rw [← h0] at hle; simp at hle; exact absurd hle (hne k)
      | some b =>
        right
        simp only [Option.getD_some] at h0
        refine ⟨k, b.drop (image k).length, by omega, by omega, ?_⟩
        dsimp only
        rw [Option.map_some, wrote_fits (by omega)]
    · rw [if_neg hle]
      dsimp only
      rw [hheap]
      dsimp only
      rcases ih (k + 1) (some ((List.range (image k).length).map (env.heap.junk k))) (by simp [Obsd.lastSize]) with ⟨h2, h3⟩ | ⟨j, post, h2, h3, h4⟩
      · refine .inl ⟨h2, fun j hj1 hj2 => ?_⟩
        by_cases hj : j = k
        · subst hj; omega
        · exact h3 j (by omega) (by omega)
      · exact .inr ⟨j, post, by omega, by omega, h4⟩

/-- An error ends the loop. -/
theorem getLoop_err (env : GetEnv) : ∀ (fuel k : Nat) (buf : Option (List UInt8)) (e : Nat),
    getLoop env fuel k buf = .ok (.error e) → ∃ j, (e = 13 ∧ ∃ size, env.ioctl j size = .failed) ∨ env.heap.fail j = some e := by
  intro fuel
  induction fuel with
  | zero => intro k buf e h; cases h
  | succ fuel ih =>
    intro k buf e h
    rw [getLoop] at h
    split at h
    · cases h
    · rename_i he
      cases h
      exact ⟨k, .inl ⟨rfl, _, he⟩⟩
    · split at h
      · rename_i e' hf
        cases h
        exact ⟨k, .inr hf⟩
      · exact ih _ _ _ h

end WG.Win
