import Verif.Proof.JsField
/-! The output of the arithmetic of wireguard.js (as Proof/EmbPack). -/
namespace WG.Js
open WG.Emb Spec.X25519 Finset

/-- One carry after `multmod` gives digits. -/
theorem carry_red (o : Reg) (m : Mem) (h : Red (m o)) : ∃ v, carry o m = some (Function.update m o v) ∧ Can v ∧
    ((V v 16 : Int) : F) = ((V (m o) 16 : Int) : F) := by
  obtain ⟨v, e, hj, h0⟩ := carry_spec o m (h.bnd (by norm_num))
  have hl := le_trans h.2.1 (V_lower h.1)
  have hu := V_upper h.1
  have hu' : V (m o) 16 < 2 ^ 256 + 39 := by refine lt_of_lt_of_le hu (add_le_add le_rfl ?_); have := h.2.2; omega
  have hQ := quot1 (v := V (m o) 16) (by refine le_trans ?_ hl; norm_num) (by refine lt_trans hu' ((add_lt_add_iff_left _).2 ?_); norm_num)
  refine ⟨v, e, ?_, ?_⟩
  · intro j hj'
    by_cases hz : j = 0
    · subst hz
      rw [h0]
      have hm := Int.mul_ediv_add_emod (V (m o) 16) (2 ^ 256)
      have h16 := mod16_of (V (m o) 16)
      have d := dig (x := V (m o) 16)
      clear hj h0 e hu
      generalize hR : V (m o) 16 % 2 ^ 256 = R at *
      have hR0 : 0 ≤ R := by rw [← hR]; exact Int.emod_nonneg _ (by norm_num)
      have hR1 : R < 2 ^ 256 := by rw [← hR]; exact Int.emod_lt_of_pos _ (by norm_num)
      rw [← h16] at d ⊢
      generalize V (m o) 16 / 2 ^ 256 = Q at *
      generalize V (m o) 16 = W at *
      clear hR h16
      have hcase : Q = 0 ∨ Q = 1 ∨ Q = -1 := by omega
      generalize hP : (2 : Int) ^ 256 = P at *
      have hP0 : P % 2 ^ 16 = 0 := by rw [← hP]; norm_num
      clear hP
      rcases hcase with rfl | rfl | rfl
      · omega
      · have : R < 39 := by omega
        omega
      · have h1 : P - 38 ≤ R := by omega
        have h2 : R < P := by omega
        omega
    · rw [hj j (by omega) hj']; exact dig
  · rw [carried_value hj h0, mod256]

/-- Carrying digits changes nothing. -/
theorem carry_can (o : Reg) (m : Mem) (h : Can (m o)) : ∃ v, carry o m = some (Function.update m o v) ∧ Can v ∧ V v 16 = V (m o) 16 := by
  obtain ⟨v, e, hj, h0⟩ := carry_spec o m (fun j hj => by have := h j hj; omega)
  have hQ : V (m o) 16 / 2 ^ 256 = 0 := Int.ediv_eq_zero_of_lt h.lower h.upper
  have hM : V (m o) 16 % 2 ^ 256 = V (m o) 16 := Int.emod_eq_of_lt h.lower h.upper
  refine ⟨v, e, ?_, by rw [carried_value hj h0, hQ, hM]; ring⟩
  intro j hj'
  by_cases hz : j = 0
  · subst hz; rw [h0, hQ, mul_zero, add_zero]; exact dig
  · rw [hj j (by omega) hj']; exact dig

theorem and1 (x : Int) (h1 : -1 ≤ x) (h2 : x ≤ 0) : and32 x 1 = -x := by rw [and32_one]; omega

theorem sar_eq {v : Int} (h1 : -2 ^ 31 ≤ v) (h2 : v < 2 ^ 31) (k : Nat) : sar32 v k = v >>> k := by
  unfold sar32 toInt32; rw [toInt32_id h1 h2]

theorem packEnd_eq (m : Mem) (v : Arr) (Q c : Int) (hq : Q = m .pt 15 - 0x7fff) (hQ : -(2 ^ 16 - 1) ≤ Q ∧ Q ≤ 2 ^ 16 - 1)
    (hc : -1 ≤ c ∧ c ≤ 0) (hs : sar32 (v 14) 16 = c) :
    packEnd (Function.update m .pm v) = cswap .pt .pm ((1 : Int) - and32 (sar32 ((Function.update (Function.update v 15 (Q + c)) 14 (v 14 % 2 ^ 16)) 15) 16) 1)
      (Function.update m .pm (Function.update (Function.update v 15 (Q + c)) 14 (v 14 % 2 ^ 16))) := by
  have hne : (Reg.pt : Reg) ≠ .pm := by decide
  have hand := and1 c hc.1 hc.2
  unfold packEnd
  rw [ld_ok _ _ (by norm_num), sb, Function.update_of_ne hne, ← hq, ck_ok (by omega) (by omega), sb,
    ld_ok _ _ (by norm_num), sb, Function.update_self, hs, hand, sub_neg_eq_add, ck_ok (by omega) (by omega), sb,
    st_ok _ _ (by norm_num), sb, Function.update_self, Function.update_idem, ld_ok _ _ (by norm_num), sb,
    Function.update_self, Function.update_self, ld_ok _ _ (by norm_num), sb,
    Function.update_self, Function.update_of_ne (show (14 : Nat) ≠ 15 by norm_num), st_ok _ _ (by norm_num), sb, Function.update_self, Function.update_idem,
    and32_ffff, Function.update_of_ne (show (15 : Nat) ≠ 14 by norm_num), Function.update_self]

theorem packRound_spec (m : Mem) (h : Can (m .pt)) : ∃ v w, packRound m = some (Function.update (Function.update m .pt v) .pm w) ∧ Can v ∧
    V v 16 = if (p : Nat) ≤ V (m .pt) 16 then V (m .pt) 16 - (p : Nat) else V (m .pt) 16 := by
  let q : Arr := fun j => m .pt j - pdig j
  have hq : ∀ j, j < 16 → -(2 ^ 16 - 1) ≤ q j ∧ q j ≤ 2 ^ 16 - 1 := by
    intro j hj
    have := h j hj
    simp only [q, pdig]
    split <;> [skip; split] <;> omega
  have hb := borrow_bound q hq
  have hne : (Reg.pt : Reg) ≠ .pm := by decide
  have hq0 : q 0 = m .pt 0 - 0xffed := rfl
  have hqi : ∀ i, 1 ≤ i → i < 15 → q i = m .pt i - 0xffff := by
    intro i h1 h2; simp only [q, pdig, if_neg (show ¬ i = 0 by omega), if_neg (show ¬ i = 15 by omega)]
  have hq15 : q 15 = m .pt 15 - 0x7fff := rfl
  have hqV : V q 16 = V (m .pt) 16 - (p : Nat) := by
    rw [← V_pdig, V, V, V, ← Finset.sum_sub_distrib]
    exact Finset.sum_congr rfl fun j _ => by simp only [q]; ring
  -- the loop
  obtain ⟨s, e, v, hs, hlo, hlast⟩ := forUp_inv (σ := Mem) (fun i s => ∃ v, s = Function.update m .pm v ∧
      (∀ j, j + 1 < i → v j = V q 16 / 2 ^ (16 * j) % 2 ^ 16) ∧ (v (i - 1) = q (i - 1) + V q (i - 1) / 2 ^ (16 * (i - 1))))
    (fun i m => do
      let x ← ck ((← ld m .pt i) - 0xffff)
      let x ← ck (x - and32 (sar32 (← ld m .pm (i - 1)) 16) 1)
      let m ← st m .pm i x
      st m .pm (i - 1) (and32 (← ld m .pm (i - 1)) 0xffff)) 14 1 (Function.update m .pm (Function.update (m .pm) 0 (q 0)))
    ⟨_, rfl, fun j hj => absurd hj (by omega), by simp [V]⟩ (by
    rintro i s h1 h2 ⟨v, rfl, hlo, hlast⟩
    obtain ⟨k, rfl⟩ : ∃ k, i = k + 1 := ⟨i - 1, by omega⟩
    rw [Nat.add_sub_cancel] at hlast ⊢
    have hk : k < 14 := by omega
    have hsh : sar32 (v k) 16 = V q (k + 1) / 2 ^ (16 * (k + 1)) := by
      have hbk := hb k (by omega)
      have hqk := hq k (by omega)
      rw [sar_eq (by omega) (by omega), shr16, hlast, ← V_ediv_succ, Int.ediv_ediv_of_nonneg (by positivity), ← pow_add]; rfl
    have hbk := hb (k + 1) (by omega)
    have hc := h (k + 1) (by omega)
    have hqk := hqi (k + 1) (by omega) (by omega)
    have hand := and1 _ hbk.1 hbk.2
    refine ⟨Function.update m .pm (Function.update (Function.update v (k + 1) (q (k + 1) + V q (k + 1) / 2 ^ (16 * (k + 1)))) k (v k % 2 ^ 16)), ?_, _, rfl, ?_, ?_⟩
    · generalize hQ : V q (k + 1) / 2 ^ (16 * (k + 1)) = Q at *
      clear hQ hlo hlast hb
      simp only [ld_ok _ _ (show k + 1 < 16 by omega), ld_ok _ _ (show k < 16 by omega), Option.bind_eq_bind, Option.bind_some,
        Function.update_self, Function.update_of_ne hne, hsh, hand]
      rw [ck_ok (by omega) (by omega), Option.bind_some, ck_ok (by omega) (by omega), Option.bind_some,
        st_ok _ _ (show k + 1 < 16 by omega), Option.bind_some, st_ok _ _ (show k < 16 by omega)]
      simp only [Function.update_self, Function.update_idem, Function.update_of_ne (show k ≠ k + 1 by omega), and32_ffff]
      rw [hqk, sub_neg_eq_add]
    · intro j hj
      by_cases hjk : j = k
      · subst hjk
        rw [Function.update_self, hlast, V_digit _ _ _ (by omega)]
      · rw [Function.update_of_ne hjk, Function.update_of_ne (by omega)]
        exact hlo j (by omega)
    · rw [Function.update_of_ne (by omega), Nat.add_sub_cancel, Function.update_self])
  rw [show 1 + 14 = 15 from rfl] at hlo hlast
  rw [show 15 - 1 = 14 from rfl] at hlast
  have hsh14 : sar32 (v 14) 16 = V q 15 / 2 ^ (16 * 15) := by
    have hbk := hb 14 (by omega)
    have hqk := hq 14 (by omega)
    rw [sar_eq (by clear hlo; omega) (by clear hlo; omega), shr16, hlast, ← V_ediv_succ, Int.ediv_ediv_of_nonneg (by positivity), ← pow_add, show 16 * 14 + 16 = 16 * 15 from rfl]
  have hb15 := hb 15 (by norm_num)
  have hb16 := hb 16 (by norm_num)
  obtain ⟨w, hw⟩ : ∃ w, w = Function.update (Function.update v 15 (q 15 + V q 15 / 2 ^ (16 * 15))) 14 (v 14 % 2 ^ 16) := ⟨_, rfl⟩
  have hw15 : w 15 = V q 16 / 2 ^ (16 * 15) := by
    rw [hw, Function.update_of_ne (by norm_num), Function.update_self, ← V_ediv_succ]
  have hwlo : ∀ j, j < 15 → w j = V q 16 / 2 ^ (16 * j) % 2 ^ 16 := by
    intro j hj
    by_cases h14 : j = 14
    · subst h14
      rw [hw, Function.update_self, hlast, V_digit _ _ _ (by norm_num)]
    · rw [hw, Function.update_of_ne h14, Function.update_of_ne (by omega)]
      exact hlo j (by omega)
  have hVw : V w 16 = V q 16 := by
    rw [V_succ w 15, hw15]
    have hd := digits (V q 16) 15
    have : V w 15 = V q 16 % 2 ^ (16 * 15) := by
      rw [← hd]
      exact Finset.sum_congr rfl fun j hj => by rw [hwlo j (Finset.mem_range.1 hj)]
    rw [this]
    have := Int.mul_ediv_add_emod (V q 16) (2 ^ (16 * 15))
    linear_combination this
  have hsh15 : w 15 >>> 16 = V q 16 / 2 ^ (16 * 16) := by
    rw [shr16, hw15, Int.ediv_ediv_of_nonneg (by positivity), ← pow_add, show 16 * 15 + 16 = 16 * 16 from rfl]
  obtain ⟨b, hbb⟩ : ∃ b : Bool, b = decide ((p : Nat) ≤ V (m .pt) 16) := ⟨_, rfl⟩
  have hneg : V q 16 / 2 ^ (16 * 16) = if b then 0 else -1 := by
    subst hbb
    by_cases hp : (p : Nat) ≤ V (m .pt) 16
    · rw [if_pos (by simpa using hp)]
      refine Int.ediv_eq_zero_of_lt (by rw [hqV]; exact sub_nonneg.2 hp) ?_
      have := h.upper
      rw [hqV, show 16 * 16 = 256 from rfl]
      exact lt_of_le_of_lt (sub_le_self _ (by positivity)) this
    · rw [if_neg (by simpa using hp)]
      have : V q 16 / 2 ^ (16 * 16) < 0 := Int.ediv_neg_of_neg_of_pos (by rw [hqV]; exact sub_neg.2 (not_le.1 hp)) (by positivity)
      generalize V q 16 / 2 ^ (16 * 16) = Q at *
      clear hw hlo hlast hsh14 hb15 hb hw15 hwlo hVw hsh15
      omega
  have hw14 : ∀ j, j < 15 → 0 ≤ w j ∧ w j < 2 ^ 16 := fun j hj => by rw [hwlo j hj]; exact dig
  have hw15b : -2 ^ 17 ≤ w 15 ∧ w 15 < 2 ^ 16 := by
    have h1 := hq 15 (by norm_num)
    rw [hw, Function.update_of_ne (by norm_num), Function.update_self]
    generalize V q 15 / 2 ^ (16 * 15) = Q at *
    clear hw hlo hlast hsh14 hb hw15 hwlo hVw hsh15 hb16 hneg hqV hq0 hq15
    omega
  have hsw := cswap_spec .pt .pm hne b (Function.update m .pm w)
    (fun j hj => by rw [Function.update_of_ne hne]; have := h j hj; omega)
    (fun j hj => by
      rw [Function.update_self]
      by_cases h15 : j = 15
      · subst h15; omega
      · have := hw14 j (by omega); omega)
  rw [Function.update_self, Function.update_of_ne hne] at hsw
  have hb1 : ((1 : Int) - and32 (sar32 (w 15) 16) 1) = if b then 1 else 0 := by
    rw [sar_eq (by omega) (by omega), hsh15, hneg]; cases b <;> decide
  have hb0 := hb 1 (by norm_num)
  have hq0b := hq 0 (by norm_num)
  have hq15b := hq 15 (by norm_num)
  have hc0 := h 0 (by norm_num)
  have hc15 := h 15 (by norm_num)
  refine ⟨fun j => if j < 16 ∧ b = true then w j else m .pt j, fun j => if j < 16 ∧ b = true then m .pt j else w j, ?_, ?_, ?_⟩
  · have hfirst : packRound m = (forUp 1 14 (fun i m => do
        let x ← ck ((← ld m .pt i) - 0xffff)
        let x ← ck (x - and32 (sar32 (← ld m .pm (i - 1)) 16) 1)
        let m ← st m .pm i x
        st m .pm (i - 1) (and32 (← ld m .pm (i - 1)) 0xffff)) (Function.update m .pm (Function.update (m .pm) 0 (q 0)))).bind packEnd := by
      unfold packRound
      rw [ld_ok _ _ (by norm_num), sb, ← hq0]
      rw [ck_ok (by clear hb hneg hb16 hb15; omega) (by clear hb hneg hb16 hb15; omega), sb, st_ok _ _ (by norm_num), sb]
      rfl
    rw [hfirst, e, Option.bind_some, hs]
    rw [packEnd_eq m v (q 15) (V q 15 / 2 ^ (16 * 15)) hq15 hq15b hb15 hsh14, ← hw, hb1, hsw, Function.update_comm hne.symm, Function.update_idem]
  · intro j hj
    by_cases hbt : b = true
    · simp only [if_pos (And.intro hj hbt)]
      by_cases h15 : j = 15
      · subst h15
        refine ⟨?_, hw15b.2⟩
        rw [hbt, if_pos rfl, ← hsh15, shr16] at hneg
        clear hw hlo hlast hsh14 hb hw15 hwlo hVw hsh15 hb16 hqV hq0 hq15 hb15
        omega
      · exact hw14 j (by omega)
    · simp only [if_neg (fun x : j < 16 ∧ b = true => hbt x.2)]
      exact h j hj
  · by_cases hp : (p : Nat) ≤ V (m .pt) 16
    · rw [if_pos hp, ← hqV, ← hVw]
      have hbt : b = true := by rw [hbb]; simpa using hp
      exact V_congr fun j hj => if_pos ⟨hj, hbt⟩
    · rw [if_neg hp]
      have hbf : ¬ b = true := by rw [hbb]; simpa using hp
      exact V_congr fun j hj => if_neg fun x => hbf x.2

/-- The bytes written. -/
theorem bytes_spec (m : Mem) (out : Nat → UInt8) (h : Can (m .pt)) : ∃ o,
    forUp 0 16 (fun i o => do
      let o ← wr 32 o (2 * i) (UInt8.ofInt (and32 (← ld m .pt i) 0xff))
      wr 32 o (2 * i + 1) (UInt8.ofInt (sar32 (← ld m .pt i) 8))) out = some o ∧
    ∀ k, k < 32 → o k = UInt8.ofNat ((V (m .pt) 16).toNat / 256 ^ k) := by
  obtain ⟨o, e, ho⟩ := forUp_inv (σ := Nat → UInt8) (fun i o => ∀ k, k < 2 * i → o k = UInt8.ofNat ((V (m .pt) 16).toNat / 256 ^ k))
    (fun i o => do
      let o ← wr 32 o (2 * i) (UInt8.ofInt (and32 (← ld m .pt i) 0xff))
      wr 32 o (2 * i + 1) (UInt8.ofInt (sar32 (← ld m .pt i) 8))) 16 0 out (fun k hk => absurd hk (by omega)) (by
    intro i o _ hi hk
    have hi' : i < 16 := by omega
    refine ⟨_, by rw [ld_ok _ _ hi', sb, wr_ok _ _ (by omega), sb, sb, wr_ok _ _ (by omega)], ?_⟩
    have hd := can_digit h i hi'
    have hc := h i hi'
    have hW := h.lower
    obtain ⟨W, hWn⟩ := Int.eq_ofNat_of_zero_le hW
    have h8 : sar32 (m .pt i) 8 = m .pt i / 2 ^ 8 := by rw [sar_eq (by omega) (by omega)]; exact Int.shiftRight_eq_div_pow _ 8
    rw [and32_ff, h8]
    rw [hWn] at hd hk ⊢
    rw [Int.toNat_natCast] at hk ⊢
    obtain ⟨d, hdn⟩ := Int.eq_ofNat_of_zero_le hc.1
    rw [hdn] at hd ⊢
    have hdW : d = W / 256 ^ (2 * i) % 2 ^ 16 := by
      have : (256 : Nat) ^ (2 * i) = 2 ^ (16 * i) := by rw [show 256 = 2 ^ 8 by norm_num, ← pow_mul]; congr 1; omega
      rw [this]
      exact_mod_cast hd
    have hu : ∀ x : Nat, UInt8.ofInt (x : Int) = UInt8.ofNat x := fun x => by
      apply UInt8.toNat_inj.1; rw [UInt8.ofInt, UInt8.toNat_ofNat', UInt8.toNat_ofNat']; omega
    have hmod : ∀ x : Nat, UInt8.ofNat x = UInt8.ofNat (x % 256) := fun x => by
      apply UInt8.toNat_inj.1; simp
    intro k hk2
    by_cases h1 : k = 2 * i + 1
    · subst h1
      rw [Function.update_self, show ((d : Int) / 2 ^ 8) = ((d / 2 ^ 8 : Nat) : Int) by push_cast; rfl, hu, hmod, hmod (W / _)]
      congr 1
      rw [pow_succ 256 (2 * i), ← Nat.div_div_eq_div_mul, hdW]
      generalize W / 256 ^ (2 * i) = X
      omega
    · rw [Function.update_of_ne h1]
      by_cases h0 : k = 2 * i
      · subst h0
        rw [Function.update_self, show ((d : Int) % 2 ^ 8) = ((d % 2 ^ 8 : Nat) : Int) by push_cast; rfl, hu, hmod, hmod (W / _)]
        congr 1
        rw [hdW]
        generalize W / 256 ^ (2 * i) = X
        omega
      · rw [Function.update_of_ne h0]
        exact hk k (by omega))
  exact ⟨o, e, fun k hk => ho k (by omega)⟩

theorem pack_red (n : Reg) (hn : n ≠ .pm) (m : Mem) (out : Nat → UInt8) (h : Red (m n)) : ∃ o, pack n m out = some o ∧
    toKey o = encodeU (fv (m n)) := by
  unfold pack
  have hm0 : Function.update m .pm (fun _ => 0) n = m n := Function.update_of_ne hn _ _
  rw [← hm0] at h ⊢
  generalize Function.update m .pm (fun _ => 0) = m at *
  clear hm0
  obtain ⟨v1, e1, c1, f1⟩ := carry_red .pt (Function.update m .pt (m n)) (by rw [Function.update_self]; exact h)
  rw [Function.update_idem] at e1
  rw [Function.update_self] at f1
  obtain ⟨v2, e2, c2, f2⟩ := carry_can .pt (Function.update m .pt v1) (by rw [Function.update_self]; exact c1)
  rw [Function.update_idem] at e2
  rw [Function.update_self] at f2
  obtain ⟨v3, e3, c3, f3⟩ := carry_can .pt (Function.update m .pt v2) (by rw [Function.update_self]; exact c2)
  rw [Function.update_idem] at e3
  rw [Function.update_self, f2] at f3
  have hnp : Reg.pt ≠ Reg.pm := by decide
  obtain ⟨v4, w4, e4, c4, f4⟩ := packRound_spec (Function.update m .pt v3) (by rw [Function.update_self]; exact c3)
  rw [Function.update_self, f3] at f4
  rw [Function.update_idem] at e4
  obtain ⟨v5, w5, e5, c5, f5⟩ := packRound_spec (Function.update (Function.update m .pt v4) .pm w4) (by
    rw [Function.update_of_ne hnp, Function.update_self]; exact c4)
  rw [Function.update_of_ne hnp, Function.update_self] at f5
  obtain ⟨M, hM⟩ : ∃ M, M = Function.update (Function.update (Function.update (Function.update m .pt v4) .pm w4) .pt v5) .pm w5 := ⟨_, rfl⟩
  have hMp : M .pt = v5 := by rw [hM, Function.update_of_ne hnp, Function.update_self]
  obtain ⟨o, e6, ho⟩ := bytes_spec M out (by rw [hMp]; exact c5)
  refine ⟨o, ?_, ?_⟩
  · simp only []
    rw [e1, sb, e2, sb, e3, sb]
    have : forUp 0 2 (fun _ m => packRound m) (Function.update m .pt v3) = some M := by
      rw [forUp, e4, sb, forUp, e5, sb, forUp, hM]
    rw [this, sb, e6]
  · have hr := reduce_twice _ _ _ c1.lower c1.upper f4 f5
    have hval : (fv (m n)).val = (V v5 16).toNat := by
      rw [fv, ← f1, ← hr.2.2]
      have hn : V v5 16 = (((V v5 16).toNat : Nat) : Int) := (Int.toNat_of_nonneg hr.1).symm
      rw [hn, Int.cast_natCast, ZMod.val_natCast]
      simp only [Int.toNat_natCast]
      apply Nat.mod_eq_of_lt
      have := hr.2.1
      omega
    unfold toKey encodeU
    congr 1
    funext i
    rw [ho i.val i.isLt, hMp, hval]




end WG.Js
