import Verif.Proof.Values
import Verif.Spec.Address
namespace WG
open Spec

theorem takeWhile_ne_append (x : UInt8) (a b : CStr) (h : x ∉ a) :
    (a ++ x :: b).takeWhile (· ≠ x) = a := by
  induction a with
  | nil => simp
  | cons c a ih =>
    simp only [List.mem_cons, not_or] at h
    simp [Ne.symm h.1]; simpa using ih h.2
theorem dropWhile_ne_append (x : UInt8) (a b : CStr) (h : x ∉ a) :
    (a ++ x :: b).dropWhile (· ≠ x) = x :: b := by
  induction a with
  | nil => simp
  | cons c a ih =>
    simp only [List.mem_cons, not_or] at h
    simp [Ne.symm h.1]; simpa using ih h.2
theorem takeWhile_ne_self (x : UInt8) (a : CStr) (h : x ∉ a) : a.takeWhile (· ≠ x) = a :=
  takeWhile_all _ _ (by intro c hc; simp; rintro rfl; exact h hc)
theorem dropWhile_ne_self (x : UInt8) (a : CStr) (h : x ∉ a) : a.dropWhile (· ≠ x) = [] :=
  (dropWhile_nil_iff _ _).2 (by intro c hc; simp; rintro rfl; exact h hc)

/-- Every text either lacks the separator or splits at its first occurrence. -/
theorem split_first (x : UInt8) (s : CStr) : x ∉ s ∨ ∃ a b, s = a ++ x :: b ∧ x ∉ a := by
  induction s with
  | nil => simp
  | cons c s ih =>
    by_cases h : c = x
    · exact .inr ⟨[], s, by simp [h], by simp⟩
    · rcases ih with h' | ⟨a, b, rfl, ha⟩
      · exact .inl (by simp [h', Ne.symm h])
      · exact .inr ⟨c :: a, b, by simp, by simp [ha, Ne.symm h]⟩

theorem strsepOne_none (x : UInt8) (s : CStr) (h : x ∉ s) : strsepOne x s = (s, none) := by
  simp only [strsepOne, takeWhile_ne_self x s h, dropWhile_ne_self x s h]
theorem strsepOne_some (x : UInt8) (a b : CStr) (h : x ∉ a) : strsepOne x (a ++ x :: b) = (a, some b) := by
  simp only [strsepOne, takeWhile_ne_append x a b h, dropWhile_ne_append x a b h]

theorem parseIp_iff (env : Env) (ip : CStr) (a : Addr) :
    parseIp env ip = some a ↔ IsAddr env.pton4 env.pton6 ip a := by
  simp only [parseIp, IsAddr]
  by_cases h : c!":" ∈ ip
  · simp only [List.contains_iff_mem.2 h, if_true, Option.map_eq_some_iff, h, true_and, not_true_eq_false, false_and, or_false]
    simp only [eq_comm]
  · have : ip.contains 58 = false := by simpa using h
    simp only [this, Bool.false_eq_true, if_false, Option.map_eq_some_iff, h, false_and, not_false_eq_true, true_and, false_or]
    simp only [eq_comm]

theorem addr_unique {p4 p6 ip a b} (h1 : IsAddr p4 p6 ip a) (h2 : IsAddr p4 p6 ip b) : a = b := by
  rcases h1 with ⟨c1, x, e1, rfl⟩ | ⟨c1, x, e1, rfl⟩ <;> rcases h2 with ⟨c2, y, e2, rfl⟩ | ⟨c2, y, e2, rfl⟩
  · rw [e1] at e2; cases e2; rfl
  · exact absurd c1 c2
  · exact absurd c2 c1
  · rw [e1] at e2; cases e2; rfl

theorem cidr_mask (env : Env) (hM : 128 < env.ulongMax) (m : CStr) (addr : Addr) (n : Nat) :
    cidrOf env (some m) addr = some n ↔ IsDecimal m n ∧ n ≤ addrBits addr := by
  have hL : addrBits addr < env.ulongMax := by cases addr <;> simp [addrBits] <;> omega
  have e : cidrOf env (some m) addr = if !isDigitC env.sc (m.getD 0 0) then none else
      if (strtoul env.ulongMax 10 m).2 ≠ [] || (strtoul env.ulongMax 10 m).1 > addrBits addr then none else some (strtoul env.ulongMax 10 m).1 := by
    unfold cidrOf; cases addr <;> rfl
  rw [e, charIsDigit_spec]
  by_cases hd : isDigit (m.getD 0 0) = true
  rotate_left
  · simp only [Bool.not_eq_true] at hd
    simp only [hd, Bool.not_false, if_true, reduceCtorEq, false_iff]
    rintro ⟨⟨hne, hall, _⟩, _⟩
    obtain ⟨d, t, rfl⟩ := List.exists_cons_of_ne_nil hne
    have := hall d (by simp)
    simp at hd; rw [hd] at this; cases this
  simp only [hd, Bool.not_true, Bool.false_eq_true, if_false]
  have hne : m ≠ [] := by rintro rfl; exact absurd hd (by decide)
  by_cases hall : ∀ c ∈ m, isDigit c = true
  · rw [strtoul10_all _ _ hne hall]
    rw [sat_check _ _ _ hL (fun n => n)]
    constructor
    · rintro ⟨hle, rfl⟩; exact ⟨⟨hne, hall, rfl⟩, hle⟩
    · rintro ⟨⟨-, -, hv⟩, hle⟩; subst hv; exact ⟨hle, rfl⟩
  · have h2 : (strtoul env.ulongMax 10 m).2 ≠ [] := by rw [Ne, strtoul10_rest _ _ hd]; exact hall
    simp only [h2, ne_eq, not_false_eq_true, decide_true, Bool.true_or, if_true, reduceCtorEq, false_iff]
    rintro ⟨⟨_, h, _⟩, _⟩; exact hall h

theorem parseAllowedip_unfold (env : Env) (e : CStr) :
    parseAllowedip env e = (parseIp env (strsepOne c!"/" e).1).bind fun addr =>
      (cidrOf env (strsepOne c!"/" e).2 addr).bind fun n =>
        let a : AllowedIP := { addr := addr, cidr := UInt8.ofNat n }
        some (a, if validateNetmask a then [] else [{ ip := (strsepOne c!"/" e).1, mask := (strsepOne c!"/" e).2 }]) := by
  rfl

theorem addrBits_le (a : Addr) : addrBits a ≤ 128 := by cases a <;> simp [addrBits]

/-- C08 for one entry. -/
theorem parseAllowedip_iff (env : Env) (hM : 128 < env.ulongMax) (e : CStr) (a : AllowedIP) :
    (∃ w, parseAllowedip env e = some (a, w)) ↔ IsAllowedIP env.pton4 env.pton6 e a := by
  have ha := a.cidr.toNat_lt
  simp only [parseAllowedip_unfold, Option.bind_eq_some_iff, Option.some.injEq, Prod.mk.injEq, parseIp_iff]
  rcases split_first c!"/" e with hs | ⟨ip, m, rfl, hs⟩
  · rw [strsepOne_none _ _ hs]
    constructor
    · rintro ⟨w, addr, h1, n, h2, rfl, -⟩
      refine ⟨e, hs, h1, .inl ⟨rfl, ?_⟩⟩
      have := addrBits_le addr
      cases addr <;> simp [cidrOf] at h2 <;> subst h2 <;> simp [addrBits]
    · rintro ⟨ip, hip, h1, (⟨rfl, h2⟩ | ⟨m, n, rfl, -⟩)⟩
      · refine ⟨_, a.addr, h1, a.cidr.toNat, ?_, ?_, rfl⟩
        · rw [h2]; cases a.addr <;> rfl
        · simp
      · exact absurd (by simp) hs
  · rw [strsepOne_some _ _ _ hs]
    constructor
    · rintro ⟨w, addr, h1, n, h2, rfl, -⟩
      rw [cidr_mask env hM] at h2
      refine ⟨ip, hs, h1, .inr ⟨m, n, rfl, h2.1, h2.2, ?_⟩⟩
      have := addrBits_le addr
      have := h2.2
      simp only [UInt8.toNat_ofNat']; omega
    · rintro ⟨ip', hip, h1, (⟨rfl, h2⟩ | ⟨m', n, he, hdec, hle, hc⟩)⟩
      · exact absurd (by simp) hip
      · have e1 := strsepOne_some _ _ m hs
        rw [he, strsepOne_some _ _ _ hip] at e1
        simp only [Prod.mk.injEq, Option.some.injEq] at e1
        obtain ⟨rfl, rfl⟩ := e1
        refine ⟨_, a.addr, h1, n, (cidr_mask env hM _ _ _).2 ⟨hdec, hle⟩, ?_, rfl⟩
        rw [← hc]; simp

theorem strsepAll_ne_nil (x : UInt8) (s : CStr) : strsepAll x s ≠ [] := by
  cases s with
  | nil => simp [strsepAll]
  | cons c t =>
    simp only [strsepAll]; split
    · simp
    · split <;> simp

theorem strsepAll_join (s : CStr) : commaJoin (strsepAll c!"," s) = s ∧ ∀ e ∈ strsepAll c!"," s, c!"," ∉ e := by
  induction s with
  | nil => simp [strsepAll, commaJoin]
  | cons c t ih =>
    simp only [strsepAll]
    by_cases h : c = 44
    · subst h
      simp only [if_true]
      obtain ⟨p, ps, hp⟩ := List.exists_cons_of_ne_nil (strsepAll_ne_nil 44 t)
      rw [hp] at ih ⊢
      constructor
      · simp only [commaJoin]; simp [ih.1]
      · intro e he
        rcases List.mem_cons.1 he with rfl | he
        · simp
        · exact ih.2 e he
    · simp only [if_neg h]
      obtain ⟨p, ps, hp⟩ := List.exists_cons_of_ne_nil (strsepAll_ne_nil 44 t)
      rw [hp] at ih ⊢
      constructor
      · cases ps with
        | nil => simp only [commaJoin] at ih ⊢; rw [ih.1]
        | cons q qs => simp only [commaJoin] at ih ⊢; rw [List.cons_append, ih.1]
      · intro e he
        rcases List.mem_cons.1 he with rfl | he
        · have := ih.2 p (by simp)
          simp [this, Ne.symm h]
        · exact ih.2 e (by simp [he])

theorem strsepAll_single (p : CStr) (h : c!"," ∉ p) : strsepAll c!"," p = [p] := by
  induction p with
  | nil => rfl
  | cons c p ih =>
    simp only [List.mem_cons, not_or] at h
    simp only [strsepAll, ih h.2, if_neg (Ne.symm h.1)]
theorem strsepAll_append (p t : CStr) (h : c!"," ∉ p) : strsepAll c!"," (p ++ c!"," :: t) = p :: strsepAll c!"," t := by
  induction p with
  | nil => simp [strsepAll]
  | cons c p ih =>
    simp only [List.mem_cons, not_or] at h
    simp only [List.cons_append, strsepAll, ih h.2, if_neg (Ne.symm h.1)]

theorem strsepAll_unique (es : List CStr) (hne : es ≠ []) (h : ∀ e ∈ es, c!"," ∉ e) :
    strsepAll c!"," (commaJoin es) = es := by
  induction es with
  | nil => exact absurd rfl hne
  | cons e es ih =>
    cases es with
    | nil => exact strsepAll_single e (h e (by simp))
    | cons f fs =>
      simp only [commaJoin]
      rw [strsepAll_append e _ (h e (by simp)), ih (by simp) (fun x hx => h x (by simp [hx]))]

theorem parseEntries_iff (env : Env) (hM : 128 < env.ulongMax) (es : List CStr) (as : List AllowedIP) :
    (∃ w, parseEntries env es = some (as, w)) ↔ List.Forall₂ (IsAllowedIP env.pton4 env.pton6) es as := by
  induction es generalizing as with
  | nil =>
    simp only [parseEntries, Option.some.injEq, Prod.mk.injEq]
    constructor
    · rintro ⟨w, rfl, -⟩; exact .nil
    · intro h; cases h; exact ⟨[], rfl, rfl⟩
  | cons e es ih =>
    simp only [parseEntries]
    constructor
    · rintro ⟨w, h⟩
      split at h
      · cases h
      · rename_i a w1 h1
        split at h
        · cases h
        · rename_i as' w2 h2
          simp only [Option.some.injEq, Prod.mk.injEq] at h
          obtain ⟨rfl, -⟩ := h
          exact .cons ((parseAllowedip_iff env hM e a).1 ⟨_, h1⟩) ((ih _).1 ⟨_, h2⟩)
    · intro h
      cases h with
      | cons h1 h2 =>
        obtain ⟨w1, h1⟩ := (parseAllowedip_iff env hM _ _).2 h1
        obtain ⟨w2, h2⟩ := (ih _).2 h2
        exact ⟨w1 ++ w2, by simp [h1, h2]⟩

theorem parseAllowedips_iff (env : Env) (hM : 128 < env.ulongMax) (v : CStr) (as : List AllowedIP) :
    (∃ w, parseAllowedips env v = some (as, w)) ↔ IsAllowedIPs env.pton4 env.pton6 v as := by
  simp only [parseAllowedips, IsAllowedIPs]
  by_cases hv : v = []
  · subst hv
    simp only [List.length_nil, if_true, Option.some.injEq, Prod.mk.injEq, true_and, ne_eq, not_true_eq_false, false_and, or_false]
    constructor
    · rintro ⟨w, rfl, -⟩; rfl
    · rintro rfl; exact ⟨[], rfl, rfl⟩
  · have : ¬ v.length = 0 := by simpa using hv
    simp only [if_neg this, hv, false_and, false_or, ne_eq, not_false_eq_true, true_and]
    rw [parseEntries_iff env hM]
    constructor
    · intro h
      obtain ⟨h1, h2⟩ := strsepAll_join v
      exact ⟨_, strsepAll_ne_nil _ _, h2, h1.symm, h⟩
    · rintro ⟨es, hne, hc, rfl, h⟩
      rwa [strsepAll_unique es hne hc]


/-! ### Host bits -/

theorem mod_two_pow_ne_zero (n m : Nat) : n % 2 ^ m ≠ 0 ↔ ∃ j, j < m ∧ n.testBit j = true := by
  constructor
  · intro h
    apply Classical.byContradiction
    intro hc
    apply h
    apply Nat.eq_of_testBit_eq
    intro i
    simp only [Nat.testBit_mod_two_pow, Nat.zero_testBit]
    by_cases hi : i < m
    · simp only [hi, decide_true, Bool.true_and]
      cases hb : n.testBit i
      · rfl
      · exact absurd ⟨i, hi, hb⟩ hc
    · simp [hi]
  · rintro ⟨j, hj, hb⟩ h
    have := Nat.testBit_mod_two_pow n m j
    rw [h] at this
    simp [hj, hb] at this

theorem ipWord_toNat (l : List UInt8) (i : Nat) : (ipWord l i).toNat =
    (l.getD (4 * i) 0).toNat * 2 ^ 24 + (l.getD (4 * i + 1) 0).toNat * 2 ^ 16
    + (l.getD (4 * i + 2) 0).toNat * 2 ^ 8 + (l.getD (4 * i + 3) 0).toNat := by
  have h0 := (l.getD (4 * i) 0).toNat_lt
  have h1 := (l.getD (4 * i + 1) 0).toNat_lt
  have h2 := (l.getD (4 * i + 2) 0).toNat_lt
  have h3 := (l.getD (4 * i + 3) 0).toNat_lt
  rw [ipWord, UInt32.toNat_ofNat', Nat.mod_eq_of_lt]
  omega

theorem word_testBit (a b c d : Nat) (hb : b < 256) (hc : c < 256) (hd : d < 256) (j : Nat) (hj : j < 32) :
    (a * 2 ^ 24 + b * 2 ^ 16 + c * 2 ^ 8 + d).testBit (31 - j) =
      ([a, b, c, d].getD (j / 8) 0).testBit (7 - j % 8) := by
  have e : a * 2 ^ 24 + b * 2 ^ 16 + c * 2 ^ 8 + d = 2 ^ 8 * (2 ^ 8 * (2 ^ 8 * a + b) + c) + d := by omega
  rw [e]
  by_cases h0 : j < 8
  · have : j / 8 = 0 := by omega
    rw [this, Nat.testBit_two_pow_mul_add _ (by omega), if_neg (by omega), Nat.testBit_two_pow_mul_add _ (by omega), if_neg (by omega),
      Nat.testBit_two_pow_mul_add _ (by omega), if_neg (by omega)]
    simp; congr 1; omega
  by_cases h1 : j < 16
  · have : j / 8 = 1 := by omega
    rw [this, Nat.testBit_two_pow_mul_add _ (by omega), if_neg (by omega), Nat.testBit_two_pow_mul_add _ (by omega), if_neg (by omega),
      Nat.testBit_two_pow_mul_add _ (by omega), if_pos (by omega)]
    simp; congr 1; omega
  by_cases h2 : j < 24
  · have : j / 8 = 2 := by omega
    rw [this, Nat.testBit_two_pow_mul_add _ (by omega), if_neg (by omega), Nat.testBit_two_pow_mul_add _ (by omega), if_pos (by omega)]
    simp; congr 1; omega
  · have : j / 8 = 3 := by omega
    rw [this, Nat.testBit_two_pow_mul_add _ (by omega), if_pos (by omega)]
    simp; congr 1; omega

/-- Bit `i` of a byte string, most significant bit of byte 0 first. -/
def bytesBit (l : List UInt8) (i : Nat) : Bool := (l.getD (i / 8) 0).toNat.testBit (7 - i % 8)

theorem ipWord_testBit (l : List UInt8) (i j : Nat) (hj : j < 32) :
    (ipWord l i).toNat.testBit (31 - j) = bytesBit l (32 * i + j) := by
  rw [ipWord_toNat, word_testBit _ _ _ _ (UInt8.toNat_lt _) (UInt8.toNat_lt _) (UInt8.toNat_lt _) j hj, bytesBit]
  have e1 : (32 * i + j) / 8 = 4 * i + j / 8 := by omega
  have e2 : (32 * i + j) % 8 = j % 8 := by omega
  rw [e1, e2]
  have : j / 8 < 4 := by omega
  generalize j / 8 = q at this
  match q, this with
  | 0, _ | 1, _ | 2, _ | 3, _ => rfl

theorem mask_and (w : UInt32) (k : Nat) (hk : k < 32) :
    (w &&& (0xffffffff >>> UInt32.ofNat k) ≠ 0) ↔ ∃ j, j < 32 - k ∧ w.toNat.testBit j = true := by
  rw [← mod_two_pow_ne_zero, Ne, ← UInt32.toNat_inj]
  have hm : (0xffffffff >>> UInt32.ofNat k : UInt32).toNat = 2 ^ (32 - k) - 1 := by
    have : ∀ k : Fin 32, (0xffffffff >>> UInt32.ofNat k : UInt32).toNat = 2 ^ (32 - k.val) - 1 := by decide +kernel
    exact this ⟨k, hk⟩
  rw [UInt32.toNat_and, hm, Nat.and_two_pow_sub_one_eq_mod]
  rfl

theorem validateLoop_iff (l : List UInt8) (cidr : Nat) (n : Nat) :
    validateLoop l cidr n = false ↔ ∃ i, cidr ≤ i ∧ i < 32 * n ∧ bytesBit l i = true := by
  induction n with
  | zero => simp [validateLoop]
  | succ n ih =>
    simp only [validateLoop]
    by_cases h : cidr ≥ 32 * (n + 1)
    · simp only [h, if_true, Bool.true_eq_false, false_iff]
      rintro ⟨i, h1, h2, _⟩; omega
    simp only [h, if_false]
    have key : (ipWord l n &&& (if cidr > 32 * n then 0xffffffff >>> UInt32.ofNat (cidr - 32 * n) else 0xffffffff) ≠ 0) ↔
        ∃ i, cidr ≤ i ∧ 32 * n ≤ i ∧ i < 32 * (n + 1) ∧ bytesBit l i = true := by
      have e : (if cidr > 32 * n then 0xffffffff >>> UInt32.ofNat (cidr - 32 * n) else 0xffffffff : UInt32)
          = 0xffffffff >>> UInt32.ofNat (cidr - 32 * n) := by
        split
        · rfl
        · have : cidr - 32 * n = 0 := by omega
          rw [this]; rfl
      rw [e, mask_and _ _ (by omega)]
      constructor
      · rintro ⟨j, hj, hb⟩
        refine ⟨32 * n + (31 - j), by omega, by omega, by omega, ?_⟩
        rw [← ipWord_testBit l n _ (by omega)]
        rw [show 31 - (31 - j) = j by omega]; exact hb
      · rintro ⟨i, h1, h2, h3, hb⟩
        refine ⟨31 - (i - 32 * n), by omega, ?_⟩
        rw [ipWord_testBit l n _ (by omega)]
        rw [show 32 * n + (i - 32 * n) = i by omega]; exact hb
    by_cases hw : (ipWord l n &&& (if cidr > 32 * n then 0xffffffff >>> UInt32.ofNat (cidr - 32 * n) else 0xffffffff) ≠ 0)
    · simp only [hw, if_true, true_iff, ne_eq, not_false_eq_true]
      obtain ⟨i, h1, h2, h3, h4⟩ := key.1 hw
      exact ⟨i, h1, by omega, h4⟩
    · simp only [hw, if_false, ih]
      constructor
      · rintro ⟨i, h1, h2, h3⟩; exact ⟨i, h1, by omega, h3⟩
      · rintro ⟨i, h1, h2, h3⟩
        refine ⟨i, h1, ?_, h3⟩
        apply Classical.byContradiction; intro hc
        exact hw (key.2 ⟨i, h1, by omega, h2, h3⟩)

theorem validateNetmask_iff (a : AllowedIP) : validateNetmask a = false ↔ HasHostBits a := by
  unfold validateNetmask HasHostBits
  cases h : a.addr <;> simp only [validateLoop_iff, addrBits] <;> exact Iff.rfl

/-! ### Endpoint splitting -/

theorem splitEndpoint_iff (v host port : CStr) :
    splitEndpoint v = some (host, port) ↔ IsEndpointText v host port := by
  match v with
  | [] => simp [splitEndpoint, IsEndpointText]
  | c :: rest =>
    by_cases hc : c = 91
    · subst hc
      simp only [splitEndpoint, IsEndpointText, List.head?_cons, ne_eq, not_true_eq_false, false_and, or_false, List.cons_append, List.cons.injEq, true_and]
      rcases split_first 93 rest with h | ⟨a, b, rfl, h⟩
      · rw [dropWhile_ne_self _ _ h]
        simp only [reduceCtorEq, false_iff]
        rintro ⟨-, rfl, -⟩; exact h (by simp)
      · rw [dropWhile_ne_append _ _ _ h, takeWhile_ne_append _ _ _ h]
        constructor
        · intro hh
          split at hh
          · rename_i heq; cases heq
          · rename_i x y heq
            simp only [List.cons.injEq] at heq
            obtain ⟨-, rfl⟩ := heq
            split at hh
            · split at hh
              · cases hh
              · simp only [Option.some.injEq, Prod.mk.injEq] at hh
                obtain ⟨rfl, rfl⟩ := hh
                exact ⟨by assumption, rfl, h⟩
            · cases hh
        · rintro ⟨hp, he, hh⟩
          have e1 := takeWhile_ne_append 93 a b h
          have e2 := dropWhile_ne_append 93 a b h
          rw [he, takeWhile_ne_append 93 _ _ hh] at e1
          rw [he, dropWhile_ne_append 93 _ _ hh] at e2
          simp only [List.cons.injEq, true_and] at e2
          subst e1 e2
          simp [hp]
    · have e : splitEndpoint (c :: rest) = (match (c :: rest).reverse.dropWhile (· ≠ 58) with
          | [] => none
          | _ :: hostRev => if ((c :: rest).reverse.takeWhile (· ≠ 58)).reverse = [] then none
              else some (hostRev.reverse, ((c :: rest).reverse.takeWhile (· ≠ 58)).reverse)) := by
        unfold splitEndpoint; split
        · rename_i h; cases h
        · rename_i h; simp only [List.cons.injEq] at h; exact absurd h.1 hc
        · rfl
      rw [e]
      simp only [IsEndpointText, List.head?_cons, ne_eq, Option.some.injEq, hc, not_false_eq_true, true_and, List.cons_append, List.cons.injEq, false_and, false_or]
      generalize c :: rest = s
      rcases split_first 58 s.reverse with h | ⟨a, b, hab, h⟩
      · have := dropWhile_ne_self _ _ h
        simp only [ne_eq] at this
        rw [this]
        simp only [reduceCtorEq, false_iff]
        rintro ⟨-, rfl, -⟩; exact h (by simp)
      · have h1 := dropWhile_ne_append _ a b h
        have h2 := takeWhile_ne_append _ a b h
        rw [← hab] at h1 h2
        simp only [ne_eq] at h1 h2
        rw [h1, h2]
        have hs : s = b.reverse ++ 58 :: a.reverse := by
          have := congrArg List.reverse hab
          simpa using this
        constructor
        · intro hh
          simp only at hh
          split at hh
          · cases hh
          · simp only [Option.some.injEq, Prod.mk.injEq] at hh
            obtain ⟨rfl, rfl⟩ := hh
            exact ⟨by assumption, hs, by simpa using h⟩
        · rintro ⟨hp, he, hh⟩
          have hab' : s.reverse = port.reverse ++ 58 :: host.reverse := by rw [he]; simp
          have h3 := dropWhile_ne_append 58 port.reverse host.reverse (by simpa using hh)
          have h4 := takeWhile_ne_append 58 port.reverse host.reverse (by simpa using hh)
          rw [← hab'] at h3 h4
          simp only [ne_eq] at h3 h4
          rw [h1] at h3; rw [h2] at h4
          simp only [List.cons.injEq, true_and] at h3
          subst h3 h4
          simp [hp]

end WG
