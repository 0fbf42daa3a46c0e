import Verif.Proof.Uapi
namespace WG
open Spec

/-! ### replies to a set request -/

theorem dropWhile_space_digit (c : UInt8) (t : CStr) (h : isspaceLibc c = false) : (c :: t).dropWhile isspaceLibc = c :: t := by
  simp [h]

theorem takeWhile_digits (s : CStr) (h : s.dropWhile (isDigitOf 10) = []) : s.takeWhile (isDigitOf 10) = s := by
  apply takeWhile_all; exact (dropWhile_nil_iff _ _).1 h

theorem getD_zero_eq_head (s : CStr) (x : UInt8) (hx : x ≠ 0) : s.getD 0 0 = x ↔ ∃ t, s = x :: t := by
  cases s with
  | nil => simp [hx.symm]
  | cons c t => simp

theorem isDecimal_iff (s : List UInt8) (n : Nat) : IsDecimal s n ↔ s ≠ [] ∧ s.dropWhile (isDigitOf 10) = [] ∧ n = digitsVal 10 s := by
  rw [dropWhile_nil_iff]
  constructor
  · rintro ⟨h1, h2, h3⟩
    exact ⟨h1, fun a ha => by rw [isDigitOf10]; exact h2 a ha, by rw [digitsVal10 s h2]; exact h3⟩
  · rintro ⟨h1, h2, h3⟩
    have h2' : ∀ c ∈ s, isDigit c = true := fun a ha => by rw [← isDigitOf10]; exact h2 a ha
    exact ⟨h1, h2', by rw [h3, digitsVal10 s h2']⟩

theorem setErrnoValue_iff (sc : Bool) (v : CStr) (n : Int) :
    setErrnoValue sc v = some n ↔ IsIntNumeral v n ∧ -2147483648 ≤ n ∧ n ≤ 2147483647 := by
  simp only [setErrnoValue]
  by_cases hm : ∃ t, v = c!"-" :: t
  · obtain ⟨t, rfl⟩ := hm
    have hsp : isspaceLibc c!"-" = false := by decide
    simp only [List.getD_cons_zero, ne_eq, not_true_eq_false, decide_false, Bool.false_and, Bool.false_eq_true, if_false,
      strtoll, dropWhile_space_digit _ _ hsp, strtoulSign]
    by_cases ht : t.takeWhile (isDigitOf 10) = []
    · rw [if_pos ht]
      simp only [reduceCtorEq, not_false_eq_true, decide_true, Bool.true_or, if_true, false_iff]
      rintro ⟨h | ⟨d, m, h, hd, -⟩, -⟩
      · obtain ⟨m, h, -⟩ := h
        exact absurd (h.2.1 c!"-" (by simp)) (by decide)
      · simp only [List.cons.injEq, true_and] at h; subst h
        obtain ⟨h1, h2, -⟩ := (isDecimal_iff _ _).1 hd
        rw [takeWhile_digits _ h2] at ht; exact h1 ht
    · rw [if_neg ht]
      by_cases hr : t.dropWhile (isDigitOf 10) = []
      · rw [takeWhile_digits _ hr] at ht ⊢
        have hdec : ∀ m, IsDecimal t m ↔ m = digitsVal 10 t := fun m => by rw [isDecimal_iff]; simp [ht, hr]
        have hnum : ∀ k : Int, IsIntNumeral (c!"-" :: t) k ↔ k = -(digitsVal 10 t : Int) := by
          intro k
          constructor
          · rintro (⟨m, h, -⟩ | ⟨d, m, h, hd, rfl⟩)
            · exact absurd (h.2.1 c!"-" (by simp)) (by decide)
            · simp only [List.cons.injEq, true_and] at h; subst h
              rw [(hdec m).1 hd]
          · rintro rfl; exact Or.inr ⟨t, _, rfl, (hdec _).2 rfl, rfl⟩
        rw [hnum]
        simp only [hr, not_true_eq_false, decide_false, Bool.false_or, if_true]
        generalize digitsVal 10 t = V
        by_cases hV : V > 2 ^ 63
        · rw [if_pos hV]
          have : (decide (-(2:Int) ^ 63 > 2147483647) || decide (-(2:Int) ^ 63 < -2147483648)) = true := by decide
          rw [if_pos this]
          constructor
          · intro h; cases h
          · rintro ⟨rfl, h, -⟩; omega
        · rw [if_neg hV]
          simp only [Bool.or_eq_true, decide_eq_true_eq]
          split
          · rename_i h
            constructor
            · intro h; cases h
            · rintro ⟨rfl, h1, h2⟩; omega
          · rename_i h
            simp only [Option.some.injEq]
            constructor
            · rintro rfl; refine ⟨rfl, ?_, ?_⟩ <;> omega
            · rintro ⟨rfl, -⟩; rfl
      · simp only [hr, not_false_eq_true, decide_true, Bool.true_or, if_true]
        constructor
        · intro h; cases h
        · rintro ⟨⟨m, h, -⟩ | ⟨d, m, h, hd, -⟩, -⟩
          · exact absurd (h.2.1 c!"-" (by simp)) (by decide)
          · simp only [List.cons.injEq, true_and] at h; subst h
            exact absurd ((isDecimal_iff _ _).1 hd).2.1 hr
  · have hg : v.getD 0 0 ≠ c!"-" := fun h => hm ((getD_zero_eq_head v _ (by decide)).1 h)
    have hnum : ∀ k : Int, IsIntNumeral v k ↔ ∃ m, IsDecimal v m ∧ k = m := by
      intro k
      constructor
      · rintro (h | ⟨d, m, h, -⟩)
        · exact h
        · exact absurd ⟨d, h⟩ hm
      · exact Or.inl
    rw [hnum]
    rw [charIsDigit_spec]
    by_cases hd : isDigit (v.getD 0 0) = true
    · have hcond : (decide (v.getD 0 0 ≠ c!"-") && !isDigit (v.getD 0 0)) = false := by rw [hd]; simp
      rw [hcond]
      simp only [Bool.false_eq_true, if_false]
      cases v with
      | nil => exact absurd hd (by decide)
      | cons c t =>
        simp only [List.getD_cons_zero] at hd
        have hs := digit_not_sign c hd
        have hsign : strtoulSign (c :: t) = (false, c :: t) := by
          simp only [strtoulSign]
          split
          · rename_i h; simp only [List.cons.injEq] at h; exact absurd h.1 hs.1
          · rename_i h; simp only [List.cons.injEq] at h; exact absurd h.1 hs.2
          · rfl
        simp only [strtoll, dropWhile_space_digit _ _ (digit_not_space c hd), hsign]
        have hne : (c :: t).takeWhile (isDigitOf 10) ≠ [] := by
          rw [List.takeWhile_cons, isDigitOf10, hd]; simp
        rw [if_neg hne]
        by_cases hr : (c :: t).dropWhile (isDigitOf 10) = []
        · rw [takeWhile_digits _ hr]
          have hdec : ∀ m, IsDecimal (c :: t) m ↔ m = digitsVal 10 (c :: t) := fun m => by rw [isDecimal_iff]; simp [hr]
          simp only [hdec, exists_eq_left, hr, ne_eq, not_true_eq_false, decide_false, Bool.false_or, Bool.false_eq_true, if_false]
          generalize digitsVal 10 (c :: t) = V
          by_cases hV : V > 2 ^ 63 - 1
          · rw [if_pos hV]
            have : (decide ((2:Int) ^ 63 - 1 > 2147483647) || decide ((2:Int) ^ 63 - 1 < -2147483648)) = true := by decide
            rw [if_pos this]
            constructor
            · intro h; cases h
            · rintro ⟨rfl, -, h⟩; omega
          · rw [if_neg hV]
            simp only [Bool.or_eq_true, decide_eq_true_eq]
            split
            · rename_i h
              constructor
              · intro h; cases h
              · rintro ⟨rfl, h1, h2⟩; omega
            · rename_i h
              simp only [Option.some.injEq]
              constructor
              · rintro rfl; refine ⟨rfl, ?_, ?_⟩ <;> omega
              · rintro ⟨rfl, -⟩; rfl
        · simp only [ne_eq, hr, not_false_eq_true, decide_true, Bool.true_or, if_true]
          constructor
          · intro h; cases h
          · rintro ⟨⟨m, h, -⟩, -⟩
            exact absurd ((isDecimal_iff _ _).1 h).2.1 hr
    · have hcond : (decide (v.getD 0 0 ≠ c!"-") && !isDigit (v.getD 0 0)) = true := by simp only [ne_eq, hg, not_false_eq_true, decide_true, Bool.true_and]; simpa using hd
      rw [hcond]
      simp only [if_true]
      constructor
      · intro h; cases h
      · rintro ⟨⟨m, h, -⟩, -⟩
        exfalso
        cases v with
        | nil => exact h.1 rfl
        | cons c t => exact hd (h.2.1 c (by simp))

/-- The last `errno` number among `kvs` is `n`, or there is none and it was `e0` before. -/
def FinalErrno (lo hi : Int) (e0 : Int) (kvs : List (CStr × CStr)) (n : Int) : Prop :=
  ∃ ns : List Int, List.Forall₂ (fun kv m => IsIntNumeral kv.2 m ∧ lo ≤ m ∧ m ≤ hi) (kvs.filter (·.1 = b!"errno")) ns ∧ ns.getLast?.getD e0 = n

theorem finalErrno_cons_other (lo hi e0 n : Int) (k v : CStr) (kvs : List (CStr × CStr)) (hk : k ≠ b!"errno") :
    FinalErrno lo hi e0 ((k, v) :: kvs) n ↔ FinalErrno lo hi e0 kvs n := by
  simp only [FinalErrno]
  rw [List.filter_cons_of_neg (by simpa using hk)]

theorem finalErrno_cons_errno (lo hi e0 n : Int) (v : CStr) (kvs : List (CStr × CStr)) :
    FinalErrno lo hi e0 ((b!"errno", v) :: kvs) n ↔ ∃ m, IsIntNumeral v m ∧ lo ≤ m ∧ m ≤ hi ∧ FinalErrno lo hi m kvs n := by
  simp only [FinalErrno]
  rw [List.filter_cons_of_pos (by simp)]
  have hlast : ∀ (m : Int) (ns : List Int), (m :: ns).getLast?.getD e0 = ns.getLast?.getD m := by
    intro m ns
    rw [List.getLast?_cons]; rfl
  constructor
  · rintro ⟨ns, h1, h2⟩
    cases h1 with
    | cons hm hrest =>
      rename_i m ns'
      exact ⟨m, hm.1, hm.2.1, hm.2.2, ns', hrest, by rw [← h2, hlast]⟩
  · rintro ⟨m, h1, h2, h3, ns, h4, h5⟩
    exact ⟨m :: ns, List.Forall₂.cons ⟨h1, h2, h3⟩ h4, by rw [hlast, h5]⟩

theorem intNumeral_unique {v : CStr} {m n : Int} (h1 : IsIntNumeral v m) (h2 : IsIntNumeral v n) : m = n := by
  have hneg : ∀ d k, ¬ IsDecimal (c!"-" :: d) k := fun d k h => absurd (h.2.1 c!"-" (by simp)) (by decide)
  rcases h1 with ⟨a, ha, rfl⟩ | ⟨d, a, rfl, ha, rfl⟩ <;> rcases h2 with ⟨b, hb, rfl⟩ | ⟨d', b, hd, hb, rfl⟩
  · rw [ha.2.2, hb.2.2]
  · subst hd; exact absurd ha (hneg _ _)
  · exact absurd hb (hneg _ _)
  · simp only [List.cons.injEq, true_and] at hd; subst hd; rw [ha.2.2, hb.2.2]

/-- The lines are `key=value` lines followed by a blank line. -/
def Reply (lines : List CStr) (kvs : List (CStr × CStr)) : Prop :=
  ∃ kls rest, lines = kls ++ [10] :: rest ∧ List.Forall₂ (fun l kv => IsKV l kv.1 kv.2) kls kvs

theorem reply_blank (rest : List CStr) (kvs : List (CStr × CStr)) : Reply ([10] :: rest) kvs ↔ kvs = [] := by
  constructor
  · rintro ⟨kls, r, h1, h2⟩
    cases kls with
    | nil => exact (List.forall₂_nil_left_iff.1 h2)
    | cons l kls =>
      cases h2 with
      | cons hl _ =>
        simp only [List.cons_append, List.cons.injEq] at h1
        rw [← h1.1] at hl
        exact absurd hl.2.symm (kv_ne_nl _ _)
  · rintro rfl; exact ⟨[], rest, rfl, List.Forall₂.nil⟩

theorem reply_cons (line : CStr) (rest : List CStr) (kvs : List (CStr × CStr)) (hl : line ≠ [10]) :
    Reply (line :: rest) kvs ↔ ∃ k v kvs', kvs = (k, v) :: kvs' ∧ IsKV line k v ∧ Reply rest kvs' := by
  constructor
  · rintro ⟨kls, r, h1, h2⟩
    cases kls with
    | nil => simp only [List.nil_append, List.cons.injEq] at h1; exact absurd h1.1 hl
    | cons l kls =>
      cases h2 with
      | cons hl' hr =>
        rename_i kv kvs'
        simp only [List.cons_append, List.cons.injEq] at h1
        obtain ⟨rfl, rfl⟩ := h1
        exact ⟨kv.1, kv.2, kvs', rfl, hl', kls, r, rfl, hr⟩
  · rintro ⟨k, v, kvs', rfl, h1, kls, r, rfl, h2⟩
    exact ⟨line :: kls, r, rfl, List.Forall₂.cons h1 h2⟩

theorem not_reply_nil (kvs : List (CStr × CStr)) : ¬ Reply [] kvs := by
  rintro ⟨kls, r, h1, -⟩; cases kls <;> simp at h1

theorem fail_ne_zero (err : Nat) : (if err ≠ 0 then -(err : Int) else -EPROTO) ≠ 0 := by
  split
  · omega
  · decide

theorem isKV_unique {line k v k' v' : CStr} (h : IsKV line k v) (h' : IsKV line k' v') : k = k' ∧ v = v' := by
  rw [← kvLine_some] at h h'
  rw [h] at h'; simpa using h'

theorem setReply_zero (sc : Bool) (err : Nat) (lines : List CStr) (e0 : Int) :
    setReply sc err e0 lines = 0 ↔ ∃ kvs, Reply lines kvs ∧ FinalErrno (-2147483648) 2147483647 e0 kvs 0 := by
  induction lines generalizing e0 with
  | nil =>
    simp only [setReply]
    exact ⟨fun h => absurd h (fail_ne_zero err), fun ⟨kvs, h, _⟩ => absurd h (not_reply_nil kvs)⟩
  | cons line rest ih =>
    simp only [setReply]
    by_cases hl : line = [10]
    · subst hl
      simp only [if_true, reply_blank, exists_eq_left]
      simp [FinalErrno]
    · rw [if_neg hl]
      simp only [reply_cons _ _ _ hl]
      cases hkv : kvLine line with
      | none =>
        simp only
        refine ⟨fun h => absurd h (fail_ne_zero err), ?_⟩
        rintro ⟨kvs, ⟨k, v, kvs', rfl, h, -⟩, -⟩
        rw [(kvLine_some _ _ _).2 h] at hkv; cases hkv
      | some kv =>
        obtain ⟨k, v⟩ := kv
        have hkv' := (kvLine_some _ _ _).1 hkv
        simp only
        have hshape : (∃ kvs, (∃ k v kvs', kvs = (k, v) :: kvs' ∧ IsKV line k v ∧ Reply rest kvs') ∧ FinalErrno (-2147483648) 2147483647 e0 kvs 0) ↔
            ∃ kvs', Reply rest kvs' ∧ FinalErrno (-2147483648) 2147483647 e0 ((k, v) :: kvs') 0 := by
          constructor
          · rintro ⟨_, ⟨k', v', kvs', rfl, h1, h2⟩, h3⟩
            obtain ⟨rfl, rfl⟩ := isKV_unique hkv' h1
            exact ⟨kvs', h2, h3⟩
          · rintro ⟨kvs', h1, h2⟩; exact ⟨_, ⟨k, v, kvs', rfl, hkv', h1⟩, h2⟩
        rw [hshape]
        by_cases hk : k = b!"errno"
        · subst hk
          rw [if_pos rfl]
          simp only [finalErrno_cons_errno]
          cases hv : setErrnoValue sc v with
          | none =>
            simp only
            refine ⟨fun h => absurd h (fail_ne_zero err), ?_⟩
            rintro ⟨kvs', -, m, h1, h2, h3, -⟩
            rw [(setErrnoValue_iff sc v m).2 ⟨h1, h2, h3⟩] at hv; cases hv
          | some m =>
            simp only
            obtain ⟨h1, h2, h3⟩ := (setErrnoValue_iff sc v m).1 hv
            rw [ih m]
            constructor
            · rintro ⟨kvs', h4, h5⟩; exact ⟨kvs', h4, m, h1, h2, h3, h5⟩
            · rintro ⟨kvs', h4, m', h1', -, -, h5⟩
              rw [intNumeral_unique h1 h1']; exact ⟨kvs', h4, h5⟩
        · rw [if_neg hk, ih e0]
          simp only [finalErrno_cons_other _ _ _ _ _ _ _ hk]

theorem setReply_code (sc : Bool) (err : Nat) (lines : List CStr) (e0 : Int) :
    (∃ kvs n, Reply lines kvs ∧ FinalErrno (-2147483648) 2147483647 e0 kvs n ∧ setReply sc err e0 lines = n) ∨
    ((¬ ∃ kvs n, Reply lines kvs ∧ FinalErrno (-2147483648) 2147483647 e0 kvs n) ∧ setReply sc err e0 lines = if err ≠ 0 then -(err : Int) else -EPROTO) := by
  induction lines generalizing e0 with
  | nil => exact .inr ⟨fun ⟨kvs, _, h, _⟩ => absurd h (not_reply_nil kvs), rfl⟩
  | cons line rest ih =>
    by_cases hl : line = [10]
    · subst hl
      exact .inl ⟨[], e0, (reply_blank _ _).2 rfl, ⟨[], by simp, rfl⟩, by simp [setReply]⟩
    rw [setReply, if_neg hl]
    cases hkv : kvLine line with
    | none =>
      refine .inr ⟨?_, rfl⟩
      rintro ⟨kvs, n, h, -⟩
      obtain ⟨k, v, kvs', rfl, h, -⟩ := (reply_cons _ _ _ hl).1 h
      rw [(kvLine_some _ _ _).2 h] at hkv; cases hkv
    | some kv =>
      obtain ⟨k, v⟩ := kv
      have hkv' := (kvLine_some _ _ _).1 hkv
      dsimp only
      by_cases hk : k = b!"errno"
      · subst hk
        rw [if_pos rfl]
        cases hv : setErrnoValue sc v with
        | none =>
          refine .inr ⟨?_, rfl⟩
          rintro ⟨kvs, n, h, hf⟩
          obtain ⟨k, w, kvs', rfl, h, -⟩ := (reply_cons _ _ _ hl).1 h
          obtain ⟨rfl, rfl⟩ := isKV_unique hkv' h
          obtain ⟨m, h1, h2, h3, -⟩ := (finalErrno_cons_errno _ _ _ _ _ _).1 hf
          rw [(setErrnoValue_iff sc v m).2 ⟨h1, h2, h3⟩] at hv; cases hv
        | some m =>
          obtain ⟨h1, h2, h3⟩ := (setErrnoValue_iff sc v m).1 hv
          dsimp only
          rcases ih m with ⟨kvs, n, g1, g2, g3⟩ | ⟨g1, g2⟩
          · exact .inl ⟨(b!"errno", v) :: kvs, n, (reply_cons _ _ _ hl).2 ⟨_, _, _, rfl, hkv', g1⟩, (finalErrno_cons_errno _ _ _ _ _ _).2 ⟨m, h1, h2, h3, g2⟩, g3⟩
          · refine .inr ⟨?_, g2⟩
            rintro ⟨kvs, n, h, hf⟩
            obtain ⟨k, w, kvs', rfl, h, hr⟩ := (reply_cons _ _ _ hl).1 h
            obtain ⟨rfl, rfl⟩ := isKV_unique hkv' h
            obtain ⟨m', h1', -, -, hf⟩ := (finalErrno_cons_errno _ _ _ _ _ _).1 hf
            rw [← intNumeral_unique h1 h1'] at hf
            exact g1 ⟨kvs', n, hr, hf⟩
      · rw [if_neg hk]
        rcases ih e0 with ⟨kvs, n, g1, g2, g3⟩ | ⟨g1, g2⟩
        · exact .inl ⟨(k, v) :: kvs, n, (reply_cons _ _ _ hl).2 ⟨_, _, _, rfl, hkv', g1⟩, (finalErrno_cons_other _ _ _ _ _ _ _ hk).2 g2, g3⟩
        · refine .inr ⟨?_, g2⟩
          rintro ⟨kvs, n, h, hf⟩
          obtain ⟨k', w, kvs', rfl, h, hr⟩ := (reply_cons _ _ _ hl).1 h
          obtain ⟨rfl, rfl⟩ := isKV_unique hkv' h
          exact g1 ⟨kvs', n, hr, (finalErrno_cons_other _ _ _ _ _ _ _ hk).1 hf⟩

theorem reply_unique {lines : List CStr} {a b : List (CStr × CStr)} (h1 : Reply lines a) (h2 : Reply lines b) : a = b := by
  induction lines generalizing a b with
  | nil => exact absurd h1 (not_reply_nil a)
  | cons line rest ih =>
    by_cases hl : line = [10]
    · subst hl; rw [(reply_blank _ _).1 h1, (reply_blank _ _).1 h2]
    obtain ⟨k, v, a', rfl, e1, g1⟩ := (reply_cons _ _ _ hl).1 h1
    obtain ⟨k', v', b', rfl, e2, g2⟩ := (reply_cons _ _ _ hl).1 h2
    obtain ⟨rfl, rfl⟩ := isKV_unique e1 e2
    rw [ih g1 g2]

theorem finalErrno_unique {lo hi e0 m n : Int} {kvs : List (CStr × CStr)} (h1 : FinalErrno lo hi e0 kvs m) (h2 : FinalErrno lo hi e0 kvs n) : m = n := by
  obtain ⟨a, ha, rfl⟩ := h1
  obtain ⟨b, hb, rfl⟩ := h2
  have : a = b := by
    revert ha hb
    generalize kvs.filter (·.1 = b!"errno") = l
    intro ha hb
    clear * - ha hb
    induction ha generalizing b with
    | nil => cases hb; rfl
    | cons h _ ih =>
      cases hb with
      | cons h' hr => rw [intNumeral_unique h.1 h'.1, ih _ hr]
  rw [this]

theorem finalErrno_last {lo hi e0 n : Int} {kvs : List (CStr × CStr)} (h0 : e0 ≠ n) :
    FinalErrno lo hi e0 kvs n ↔ LastErrno lo hi kvs n := by
  constructor
  · rintro ⟨ns, h1, h2⟩
    refine ⟨ns, h1, ?_⟩
    cases h : ns.getLast? with
    | none => rw [h] at h2; exact absurd h2 h0
    | some m => rw [h] at h2; exact congrArg some h2
  · rintro ⟨ns, h1, h2⟩; exact ⟨ns, h1, by rw [h2]; rfl⟩

/-! ### get replies -/

theorem num_iff (sc : Bool) (v : CStr) (max n : Nat) :
    num sc v max = some n ↔ ∃ m, IsDecimal v m ∧ n = min m (2 ^ 64 - 1) ∧ n ≤ max := by
  simp only [num, charIsDigit_spec]
  by_cases hd : isDigit (v.getD 0 0) = true
  · have hne : v ≠ [] := by rintro rfl; exact absurd hd (by decide)
    simp only [hd, Bool.not_true, Bool.false_eq_true, if_false]
    by_cases hall : ∀ c ∈ v, isDigit c = true
    · rw [strtoul10_all _ _ hne hall]
      have hdec : ∀ m, IsDecimal v m ↔ m = decVal v := fun m => ⟨fun h => h.2.2, fun h => ⟨hne, hall, h⟩⟩
      have hmin : (if decVal v > 2 ^ 64 - 1 then 2 ^ 64 - 1 else decVal v) = min (decVal v) (2 ^ 64 - 1) := by
        rw [Nat.min_def]; split <;> split <;> omega
      simp only [hdec, exists_eq_left, hmin, ne_eq, not_true_eq_false, decide_false, Bool.false_or, decide_eq_true_eq]
      split
      · rename_i h
        constructor
        · intro h'; cases h'
        · rintro ⟨rfl, h'⟩; omega
      · rename_i h
        simp only [Option.some.injEq]
        constructor
        · rintro rfl; exact ⟨rfl, by omega⟩
        · rintro ⟨rfl, -⟩; rfl
    · have h2 : (strtoul (2 ^ 64 - 1) 10 v).2 ≠ [] := by rw [Ne, strtoul10_rest _ _ hd]; exact hall
      simp only [h2, ne_eq, not_false_eq_true, decide_true, Bool.true_or, if_true, reduceCtorEq, false_iff]
      rintro ⟨m, h, -⟩; exact hall h.2.1
  · simp only [Bool.not_eq_true] at hd
    simp only [hd, Bool.not_false, if_true, reduceCtorEq, false_iff]
    rintro ⟨m, ⟨hne, hall, -⟩, -⟩
    obtain ⟨d, t, rfl⟩ := List.exists_cons_of_ne_nil hne
    have := hall d (by simp)
    simp at hd; rw [hd] at this; cases this

theorem num_of_decimal (sc : Bool) (v : CStr) (max n : Nat) (h : IsDecimal v n) (hm : max < 2 ^ 64) (hn : n ≤ max) : num sc v max = some n := by
  rw [num_iff]; exact ⟨n, h, by omega, hn⟩

theorem orBreak_go {α : Type} (o : Option α) (f : α → GetStep) (s : GetSt) (h : orBreak o f = .go s) : ∃ a, o = some a ∧ f a = .go s := by
  cases o with
  | none => cases h
  | some a => exact ⟨a, rfl, h⟩

theorem orBreak_stop {α : Type} (o : Option α) (f : α → GetStep) (r : Int) (h : orBreak o f = .stop r) : r = -EPROTO ∨ ∃ a, o = some a ∧ f a = .stop r := by
  cases o with
  | none => simp only [orBreak, GetStep.stop.injEq] at h; exact Or.inl h.symm
  | some a => exact Or.inr ⟨a, rfl, h⟩

theorem orBreak_go_stop {α : Type} (o : Option α) (f : α → GetSt) (r : Int) (h : orBreak o (fun a => .go (f a)) = .stop r) : r = -EPROTO := by
  rcases orBreak_stop _ _ _ h with h | ⟨a, -, h⟩
  · exact h
  · cases h

theorem getEndpoint_stop (env : Env) (s : GetSt) (p : Peer) (v : CStr) (r : Int) (h : getEndpoint env s p v = .stop r) :
    r = -EPROTO ∨ (r = ENETUNREACH ∧ ∃ host port, splitEndpoint v = some (host, port) ∧ ∀ e, env.gai s.tick host port ≠ .found e) := by
  simp only [getEndpoint] at h
  rcases orBreak_stop _ _ _ h with h | ⟨⟨host, port⟩, ha, h⟩
  · exact Or.inl h
  · simp only at h
    split at h
    · simp only [GetStep.stop.injEq] at h; exact Or.inl h.symm
    · cases h
    · rename_i hu1 hu2
      simp only [GetStep.stop.injEq] at h
      exact Or.inr ⟨h.symm, host, port, ha, fun e he => by
        cases e with
        | unset => exact hu1 he
        | in4 a p => exact hu2 _ he
        | in6 a p f sc => exact hu2 _ he⟩

theorem getEndpoint_go (env : Env) (s s' : GetSt) (p : Peer) (v : CStr) (h : getEndpoint env s p v = .go s') : s'.ret = s.ret := by
  simp only [getEndpoint] at h
  obtain ⟨⟨host, port⟩, -, h⟩ := orBreak_go _ _ _ h
  simp only at h
  split at h
  · cases h
  · simp only [GetStep.go.injEq] at h; rw [← h]
  · cases h

theorem getOther_stop (env : Env) (s : GetSt) (k v : CStr) (r : Int) (h : getOther env s k v = .stop r) : r = -EPROTO := by
  unfold getOther at h
  split at h
  · exact orBreak_go_stop _ _ _ h
  · cases h

theorem getDevLine_stop (env : Env) (pubOf : Key → Key) (s : GetSt) (k v : CStr) (r : Int) (h : getDevLine env pubOf s k v = .stop r) :
    r = -EPROTO := by
  unfold getDevLine at h
  repeat' split at h
  all_goals first
    | exact orBreak_go_stop _ _ _ h
    | exact getOther_stop _ _ _ _ _ h

theorem getPeerLine_stop (env : Env) (s : GetSt) (p : Peer) (k v : CStr) (r : Int) (h : getPeerLine env s p k v = .stop r) :
    r = -EPROTO ∨ (r = ENETUNREACH ∧ k = b!"endpoint" ∧
      ∃ host port, splitEndpoint v = some (host, port) ∧ ∀ e, env.gai s.tick host port ≠ .found e) := by
  unfold getPeerLine at h
  repeat' split at h
  all_goals first
    | (left; exact orBreak_go_stop _ _ _ h)
    | (rename_i hk; rcases getEndpoint_stop _ _ _ _ _ h with h | ⟨h1, h2⟩
       · exact Or.inl h
       · exact Or.inr ⟨h1, hk, h2⟩)
    | (left; exact getOther_stop _ _ _ _ _ h)

theorem getStep_stop (env : Env) (pubOf : Key → Key) (s : GetSt) (k v : CStr) (r : Int) (h : getStep env pubOf s k v = .stop r) :
    r = -EPROTO ∨ (r = ENETUNREACH ∧ k = b!"endpoint" ∧
      ∃ host port, splitEndpoint v = some (host, port) ∧ ∀ e, env.gai s.tick host port ≠ .found e) := by
  unfold getStep at h
  split at h
  · exact Or.inl (orBreak_go_stop _ _ _ h)
  · split at h
    · exact Or.inl (getDevLine_stop _ _ _ _ _ _ h)
    · exact getPeerLine_stop _ _ _ _ _ _ h

/-- What one line does to `ret`. -/
def RetStep (env : Env) (s s' : GetSt) (k v : CStr) : Prop :=
  (k = b!"errno" ∧ ∃ n, num env.sc v 0x7fffffff = some n ∧ s'.ret = -(n : Int)) ∨ (k ≠ b!"errno" ∧ s'.ret = s.ret)

theorem getOther_go (env : Env) (s s' : GetSt) (k v : CStr) (h : getOther env s k v = .go s') : RetStep env s s' k v := by
  unfold getOther at h
  split at h
  · rename_i hk
    obtain ⟨n, h1, h2⟩ := orBreak_go _ _ _ h
    simp only [GetStep.go.injEq] at h2
    exact Or.inl ⟨hk, n, h1, by rw [← h2]⟩
  · rename_i hk
    simp only [GetStep.go.injEq] at h
    exact Or.inr ⟨hk, by rw [← h]⟩

theorem getDevLine_go (env : Env) (pubOf : Key → Key) (s s' : GetSt) (k v : CStr) (h : getDevLine env pubOf s k v = .go s') : RetStep env s s' k v := by
  unfold getDevLine at h
  repeat' split at h
  all_goals first
    | (rename_i hk; right; obtain ⟨n, h1, h2⟩ := orBreak_go _ _ _ h; simp only [GetStep.go.injEq] at h2
       exact ⟨by rw [hk]; decide, by rw [← h2]⟩)
    | exact getOther_go _ _ _ _ _ h

theorem getPeerLine_go (env : Env) (s s' : GetSt) (p : Peer) (k v : CStr) (h : getPeerLine env s p k v = .go s') : RetStep env s s' k v := by
  unfold getPeerLine at h
  repeat' split at h
  all_goals first
    | (rename_i hk; right; obtain ⟨n, h1, h2⟩ := orBreak_go _ _ _ h; simp only [GetStep.go.injEq] at h2
       exact ⟨by rw [hk]; decide, by rw [← h2]⟩)
    | (rename_i hk; right; exact ⟨by rw [hk]; decide, getEndpoint_go _ _ _ _ _ h⟩)
    | exact getOther_go _ _ _ _ _ h

theorem getStep_go (env : Env) (pubOf : Key → Key) (s s' : GetSt) (k v : CStr) (h : getStep env pubOf s k v = .go s') : RetStep env s s' k v := by
  unfold getStep at h
  split at h
  · rename_i hk; right; obtain ⟨n, h1, h2⟩ := orBreak_go _ _ _ h; simp only [GetStep.go.injEq] at h2
    exact ⟨by rw [hk]; decide, by rw [← h2]⟩
  · split at h
    · exact getDevLine_go _ _ _ _ _ _ h
    · exact getPeerLine_go _ _ _ _ _ _ h

theorem isInt_of_decimal {v : CStr} {n : Nat} (h : IsDecimal v n) : IsIntNumeral v n := Or.inl ⟨n, h, rfl⟩

theorem getLoop_zero (env : Env) (pubOf : Key → Key) (lines : List CStr) (s : GetSt) (h : (getLoop env pubOf s lines).1 = 0) :
    ∃ kvs, Reply lines kvs ∧ FinalErrno 0 2147483647 (-s.ret) kvs 0 := by
  induction lines generalizing s with
  | nil => simp [getLoop, getEnd, EPROTO] at h
  | cons line rest ih =>
    simp only [getLoop] at h
    split at h
    · rename_i hl
      subst hl
      simp only [getEnd] at h
      exact ⟨[], (reply_blank _ _).2 rfl, [], List.Forall₂.nil, by simp [h]⟩
    · rename_i hl
      split at h
      · simp [getEnd, EPROTO] at h
      · rename_i k v hkv
        have hkv' := (kvLine_some _ _ _).1 hkv
        split at h
        · rename_i r hr
          simp only [getEnd] at h
          rcases getStep_stop _ _ _ _ _ _ hr with h' | ⟨h', -⟩
          · rw [h'] at h; exact absurd h (by decide)
          · rw [h'] at h; exact absurd h (by decide)
        · rename_i s' hs
          obtain ⟨kvs, h1, h2⟩ := ih s' h
          refine ⟨(k, v) :: kvs, (reply_cons _ _ _ hl).2 ⟨k, v, kvs, rfl, hkv', h1⟩, ?_⟩
          rcases getStep_go _ _ _ _ _ _ hs with ⟨rfl, n, h3, h4⟩ | ⟨h3, h4⟩
          · rw [finalErrno_cons_errno]
            obtain ⟨m, h5, h6, h7⟩ := (num_iff _ _ _ _).1 h3
            rw [h4, Int.neg_neg] at h2
            have hm : (m : Int) = n := by omega
            exact ⟨n, hm ▸ isInt_of_decimal h5, by omega, by omega, h2⟩
          · rw [finalErrno_cons_other _ _ _ _ _ _ _ h3]
            rw [h4] at h2; exact h2

theorem getLoop_cases (env : Env) (pubOf : Key → Key) (lines : List CStr) (s : GetSt) :
    (∃ d, getLoop env pubOf s lines = (0, some d)) ∨ ∃ r, r ≠ 0 ∧ getLoop env pubOf s lines = (r, none) := by
  have hend : ∀ r s, (∃ d, getEnd r s = (0, some d)) ∨ ∃ r', r' ≠ 0 ∧ getEnd r s = (r', none) := by
    intro r s
    by_cases hr : r = 0
    · left; exact ⟨_, by simp [getEnd, hr]; rfl⟩
    · right; exact ⟨r, hr, by simp [getEnd, hr]⟩
  induction lines generalizing s with
  | nil => exact hend _ _
  | cons line rest ih =>
    simp only [getLoop]
    repeat' split
    all_goals first | exact hend _ _ | exact ih _

theorem getLoop_kv (env : Env) (pubOf : Key → Key) (s s' : GetSt) (line k v : CStr) (rest : List CStr) (h : IsKV line k v)
    (hs : getStep env pubOf s k v = .go s') : getLoop env pubOf s (line :: rest) = getLoop env pubOf s' rest := by
  have hl : line ≠ [10] := by rw [h.2]; exact kv_ne_nl k v
  simp only [getLoop, if_neg hl, (kvLine_some _ _ _).2 h, hs]

/-- The result is positive only when an endpoint does not resolve. -/
theorem getLoop_ret (env : Env) (pubOf : Key → Key) (lines : List CStr) (s : GetSt) (hs : s.ret ≤ 0)
    (h : 0 < (getLoop env pubOf s lines).1) : (getLoop env pubOf s lines).1 = ENETUNREACH ∧
      ∃ line ∈ lines, ∃ v host port tick, IsKV line b!"endpoint" v ∧ splitEndpoint v = some (host, port) ∧ ∀ e, env.gai tick host port ≠ .found e := by
  induction lines generalizing s with
  | nil => simp [getLoop, getEnd, EPROTO] at h
  | cons line rest ih =>
    by_cases hl : line = [10]
    · simp only [getLoop, if_pos hl, getEnd] at h; omega
    · cases hkv : kvLine line with
      | none => simp [getLoop, if_neg hl, hkv, getEnd, EPROTO] at h
      | some kv =>
        obtain ⟨k, v⟩ := kv
        have hkv' := (kvLine_some _ _ _).1 hkv
        cases hst : getStep env pubOf s k v with
        | stop r =>
          have he : (getLoop env pubOf s (line :: rest)).1 = r := by simp [getLoop, if_neg hl, hkv, hst, getEnd]
          rw [he] at h ⊢
          rcases getStep_stop _ _ _ _ _ _ hst with h' | ⟨h', hk, host, port, h1, h2⟩
          · rw [h'] at h; exact absurd h (by decide)
          · subst hk
            exact ⟨h', line, by simp, v, host, port, s.tick, hkv', h1, h2⟩
        | go s' =>
          rw [getLoop_kv _ _ _ _ _ _ _ _ hkv' hst] at h ⊢
          have hs2 : s'.ret ≤ 0 := by
            rcases getStep_go _ _ _ _ _ _ hst with ⟨-, n, -, h4⟩ | ⟨-, h4⟩ <;> omega
          obtain ⟨h1, l, hl', h2⟩ := ih s' hs2 h
          exact ⟨h1, l, by simp [hl'], h2⟩

/-! ### reading a report -/

theorem lastOr_append {α : Type} (d a : α) (l : List α) : lastOr d (l ++ [a]) = a := by simp [lastOr]

theorem field_isKV {line name v : CStr} (h : IsField line name v) (hn : c!"=" ∉ name) : IsKV line name v := ⟨hn, h⟩

/-- The device known after the facts `fs`. -/
def devSoFar (pubOf : Key → Key) (name : CStr) (fs : List DevFact) : Device := deviceReported pubOf name fs []

theorem getLoop_dev (env : Env) (pubOf : Key → Key) (name : CStr) (fs gs : List DevFact) (lines rest : List CStr)
    (h : List.Forall₂ DevSays lines gs) (tick : Nat) :
    getLoop env pubOf { dev := devSoFar pubOf name fs, tick := tick } (lines ++ rest) =
      getLoop env pubOf { dev := devSoFar pubOf name (fs ++ gs), tick := tick } rest := by
  induction h generalizing fs with
  | nil => simp
  | @cons line g lines gs hl _ ih =>
    have hstep : getLoop env pubOf { dev := devSoFar pubOf name fs, tick := tick } ((line :: lines) ++ rest) =
        getLoop env pubOf { dev := devSoFar pubOf name (fs ++ [g]), tick := tick } (lines ++ rest) := by
      cases hl with
      | privateKey hf hv =>
        apply getLoop_kv _ _ _ _ _ _ _ _ (field_isKV hf (by decide))
        simp only [getStep, getDevLine]
        rw [if_neg (by decide), if_pos trivial, (keyFromHex_some _ _).2 hv]
        simp [orBreak, devSoFar, deviceReported, lastOr_append, DevFact.priv?, DevFact.port?, DevFact.mark?]
      | @listenPort v p hf hv =>
        apply getLoop_kv _ _ _ _ _ _ _ _ (field_isKV hf (by decide))
        simp only [getStep, getDevLine]
        rw [if_neg (by decide), if_neg (by decide), if_pos trivial, num_of_decimal _ _ _ _ hv (by decide) (by have := p.toNat_lt; omega)]
        simp [orBreak, devSoFar, deviceReported, lastOr_append, DevFact.priv?, DevFact.port?, DevFact.mark?]
      | @fwmark v m hf hv =>
        apply getLoop_kv _ _ _ _ _ _ _ _ (field_isKV hf (by decide))
        simp only [getStep, getDevLine]
        rw [if_neg (by decide), if_neg (by decide), if_neg (by decide), if_pos trivial,
          num_of_decimal _ _ _ _ hv (by decide) (by have := m.toNat_lt; omega)]
        simp [orBreak, devSoFar, deviceReported, lastOr_append, DevFact.priv?, DevFact.port?, DevFact.mark?]
    rw [hstep, ih]
    simp

/-- The environment resolves numeric host and port texts to this endpoint, at any time. -/
def gaiSays (env : Env) (h p : CStr) (e : Endpoint) : Prop := ∀ n, env.gai n h p = .found e

theorem getPeer_field (env : Env) (pubOf : Key → Key) (s s' : GetSt) (p : Peer) (line k v : CStr) (rest : List CStr) (hs : s.cur = some p)
    (h : IsKV line k v) (hk : k ≠ b!"public_key") (hp : getPeerLine env s p k v = .go s') :
    getLoop env pubOf s (line :: rest) = getLoop env pubOf s' rest := by
  apply getLoop_kv _ _ _ _ _ _ _ _ h
  simp only [getStep, if_neg hk, hs, hp]

theorem getAllowedIP_of (env : Env) (hM : 128 < env.ulongMax) (ip m : CStr) (a : AllowedIP) (h1 : c!"/" ∉ ip)
    (h2 : IsAddr env.pton4 env.pton6 ip a.addr) (h3 : IsDecimal m a.cidr.toNat) (h4 : a.cidr.toNat ≤ addrBits a.addr) :
    getAllowedIP env (ip ++ c!"/" :: m) = some a := by
  obtain ⟨ad, c⟩ := a
  simp only at h2 h3 h4
  have hbits := addrBits_le ad
  obtain ⟨hne, hall, hv⟩ := h3
  obtain ⟨d, t, rfl⟩ := List.exists_cons_of_ne_nil hne
  have hd := hall d (by simp)
  simp only [getAllowedIP, strsepOne_some _ _ _ h1, charIsDigit_spec, List.getD_cons_zero, hd, (parseIp_iff env ip ad).2 h2,
    strtoul10_all _ _ hne hall, ← hv]
  have hsat : (if c.toNat > env.ulongMax then env.ulongMax else c.toNat) = c.toNat := if_neg (by omega)
  have hc : UInt8.ofNat c.toNat = c := by simp
  simp only [hsat, hc]
  cases ad with
  | v4 x =>
    simp only [addrBits] at h4
    have : ¬ c > 32 := by rw [gt_iff_lt, UInt8.lt_iff_toNat_lt]; simpa using h4
    simp [this]
  | v6 x =>
    simp only [addrBits] at h4
    have : ¬ c > 128 := by rw [gt_iff_lt, UInt8.lt_iff_toNat_lt]; simpa using h4
    simp [this]

theorem getLoop_facts (env : Env) (hM : 128 < env.ulongMax) (pubOf : Key → Key) (dev : Device) (k : Key) (fs gs : List PeerFact)
    (lines rest : List CStr) (h : List.Forall₂ (PeerSays env.pton4 env.pton6 (gaiSays env)) lines gs) (tick : Nat) :
    ∃ tick', getLoop env pubOf { dev := dev, cur := some (peerReported (k, fs)), tick := tick } (lines ++ rest) =
      getLoop env pubOf { dev := dev, cur := some (peerReported (k, fs ++ gs)), tick := tick' } rest := by
  induction h generalizing fs tick with
  | nil => exact ⟨tick, by simp⟩
  | @cons line g lines gs hl _ ih =>
    have hstep : ∃ tick', getLoop env pubOf { dev := dev, cur := some (peerReported (k, fs)), tick := tick } ((line :: lines) ++ rest) =
        getLoop env pubOf { dev := dev, cur := some (peerReported (k, fs ++ [g])), tick := tick' } (lines ++ rest) := by
      cases hl with
      | psk hf hv =>
        refine ⟨tick, ?_⟩
        apply getPeer_field _ _ _ _ _ _ _ _ _ rfl (field_isKV hf (by decide)) (by decide)
        simp only [getPeerLine]
        rw [if_pos trivial, (keyFromHex_some _ _).2 hv]
        rename_i key
        have hz : (!keyIsZero key) = decide (key ≠ zeroKey) := by
          have := keyIsZero_iff key
          by_cases hk : key = zeroKey
          · simp [hk, (keyIsZero_iff zeroKey).2 rfl]
          · have : keyIsZero key = false := by simpa [hk] using this
            simp [this, hk]
        simp [orBreak, peerReported, lastOr_append, PeerFact.psk?, PeerFact.endpoint?, PeerFact.keepalive?, PeerFact.ip?, PeerFact.sec?,
          PeerFact.nsec?, PeerFact.rx?, PeerFact.tx?, hz]
      | @endpoint v hh p e hf he hu hr =>
        refine ⟨tick + 1, ?_⟩
        apply getPeer_field _ _ _ _ _ _ _ _ _ rfl (field_isKV hf (by decide)) (by decide)
        simp only [getPeerLine]
        rw [if_neg (by decide), if_pos trivial]
        simp only [getEndpoint, (splitEndpoint_iff _ _ _).2 he, orBreak, hr tick]
        cases e with
        | unset => exact absurd rfl hu
        | in4 a p => simp [peerReported, lastOr_append, PeerFact.psk?, PeerFact.endpoint?, PeerFact.keepalive?, PeerFact.ip?, PeerFact.sec?,
          PeerFact.nsec?, PeerFact.rx?, PeerFact.tx?]
        | in6 a p f sc => simp [peerReported, lastOr_append, PeerFact.psk?, PeerFact.endpoint?, PeerFact.keepalive?, PeerFact.ip?, PeerFact.sec?,
          PeerFact.nsec?, PeerFact.rx?, PeerFact.tx?]
      | @keepalive v n hf hv =>
        refine ⟨tick, ?_⟩
        apply getPeer_field _ _ _ _ _ _ _ _ _ rfl (field_isKV hf (by decide)) (by decide)
        simp only [getPeerLine]
        rw [if_neg (by decide), if_neg (by decide), if_pos trivial, num_of_decimal _ _ _ _ hv (by decide) (by have := n.toNat_lt; omega)]
        simp [orBreak, peerReported, lastOr_append, PeerFact.psk?, PeerFact.endpoint?, PeerFact.keepalive?, PeerFact.ip?, PeerFact.sec?,
          PeerFact.nsec?, PeerFact.rx?, PeerFact.tx?]
      | @allowedIP ip m a hf h1 h2 h3 h4 =>
        refine ⟨tick, ?_⟩
        apply getPeer_field _ _ _ _ _ _ _ _ _ rfl (field_isKV hf (by decide)) (by decide)
        simp only [getPeerLine]
        rw [if_neg (by decide), if_neg (by decide), if_neg (by decide), if_pos trivial, getAllowedIP_of env hM ip m a h1 h2 h3 h4]
        simp [orBreak, peerReported, PeerFact.psk?, PeerFact.endpoint?, PeerFact.keepalive?, PeerFact.ip?, PeerFact.sec?,
          PeerFact.nsec?, PeerFact.rx?, PeerFact.tx?]
      | @handshakeSec v n hf hv hn =>
        refine ⟨tick, ?_⟩
        apply getPeer_field _ _ _ _ _ _ _ _ _ rfl (field_isKV hf (by decide)) (by decide)
        simp only [getPeerLine]
        rw [if_neg (by decide), if_neg (by decide), if_neg (by decide), if_neg (by decide), if_pos trivial, num_of_decimal _ _ _ _ hv (by decide) (by omega)]
        simp [orBreak, peerReported, lastOr_append, PeerFact.psk?, PeerFact.endpoint?, PeerFact.keepalive?, PeerFact.ip?, PeerFact.sec?,
          PeerFact.nsec?, PeerFact.rx?, PeerFact.tx?]
      | @handshakeNsec v n hf hv hn =>
        refine ⟨tick, ?_⟩
        apply getPeer_field _ _ _ _ _ _ _ _ _ rfl (field_isKV hf (by decide)) (by decide)
        simp only [getPeerLine]
        rw [if_neg (by decide), if_neg (by decide), if_neg (by decide), if_neg (by decide), if_neg (by decide), if_pos trivial, num_of_decimal _ _ _ _ hv (by decide) (by omega)]
        simp [orBreak, peerReported, lastOr_append, PeerFact.psk?, PeerFact.endpoint?, PeerFact.keepalive?, PeerFact.ip?, PeerFact.sec?,
          PeerFact.nsec?, PeerFact.rx?, PeerFact.tx?]
      | @rx v n hf hv hn =>
        refine ⟨tick, ?_⟩
        apply getPeer_field _ _ _ _ _ _ _ _ _ rfl (field_isKV hf (by decide)) (by decide)
        simp only [getPeerLine]
        rw [if_neg (by decide), if_neg (by decide), if_neg (by decide), if_neg (by decide), if_neg (by decide), if_neg (by decide), if_pos trivial, num_of_decimal _ _ _ _ hv (by decide) (by omega)]
        simp [orBreak, peerReported, lastOr_append, PeerFact.psk?, PeerFact.endpoint?, PeerFact.keepalive?, PeerFact.ip?, PeerFact.sec?,
          PeerFact.nsec?, PeerFact.rx?, PeerFact.tx?]
      | @tx v n hf hv hn =>
        refine ⟨tick, ?_⟩
        apply getPeer_field _ _ _ _ _ _ _ _ _ rfl (field_isKV hf (by decide)) (by decide)
        simp only [getPeerLine]
        rw [if_neg (by decide), if_neg (by decide), if_neg (by decide), if_neg (by decide), if_neg (by decide), if_neg (by decide), if_neg (by decide), if_pos trivial, num_of_decimal _ _ _ _ hv (by decide) (by omega)]
        simp [orBreak, peerReported, lastOr_append, PeerFact.psk?, PeerFact.endpoint?, PeerFact.keepalive?, PeerFact.ip?, PeerFact.sec?,
          PeerFact.nsec?, PeerFact.rx?, PeerFact.tx?]
    obtain ⟨t1, h1⟩ := hstep
    obtain ⟨t2, h2⟩ := ih (fs ++ [g]) t1
    exact ⟨t2, by rw [h1, h2]; simp⟩

theorem getLoop_peers (env : Env) (hM : 128 < env.ulongMax) (pubOf : Key → Key) (ps : List (Key × List PeerFact)) (blocks : List (List CStr))
    (h : List.Forall₂ (PeerBlock env.pton4 env.pton6 (gaiSays env)) blocks ps) (rest : List CStr) (s : GetSt) (hs : s.ret = -EPROTO) :
    ∃ s', getLoop env pubOf s (blocks.flatten ++ rest) = getLoop env pubOf s' rest ∧
      { s'.dev with peers := s'.dev.peers ++ s'.cur.toList } =
        ({ s.dev with peers := s.dev.peers ++ s.cur.toList ++ ps.map peerReported } : Device) := by
  induction h generalizing s with
  | nil => exact ⟨s, by simp, by simp⟩
  | @cons b p blocks ps hb _ ih =>
    obtain ⟨hd, v, body, rfl, hf, hv, hbody⟩ := hb
    have h1 : getLoop env pubOf s (((hd :: body) :: blocks).flatten ++ rest) =
        getLoop env pubOf { dev := { s.dev with peers := s.dev.peers ++ s.cur.toList }, cur := some (peerReported (p.1, [])), tick := s.tick } (body ++ (blocks.flatten ++ rest)) := by
      simp only [List.flatten_cons, List.cons_append, List.append_assoc]
      apply getLoop_kv _ _ _ _ _ _ _ _ (field_isKV hf (by decide))
      simp only [getStep]
      rw [if_pos trivial, (keyFromHex_some _ _).2 hv]
      simp [orBreak, peerReported, lastOr, hs]
    obtain ⟨t, h2⟩ := getLoop_facts env hM pubOf { s.dev with peers := s.dev.peers ++ s.cur.toList } p.1 [] p.2 body (blocks.flatten ++ rest) hbody s.tick
    obtain ⟨s', h3, h4⟩ := ih { dev := { s.dev with peers := s.dev.peers ++ s.cur.toList }, cur := some (peerReported (p.1, [] ++ p.2)), tick := t } rfl
    refine ⟨s', by rw [h1, h2, h3], ?_⟩
    rw [h4]
    simp

theorem getLoop_report (env : Env) (hM : 128 < env.ulongMax) (pubOf : Key → Key) (name : CStr) (lines : List CStr)
    (dev : List DevFact) (peers : List (Key × List PeerFact)) (h : ReportSays env.pton4 env.pton6 (gaiSays env) lines dev peers) :
    getLoop env pubOf { dev := { name := name } } lines = (0, some (deviceReported pubOf name dev peers)) := by
  obtain ⟨dl, pl, rest, rfl, h1, h2⟩ := h
  have h0 : ({ dev := { name := name } } : GetSt) = { dev := devSoFar pubOf name [], tick := 0 } := by
    simp [devSoFar, deviceReported, lastOr]
  rw [h0, List.append_assoc, getLoop_dev env pubOf name [] dev dl _ h1 0]
  obtain ⟨s', h3, h4⟩ := getLoop_peers env hM pubOf peers pl h2 ((b!"errno=0" ++ [10]) :: [10] :: rest) { dev := devSoFar pubOf name ([] ++ dev), tick := 0 } rfl
  rw [h3]
  have hz : IsDecimal b!"0" 0 := ⟨by simp, by decide, by decide⟩
  have h5 : getLoop env pubOf s' ((b!"errno=0" ++ [10]) :: [10] :: rest) = getLoop env pubOf { s' with ret := 0 } ([10] :: rest) := by
    apply getLoop_kv env pubOf s' { s' with ret := 0 } _ b!"errno" b!"0" _ ⟨by decide, rfl⟩
    have hn : num env.sc b!"0" 0x7fffffff = some 0 := num_of_decimal _ _ _ _ hz (by decide) (by decide)
    have hoth : getOther env s' b!"errno" b!"0" = .go { s' with ret := 0 } := by
      simp only [getOther, if_true, hn, orBreak]; rfl
    simp only [getStep]
    rw [if_neg (by decide)]
    cases hc : s'.cur with
    | none =>
      simp only [getDevLine]
      rw [if_neg (by decide), if_neg (by decide), if_neg (by decide), hoth, hc]
    | some p =>
      simp only [getPeerLine]
      rw [if_neg (by decide), if_neg (by decide), if_neg (by decide), if_neg (by decide), if_neg (by decide), if_neg (by decide), if_neg (by decide), if_neg (by decide)]
      rw [hoth, hc]
  rw [h5]
  simp only [getLoop, if_true, getEnd, ne_eq, not_true_eq_false, if_false]
  rw [h4]
  simp [devSoFar, deviceReported]

/-- The keys `userspace_get_device` knows. -/
def knownKeys : List CStr :=
  [b!"private_key", b!"listen_port", b!"fwmark", b!"public_key", b!"preshared_key", b!"endpoint", b!"persistent_keepalive_interval",
   b!"allowed_ip", b!"last_handshake_time_sec", b!"last_handshake_time_nsec", b!"rx_bytes", b!"tx_bytes", b!"errno"]

theorem getStep_unknown (env : Env) (pubOf : Key → Key) (s : GetSt) (k v : CStr) (h : k ∉ knownKeys) : getStep env pubOf s k v = .go s := by
  simp only [knownKeys, List.mem_cons, List.not_mem_nil, or_false, not_or] at h
  obtain ⟨h1, h2, h3, h4, h5, h6, h7, h8, h9, h10, h11, h12, h13⟩ := h
  have ho : getOther env s k v = .go s := by simp only [getOther, if_neg h13]
  simp only [getStep, if_neg h4]
  cases s.cur with
  | none => simp only [getDevLine, if_neg h1, if_neg h2, if_neg h3, ho]
  | some p => simp only [getPeerLine, if_neg h5, if_neg h6, if_neg h7, if_neg h8, if_neg h9, if_neg h10, if_neg h11, if_neg h12, ho]

theorem getLoop_unknown (env : Env) (pubOf : Key → Key) (pre post : List CStr) (line k v : CStr) (hl : IsKV line k v) (hk : k ∉ knownKeys) (s : GetSt) :
    getLoop env pubOf s (pre ++ line :: post) = getLoop env pubOf s (pre ++ post) := by
  induction pre generalizing s with
  | nil => exact getLoop_kv _ _ _ _ _ _ _ _ hl (getStep_unknown _ _ _ _ _ hk)
  | cons l pre ih =>
    simp only [List.cons_append, getLoop]
    split
    · rfl
    · split
      · rfl
      · split
        · rfl
        · exact ih _

/-! ### prefix lengths -/

theorem getAllowedIP_range (env : Env) (v : CStr) (a : AllowedIP) (h : getAllowedIP env v = some a) : a.cidr.toNat ≤ addrBits a.addr := by
  simp only [getAllowedIP] at h
  split at h
  · cases h
  · split at h
    · cases h
    · split at h
      · cases h
      · split at h
        · cases h
        · rename_i hc
          simp only [Option.some.injEq] at h
          rw [← h]
          simp only [Bool.or_eq_true, decide_eq_true_eq, not_or, UInt8.lt_iff_toNat_lt, gt_iff_lt] at hc
          exact Nat.le_of_not_lt hc.2
      · split at h
        · cases h
        · rename_i hc
          simp only [Option.some.injEq] at h
          rw [← h]
          simp only [Bool.or_eq_true, decide_eq_true_eq, not_or, UInt8.lt_iff_toNat_lt, gt_iff_lt] at hc
          exact Nat.le_of_not_lt hc.2

/-- All prefix lengths of a peer are in range. -/
def CidrOk (p : Peer) : Prop := ∀ a ∈ p.allowedIPs, a.cidr.toNat ≤ addrBits a.addr

def GetSt.CidrOk (s : GetSt) : Prop := ∀ p ∈ s.dev.peers ++ s.cur.toList, WG.CidrOk p

theorem getOther_cidr (env : Env) (s s' : GetSt) (k v : CStr) (hs : s.CidrOk) (h : getOther env s k v = .go s') : s'.CidrOk := by
  unfold getOther at h
  split at h
  · obtain ⟨n, -, h2⟩ := orBreak_go _ _ _ h
    simp only [GetStep.go.injEq] at h2; rw [← h2]; exact hs
  · simp only [GetStep.go.injEq] at h; rw [← h]; exact hs

theorem cidrOk_setCur (s : GetSt) (p q : Peer) (hs : s.CidrOk) (hc : s.cur = some p) (hq : q.allowedIPs = p.allowedIPs ∨ ∃ a, q.allowedIPs = p.allowedIPs ++ [a] ∧ a.cidr.toNat ≤ addrBits a.addr)
    (ret : Int) (tick : Nat) : ({ s with cur := some q, ret := ret, tick := tick } : GetSt).CidrOk := by
  intro x hx
  simp only [GetSt.CidrOk, hc, Option.toList_some, List.mem_append, List.mem_singleton] at hs hx
  rcases hx with hx | rfl
  · exact hs x (Or.inl hx)
  · intro a ha
    rcases hq with hq | ⟨b, hq, hb⟩
    · rw [hq] at ha; exact hs p (Or.inr rfl) a ha
    · rw [hq, List.mem_append, List.mem_singleton] at ha
      rcases ha with ha | rfl
      · exact hs p (Or.inr rfl) a ha
      · exact hb

theorem getStep_cidr (env : Env) (pubOf : Key → Key) (s s' : GetSt) (k v : CStr) (hs : s.CidrOk) (h : getStep env pubOf s k v = .go s') : s'.CidrOk := by
  unfold getStep at h
  split at h
  · obtain ⟨n, -, h2⟩ := orBreak_go _ _ _ h
    simp only [GetStep.go.injEq] at h2; rw [← h2]
    intro p hp
    simp only [Option.toList_some, List.mem_append, List.mem_singleton] at hp
    rcases hp with hp | rfl
    · exact hs p (by simpa using hp)
    · simp [CidrOk]
  · split at h
    · rename_i hc
      unfold getDevLine at h
      repeat' split at h
      all_goals first
        | exact getOther_cidr _ _ _ _ _ hs h
        | (obtain ⟨n, -, h2⟩ := orBreak_go _ _ _ h
           simp only [GetStep.go.injEq] at h2; rw [← h2]; exact hs)
    · rename_i p hc
      unfold getPeerLine at h
      repeat' split at h
      all_goals first
        | exact getOther_cidr _ _ _ _ _ hs h
        | (obtain ⟨n, -, h2⟩ := orBreak_go _ _ _ h
           simp only [GetStep.go.injEq] at h2; rw [← h2]; refine cidrOk_setCur s p _ hs hc ?_ _ _; exact Or.inl rfl)
        | (obtain ⟨n, h1, h2⟩ := orBreak_go _ _ _ h
           simp only [GetStep.go.injEq] at h2; rw [← h2]; refine cidrOk_setCur s p _ hs hc ?_ _ _; exact Or.inr ⟨n, rfl, getAllowedIP_range _ _ _ h1⟩)
        | (simp only [getEndpoint] at h
           obtain ⟨⟨host, port⟩, -, h⟩ := orBreak_go _ _ _ h
           simp only at h
           split at h
           · cases h
           · simp only [GetStep.go.injEq] at h; rw [← h]; refine cidrOk_setCur s p _ hs hc ?_ _ _; exact Or.inl rfl
           · cases h)

theorem getLoop_cidr (env : Env) (pubOf : Key → Key) (lines : List CStr) (s : GetSt) (hs : s.CidrOk) (r : Int) (d : Device)
    (h : getLoop env pubOf s lines = (r, some d)) : ∀ p ∈ d.peers, CidrOk p := by
  have hend : ∀ r' s, GetSt.CidrOk s → getEnd r' s = (r, some d) → ∀ p ∈ d.peers, CidrOk p := by
    intro r' s hs h
    simp only [getEnd, Prod.mk.injEq] at h
    obtain ⟨-, h⟩ := h
    split at h
    · cases h
    · simp only [Option.some.injEq] at h; rw [← h]; exact hs
  induction lines generalizing s with
  | nil => exact hend _ s hs h
  | cons line rest ih =>
    simp only [getLoop] at h
    split at h
    · exact hend _ s hs h
    · split at h
      · exact hend _ s hs h
      · split at h
        · exact hend _ s hs h
        · rename_i s' hs'
          exact ih s' (getStep_cidr _ _ _ _ _ _ hs hs') h

end WG
