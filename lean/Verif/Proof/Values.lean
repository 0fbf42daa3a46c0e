import Verif.Model.Config
import Verif.Spec.Values
import Verif.Proof.Encoding
/-! Lemmas about strtoul and the number parsers. -/
namespace WG
open Spec

theorem tolowerC_eq (c : UInt8) : tolowerC c = lower c := rfl

theorem strcaseeq_iff (a b : CStr) : strcaseeq a b = true ↔ a.map lower = b.map lower := by
  simp only [strcaseeq, beq_iff_eq]; exact Iff.rfl

theorem isspaceLibc_eq : ∀ c : UInt8, isspaceLibc c = isSpace c := by
  apply forall_u8; decide +kernel

theorem isDigitOf10 : ∀ c : UInt8, isDigitOf 10 c = isDigit c := by
  apply forall_u8; decide +kernel
theorem isDigitOf16 : ∀ c : UInt8, isDigitOf 16 c = isHexDigit c := by
  apply forall_u8; decide +kernel
theorem digitVal10 : ∀ c : UInt8, isDigit c = true → (digitVal c).getD 0 = c.toNat - 48 := by
  apply forall_u8; decide +kernel
theorem digitVal16 : ∀ c : UInt8, isHexDigit c = true → (digitVal c).getD 0 = hexDigitVal c := by
  apply forall_u8; decide +kernel
theorem digit_not_space : ∀ c : UInt8, isDigit c = true → isspaceLibc c = false := by
  apply forall_u8; decide +kernel
theorem digit_not_sign (c : UInt8) (h : isDigit c = true) : c ≠ 45 ∧ c ≠ 43 := by
  constructor <;> (rintro rfl; exact absurd h (by decide))

theorem foldl_congr_mem {α β : Type} (f g : β → α → β) (l : List α) (b : β)
    (h : ∀ b, ∀ a ∈ l, f b a = g b a) : l.foldl f b = l.foldl g b := by
  induction l generalizing b with
  | nil => rfl
  | cons a l ih =>
    simp only [List.foldl_cons]
    rw [h b a (by simp), ih _ (fun b a ha => h b a (by simp [ha]))]

theorem digitsVal10 (l : List UInt8) (h : ∀ c ∈ l, isDigit c = true) : digitsVal 10 l = decVal l := by
  apply foldl_congr_mem; intro b a ha; rw [digitVal10 a (h a ha), Nat.mul_comm]

theorem digitsVal16 (l : List UInt8) (h : ∀ c ∈ l, isHexDigit c = true) : digitsVal 16 l = hexNumVal l := by
  apply foldl_congr_mem; intro b a ha; rw [digitVal16 a (h a ha), Nat.mul_comm]

theorem dropWhile_nil_iff {α : Type} (p : α → Bool) (l : List α) : l.dropWhile p = [] ↔ ∀ a ∈ l, p a = true := by
  induction l with
  | nil => simp
  | cons a l ih => 
    by_cases h : p a <;> simp [h, ih]

theorem takeWhile_all {α : Type} (p : α → Bool) (l : List α) (h : ∀ a ∈ l, p a = true) : l.takeWhile p = l := by
  induction l with
  | nil => rfl
  | cons a l ih => simp [h a (by simp), ih (fun a ha => h a (by simp [ha]))]

/-- strtoul in base 10 on a text starting with a digit. -/
theorem strtoul10 (M : Nat) (d : UInt8) (t : CStr) (hd : isDigit d = true) :
    strtoul M 10 (d :: t) =
      (let v := digitsVal 10 ((d :: t).takeWhile (isDigitOf 10)); if v > M then M else v,
       (d :: t).dropWhile (isDigitOf 10)) := by
  have h1 : (d :: t).dropWhile isspaceLibc = d :: t := by simp [digit_not_space d hd]
  obtain ⟨n1, n2⟩ := digit_not_sign d hd
  have h2 : strtoulSign (d :: t) = (false, d :: t) := by
    unfold strtoulSign; split <;> simp_all
  have h3 : strtoulPrefix 10 (d :: t) = d :: t := by
    unfold strtoulPrefix; split <;> simp
  have h4 : (d :: t).takeWhile (isDigitOf 10) ≠ [] := by simp [isDigitOf10, hd]
  simp only [strtoul, h1, h2, h3, if_neg h4]
  simp

theorem strtoul10_all (M : Nat) (s : CStr) (hs : s ≠ []) (h : ∀ c ∈ s, isDigit c = true) :
    strtoul M 10 s = (if decVal s > M then M else decVal s, []) := by
  obtain ⟨d, t, rfl⟩ := List.exists_cons_of_ne_nil hs
  rw [strtoul10 M d t (h d (by simp))]
  have : (d :: t).takeWhile (isDigitOf 10) = d :: t := takeWhile_all _ _ (by intro a ha; rw [isDigitOf10]; exact h a ha)
  have h2 : (d :: t).dropWhile (isDigitOf 10) = [] := (dropWhile_nil_iff _ _).2 (by intro a ha; rw [isDigitOf10]; exact h a ha)
  rw [this, h2, digitsVal10 _ h]

/-- Base 10, text starting with a digit: everything consumed iff only digits. -/
theorem strtoul10_rest (M : Nat) (s : CStr) (hd : isDigit (s.getD 0 0) = true) :
    (strtoul M 10 s).2 = [] ↔ ∀ c ∈ s, isDigit c = true := by
  match s with
  | [] => exact absurd hd (by decide)
  | d :: t =>
    rw [strtoul10 M d t hd]
    simp only [dropWhile_nil_iff, isDigitOf10]

theorem strtoul16 (M : Nat) (d : UInt8) (t : CStr) :
    strtoul M 16 (48 :: 120 :: d :: t) =
      if isHexDigit d then
        (let v := digitsVal 16 ((d :: t).takeWhile (isDigitOf 16)); if v > M then M else v,
          (d :: t).dropWhile (isDigitOf 16))
      else (0, 120 :: d :: t) := by
  have h1 : (48 :: 120 :: d :: t : CStr).dropWhile isspaceLibc = 48 :: 120 :: d :: t := by
    rw [List.dropWhile_cons_of_neg]; decide
  have h2 : strtoulSign (48 :: 120 :: d :: t) = (false, 48 :: 120 :: d :: t) := by
    unfold strtoulSign; split <;> simp_all
  by_cases hd : isHexDigit d
  · have h3 : strtoulPrefix 16 (48 :: 120 :: d :: t) = d :: t := by
      simp [strtoulPrefix, isDigitOf16, hd]
    have h4 : (d :: t).takeWhile (isDigitOf 16) ≠ [] := by simp [isDigitOf16, hd]
    simp only [strtoul, h1, h2, h3, if_neg h4, hd]
    simp
  · have h3 : strtoulPrefix 16 (48 :: 120 :: d :: t) = 48 :: 120 :: d :: t := by
      simp [strtoulPrefix, isDigitOf16, hd]
    have e1 : isDigitOf 16 48 = true := by decide
    have e2 : isDigitOf 16 120 = false := by decide
    simp only [strtoul, h1, h2, h3, List.takeWhile_cons, List.dropWhile_cons, e1, e2, hd]
    simp
    simp [digitsVal, digitVal]

theorem off_not_digit (s : CStr) (h : s.map lower = b!"off") : isDigit (s.getD 0 0) = false := by
  match s with
  | [] => simp at h
  | c :: t =>
    simp only [List.map_cons, List.cons.injEq] at h
    have : ∀ c : UInt8, lower c = 111 → isDigit c = false := by apply forall_u8; decide +kernel
    exact this c h.1

theorem off_eq : (b!"off").map lower = b!"off" := by decide

/-- The final range check after a saturating conversion. -/
theorem sat_check {α : Type} (V M L : Nat) (hM : L < M) (f : Nat → α) (m : α) :
    (if (decide (([] : CStr) ≠ []) || decide ((if V > M then M else V) > L)) = true then none
      else some (f (if V > M then M else V))) = some m ↔ V ≤ L ∧ f V = m := by
  by_cases h : V ≤ L
  · have h1 : ¬ V > M := by omega
    rw [if_neg h1]
    have h2 : ¬ V > L := by omega
    simp [h]
  · by_cases h1 : V > M
    · simp [h, h1, hM]
    · have : V > L := by omega
      simp [h1, h]

/-- fwmark parser, `unsigned long` wider than 32 bits. -/
theorem parseFwmark_iff (env : Env) (hM : 0xffffffff < env.ulongMax) (s : CStr) (m : UInt32) :
    parseFwmark env s = some m ↔ IsFwmark s m.toNat := by
  simp only [parseFwmark, strcaseeq_iff, off_eq, IsFwmark, EqNoCase, charIsDigit_spec]
  have hm := m.toNat_lt
  by_cases hoff : s.map lower = b!"off"
  · have hnd := off_not_digit s hoff
    simp only [hoff, if_true, Option.some.injEq, true_and]
    constructor
    · rintro rfl; left; rfl
    · rintro (h | ⟨_, (⟨hne, hall, _⟩ | ⟨h, rfl, _⟩)⟩)
      · exact (UInt32.toNat_inj.1 h).symm
      · obtain ⟨d, t, rfl⟩ := List.exists_cons_of_ne_nil hne
        have := hall d (by simp)
        simp at hnd; rw [hnd] at this; cases this
      · exact absurd hnd (by simp; decide)
  simp only [hoff, if_false, false_and, false_or]
  by_cases hd : isDigit (s.getD 0 0) = true
  rotate_left
  · simp only [Bool.not_eq_true] at hd
    simp only [hd, Bool.not_false, if_true, reduceCtorEq, false_iff]
    rintro ⟨_, (⟨hne, hall, _⟩ | ⟨h, rfl, _⟩)⟩
    · obtain ⟨d, t, rfl⟩ := List.exists_cons_of_ne_nil hne
      have := hall d (by simp)
      simp at hd; rw [hd] at this; cases this
    · exact absurd hd (by simp; decide)
  simp only [hd, Bool.not_true, Bool.false_eq_true, if_false]
  by_cases hx : (s.length > 2 && s.getD 0 0 = c!"0" && s.getD 1 0 = c!"x") = true
  · simp only [hx, if_true]
    match s with
    | [] | [_] | [_, _] => simp at hx
    | a :: b :: d :: t =>
      simp at hx
      obtain ⟨rfl, rfl⟩ := hx
      rw [strtoul16]
      have hndec : ¬ ∃ n, IsDecimal (48 :: 120 :: d :: t) n := by
        rintro ⟨n, _, h, _⟩
        exact absurd (h 120 (by simp)) (by decide)
      by_cases hh : isHexDigit d
      · simp only [hh, if_true]
        by_cases hall : ∀ c ∈ d :: t, isHexDigit c = true
        · have h1 : (d :: t).takeWhile (isDigitOf 16) = d :: t := takeWhile_all _ _ (by intro a ha; rw [isDigitOf16]; exact hall a ha)
          have h2 : (d :: t).dropWhile (isDigitOf 16) = [] := (dropWhile_nil_iff _ _).2 (by intro a ha; rw [isDigitOf16]; exact hall a ha)
          simp only [h1, h2, digitsVal16 _ hall]
          rw [sat_check _ _ _ hM]
          constructor
          · rintro ⟨hle, rfl⟩
            rw [UInt32.toNat_ofNat', Nat.mod_eq_of_lt (by omega)]
            exact ⟨by omega, .inr ⟨d :: t, rfl, by simp, hall, rfl⟩⟩
          · rintro ⟨hlt, (h | ⟨h, he, -, -, hv⟩)⟩
            · exact absurd ⟨_, h⟩ hndec
            · simp at he; subst he
              rw [← hv]
              exact ⟨by omega, by simp⟩
        · have h2 : (d :: t).dropWhile (isDigitOf 16) ≠ [] := by
            rw [Ne, dropWhile_nil_iff]; simpa only [isDigitOf16] using hall
          simp only [h2, ne_eq, not_false_eq_true, decide_true, Bool.true_or, if_true, reduceCtorEq, false_iff]
          rintro ⟨hlt, (h | ⟨h, he, -, hh', hv⟩)⟩
          · exact hndec ⟨_, h⟩
          · simp at he; subst he; exact hall hh'
      · simp only [hh]
        simp
        intro hlt
        exact ⟨fun h => hndec ⟨_, h⟩, fun h => hh (h.2.1 d (by simp))⟩
  · simp only [hx, Bool.false_eq_true, if_false]
    have hnohex : ¬ ∃ h, s = b!"0x" ++ h ∧ IsHexNum h m.toNat := by
      rintro ⟨h, rfl, hne, _⟩
      apply hx
      match h with
      | [] => exact absurd rfl hne
      | _ :: _ => simp
    simp only [hnohex, or_false]
    have hne : s ≠ [] := by rintro rfl; exact absurd hd (by decide)
    by_cases hall : ∀ c ∈ s, isDigit c = true
    · rw [strtoul10_all _ _ hne hall]
      rw [sat_check _ _ _ hM]
      constructor
      · rintro ⟨hle, rfl⟩
        rw [UInt32.toNat_ofNat', Nat.mod_eq_of_lt (by omega)]
        exact ⟨by omega, hne, hall, rfl⟩
      · rintro ⟨hlt, -, -, hv⟩
        rw [← hv]
        exact ⟨by omega, by simp⟩
    · have h2 : (strtoul env.ulongMax 10 s).2 ≠ [] := by rw [Ne, strtoul10_rest _ _ hd]; exact hall
      simp only [h2, ne_eq, not_false_eq_true, decide_true, Bool.true_or, if_true, reduceCtorEq, false_iff]
      rintro ⟨_, _, h, _⟩; exact hall h

theorem parseKeepalive_iff (env : Env) (hM : 65535 < env.ulongMax) (s : CStr) (m : UInt16) :
    parseKeepalive env s = some m ↔ IsKeepalive s m.toNat := by
  simp only [parseKeepalive, strcaseeq_iff, off_eq, IsKeepalive, EqNoCase, charIsDigit_spec]
  have hm := m.toNat_lt
  by_cases hoff : s.map lower = b!"off"
  · have hnd := off_not_digit s hoff
    simp only [hoff, if_true, Option.some.injEq, true_and]
    constructor
    · rintro rfl; left; rfl
    · rintro (h | ⟨⟨hne, hall, _⟩, _⟩)
      · exact (UInt16.toNat_inj.1 h).symm
      · obtain ⟨d, t, rfl⟩ := List.exists_cons_of_ne_nil hne
        have := hall d (by simp)
        simp at hnd; rw [hnd] at this; cases this
  simp only [hoff, if_false, false_and, false_or]
  by_cases hd : isDigit (s.getD 0 0) = true
  rotate_left
  · simp only [Bool.not_eq_true] at hd
    simp only [hd, Bool.not_false, if_true, reduceCtorEq, false_iff]
    rintro ⟨⟨hne, hall, _⟩, _⟩
    obtain ⟨d, t, rfl⟩ := List.exists_cons_of_ne_nil hne
    have := hall d (by simp)
    simp at hd; rw [hd] at this; cases this
  simp only [hd, Bool.not_true, Bool.false_eq_true, if_false]
  have hne : s ≠ [] := by rintro rfl; exact absurd hd (by decide)
  by_cases hall : ∀ c ∈ s, isDigit c = true
  · rw [strtoul10_all _ _ hne hall]
    rw [sat_check _ _ _ hM]
    constructor
    · rintro ⟨hle, rfl⟩
      rw [UInt16.toNat_ofNat', Nat.mod_eq_of_lt (by omega)]
      exact ⟨⟨hne, hall, rfl⟩, hle⟩
    · rintro ⟨⟨-, -, hv⟩, hle⟩
      rw [← hv]
      exact ⟨by omega, by simp⟩
  · have h2 : (strtoul env.ulongMax 10 s).2 ≠ [] := by rw [Ne, strtoul10_rest _ _ hd]; exact hall
    simp only [h2, ne_eq, not_false_eq_true, decide_true, Bool.true_or, if_true, reduceCtorEq, false_iff]
    rintro ⟨⟨_, h, _⟩, _⟩; exact hall h
end WG
