import Verif.Model.WgJson
import Verif.Spec.Json
import Verif.Proof.Dump
/-! Proofs about contrib/json/wg-json (C91). -/
namespace WG.WgJson
open WG WG.Spec

/-! ### Reading -/

/-- No blank, tab or line feed, and not empty. -/
def Word (s : CStr) : Prop := s ≠ [] ∧ ∀ c ∈ s, isIfs c = false

theorem takeWhile_stop {p : UInt8 → Bool} (a : List UInt8) (x : UInt8) (b : List UInt8) (ha : ∀ c ∈ a, p c = true) (hx : p x = false) :
    (a ++ x :: b).takeWhile p = a ∧ (a ++ x :: b).dropWhile p = x :: b := by
  induction a with
  | nil => simp [hx]
  | cons c a ih =>
    have hc := ha c (by simp)
    have := ih fun c h => ha c (by simp [h])
    simp only [List.cons_append, List.takeWhile, List.dropWhile, hc]
    exact ⟨by rw [this.1], this.2⟩

theorem takeWhile_all {p : UInt8 → Bool} (a : List UInt8) (ha : ∀ c ∈ a, p c = true) : a.takeWhile p = a ∧ a.dropWhile p = [] := by
  induction a with
  | nil => simp
  | cons c a ih =>
    have hc := ha c (by simp)
    have := ih fun c h => ha c (by simp [h])
    simp only [List.takeWhile, List.dropWhile, hc]
    exact ⟨by rw [this.1], this.2⟩

theorem dropIfs_word {w : CStr} (h : Word w) (b : CStr) : (w ++ b).dropWhile isIfs = w ++ b := by
  cases w with
  | nil => exact absurd rfl h.1
  | cons c w => simp [h.2 c (by simp)]

theorem trimEnd_word {w : CStr} (h : Word w) : trimEnd w = w := by
  have : w.reverse.dropWhile isIfs = w.reverse := by
    have := dropIfs_word (w := w.reverse) ⟨by simpa using h.1, fun c hc => h.2 c (by simpa using hc)⟩ []
    simpa using this
  rw [trimEnd, this, List.reverse_reverse]

theorem readTab_word {w : CStr} (h : Word w) (rest : List UInt8) : readTab (w ++ 9 :: rest) = some (w, rest) := by
  have h9 : ∀ c ∈ w, (decide (c ≠ 9)) = true := by
    intro c hc
    have := h.2 c hc
    simp only [decide_eq_true_eq]
    rintro rfl
    revert this; decide
  have := takeWhile_stop (p := fun c => decide (c ≠ 9)) w 9 rest h9 (by decide)
  have hd := dropIfs_word h []
  rw [List.append_nil] at hd
  simp only [readTab, this.1, this.2, hd, trimEnd_word h]

theorem fields_skip (n : Nat) (c : UInt8) (hc : isIfs c = true) (s : CStr) : fields n (c :: s) = fields n s := by
  cases n with
  | zero => rfl
  | succ n => cases n <;> simp [fields, List.dropWhile, hc]

theorem fields_words (cols : List CStr) (h : ∀ c ∈ cols, Word c) : fields cols.length (joinWith [9] cols) = cols := by
  induction cols with
  | nil => rfl
  | cons a l ih =>
    have ha := h a (by simp)
    have ih := ih fun c hc => h c (by simp [hc])
    cases l with
    | nil =>
      have hd := dropIfs_word ha []
      rw [List.append_nil] at hd
      simp only [List.length_cons, List.length_nil, joinWith, fields, hd, trimEnd_word ha]
    | cons b l =>
      have e : joinWith [9] (a :: b :: l) = a ++ 9 :: joinWith [9] (b :: l) := by simp [joinWith]
      have := takeWhile_stop (p := fun c => !isIfs c) a 9 (joinWith [9] (b :: l)) (fun c hc => by simp [ha.2 c hc]) (by decide)
      simp only [List.length_cons] at ih ⊢
      rw [e, fields]
      simp only [dropIfs_word ha, this.1, this.2]
      rw [fields_skip _ 9 (by decide), ih]

theorem readVars_words (cols : List CStr) (h : ∀ c ∈ cols, Word c) (rest : List UInt8) :
    readVars cols.length (joinWith [9] cols ++ 10 :: rest) = (cols, rest) := by
  have h10 : ∀ c ∈ joinWith [9] cols, decide (c ≠ 10) = true := by
    intro c hc
    simp only [decide_eq_true_eq]
    rintro rfl
    rcases mem_joinWith _ _ _ hc with h1 | ⟨x, hx, h2⟩
    · revert h1; decide
    · have := (h x hx).2 _ h2; revert this; decide
  have := takeWhile_stop (p := fun c => decide (c ≠ 10)) _ 10 rest h10 (by decide)
  simp only [readVars, this.1, this.2, fields_words cols h, List.drop_one, List.tail_cons]

/-! ### Numbers -/

theorem valueOf_dec (s : CStr) (v : Nat) (h : ∀ c ∈ s, isDigit c = true) :
    valueOf 10 decDigit v s = some (s.foldl (fun n c => 10 * n + (c.toNat - 48)) v) := by
  induction s generalizing v with
  | nil => rfl
  | cons c s ih =>
    have hc : decDigit c = some (c.toNat - 48) := by
      have := h c (by simp)
      simp only [isDigit, decide_eq_true_eq] at this
      simp [decDigit, this]
    simp only [valueOf, hc, Option.bind_some, List.foldl_cons]
    rw [ih _ fun c hc => h c (by simp [hc]), Nat.mul_comm]

theorem hexDigit_val : ∀ c : UInt8, isHexDigit c = true → hexDigit c = some (hexDigitVal c) := by
  apply forall_u8; decide +kernel

theorem valueOf_hex (s : CStr) (v : Nat) (h : ∀ c ∈ s, isHexDigit c = true) :
    valueOf 16 hexDigit v s = some (s.foldl (fun n c => 16 * n + hexDigitVal c) v) := by
  induction s generalizing v with
  | nil => rfl
  | cons c s ih =>
    simp only [valueOf, hexDigit_val c (h c (by simp)), Option.bind_some, List.foldl_cons]
    rw [ih _ fun c hc => h c (by simp [hc]), Nat.mul_comm]

theorem number_hex (n : Nat) (h : n < 2 ^ 64) : number (b!"0x" ++ hexadecimal n) = some (decimal n) := by
  obtain ⟨h1, h2, h3⟩ := hexadecimal_isHexNum n
  cases hx : hexadecimal n with
  | nil => exact absurd hx h1
  | cons d t =>
    rw [hx] at h2 h3
    show number (c!"0" :: c!"x" :: d :: t) = _
    simp only [number, if_true]
    rw [valueOf_hex _ _ h2]
    rw [hexNumVal] at h3
    rw [← h3, Option.map_some, Nat.mod_eq_of_lt h, showDec_eq]

theorem toDigits_head (n : Nat) (h : 0 < n) : ∀ c t, decimal n = c :: t → c ≠ c!"0" := by
  induction n using Nat.strongRecOn with
  | ind n ih =>
    intro c t e
    simp only [decimal, ascii] at e
    rw [Nat.toDigits_eq_if (by omega)] at e
    split at e
    · rename_i hn
      simp only [List.map_cons, List.map_nil, List.cons.injEq] at e
      obtain ⟨rfl, -⟩ := e
      have : n = 1 ∨ n = 2 ∨ n = 3 ∨ n = 4 ∨ n = 5 ∨ n = 6 ∨ n = 7 ∨ n = 8 ∨ n = 9 := by omega
      rcases this with rfl | rfl | rfl | rfl | rfl | rfl | rfl | rfl | rfl <;> decide
    · rename_i hn
      have := ih (n / 10) (by omega) (by omega)
      simp only [decimal, ascii] at this
      cases hd : Nat.toDigits 10 (n / 10) with
      | nil =>
        have := (decimal_isDecimal (n / 10)).1
        simp [decimal, ascii, hd] at this
      | cons x l =>
        rw [hd] at e this
        simp only [List.cons_append, List.map_cons, List.cons.injEq] at e
        obtain ⟨rfl, -⟩ := e
        exact this _ _ rfl

theorem number_dec (n : Nat) (h0 : 0 < n) (h : n < 2 ^ 64) : number (decimal n) = some (decimal n) := by
  obtain ⟨h1, h2, h3⟩ := decimal_isDecimal n
  have hh := toDigits_head n h0
  cases hx : decimal n with
  | nil => exact absurd hx h1
  | cons c t =>
    simp only [number, if_neg (hh c t hx)]
    rw [← hx, valueOf_dec _ _ h2]
    have e : n = (decimal n).foldl (fun n c => 10 * n + (c.toNat - 48)) 0 := h3
    rw [← e, Option.map_some, Nat.mod_eq_of_lt h, showDec_eq]

/-! ### Printing lists -/

/-- What has been printed and the delimiter, after the items of a list. -/
def listed (out : CStr) (items : List CStr) : CStr × CStr :=
  (out ++ joinWith b!"," (items.map (b!"\n" ++ ·)), if items = [] then b!"\n" else b!",\n")

theorem join_snoc (sep : CStr) (l : List CStr) (x : CStr) : joinWith sep (l ++ [x]) = joinWith sep l ++ (if l = [] then [] else sep) ++ x := by
  induction l with
  | nil => simp [joinWith]
  | cons a l ih => cases l with
    | nil => simp [joinWith]
    | cons b l => simp only [List.cons_append, joinWith, List.append_assoc] at ih ⊢; rw [ih]; simp

theorem emit_listed (skip : Bool) (body out : CStr) (items : List CStr) :
    emit skip body (listed out items) = listed out (items ++ if skip then [] else [body]) := by
  cases skip
  · simp only [emit, listed, Bool.false_eq_true, if_false, List.map_append, List.map_cons, List.map_nil, join_snoc, List.map_eq_nil_iff, Prod.mk.injEq]
    refine ⟨?_, by simp⟩
    by_cases h : items = []
    · subst h; simp
    · simp [h]
  · simp [emit]

theorem emitNum_listed (skip : Bool) (name value out : CStr) (items : List CStr) (v : CStr) (hv : skip = false → number value = some v) :
    emitNum skip name value (listed out items) = some (listed out (items ++ if skip then [] else [name ++ v])) := by
  cases skip
  · have := emit_listed false (name ++ v) out items
    simp only [emit, Bool.false_eq_true, if_false] at this
    simp only [emitNum, Bool.false_eq_true, if_false, hv rfl, Option.map_some]
    rw [← this]; simp only [List.append_assoc]
  · simp [emitNum]

theorem listed_nil (out : CStr) : listed out [] = (out, b!"\n") := by simp [listed, joinWith]

theorem fold_listed (l : List CStr) (f : CStr → CStr) (out : CStr) (items : List CStr) :
    l.foldl (fun acc ip => emit false (f ip) acc) (listed out items) = listed out (items ++ l.map f) := by
  induction l generalizing items with
  | nil => simp
  | cons a l ih => simp only [List.foldl_cons, emit_listed, Bool.false_eq_true, if_false]; rw [ih]; simp

/-! ### Splitting the allowed IPs -/

theorem commaParts_no (a : CStr) (h : c!"," ∉ a) : commaParts a = [a] := by
  induction a with
  | nil => rfl
  | cons c a ih =>
    simp only [List.mem_cons, not_or] at h
    rw [commaParts, if_neg (Ne.symm h.1), ih h.2]

theorem commaParts_sep (a b : CStr) (h : c!"," ∉ a) : commaParts (a ++ c!"," :: b) = a :: commaParts b := by
  induction a with
  | nil => simp [commaParts]
  | cons c a ih =>
    simp only [List.mem_cons, not_or] at h
    rw [List.cons_append, commaParts, if_neg (Ne.symm h.1), ih h.2]

theorem commaParts_join (l : List CStr) (hl : l ≠ []) (h : ∀ a ∈ l, c!"," ∉ a) : commaParts (joinWith b!"," l) = l := by
  induction l with
  | nil => exact absurd rfl hl
  | cons a l ih => cases l with
    | nil => exact commaParts_no a (h a (by simp))
    | cons b l =>
      have e : joinWith b!"," (a :: b :: l) = a ++ c!"," :: joinWith b!"," (b :: l) := by simp [joinWith]
      rw [e, commaParts_sep _ _ (h a (by simp)), ih (by simp) fun x hx => h x (by simp [hx])]

theorem commaWords_join (l : List CStr) (hl : l ≠ []) (h : ∀ a ∈ l, c!"," ∉ a ∧ a ≠ []) : commaWords (joinWith b!"," l) = l := by
  simp only [commaWords, commaParts_join l hl fun a ha => (h a ha).1]
  rw [if_neg]
  intro e
  exact (h [] (List.mem_of_getLast? e)).2 rfl

end WG.WgJson
