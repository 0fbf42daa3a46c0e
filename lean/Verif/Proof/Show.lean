import Verif.Model.Show
import Verif.Spec.Show
import Verif.Proof.Terminal
import Verif.Proof.Uapi
import Verif.Proof.Base64
namespace WG
open Spec

/-! ### numerals -/

theorem digitChar_dec : ∀ n : Fin 10, UInt8.ofNat (Nat.digitChar n).toNat = UInt8.ofNat (48 + n) := by decide
theorem digitChar_hex : ∀ n : Fin 16, UInt8.ofNat (Nat.digitChar n).toNat = hexDigitLower n := by decide

theorem showDecAux_eq (fuel n : Nat) (h : n < fuel) : showDecAux fuel n = decimal n := by
  induction fuel generalizing n with
  | zero => omega
  | succ f ih =>
    simp only [showDecAux, decimal, ascii]
    rw [Nat.toDigits_eq_if (by omega)]
    split
    · rename_i hn; simp only [List.map_cons, List.map_nil]; rw [digitChar_dec ⟨n, hn⟩]
    · rename_i hn
      rw [ih (n / 10) (by omega)]
      simp only [decimal, ascii, List.map_append, List.map_cons, List.map_nil]
      rw [digitChar_dec ⟨n % 10, Nat.mod_lt _ (by omega)⟩]

theorem showDec_eq (n : Nat) : showDec n = decimal n := showDecAux_eq _ _ (by omega)

theorem showHexAux_eq (fuel n : Nat) (h : n < fuel) : showHexAux fuel n = hexadecimal n := by
  induction fuel generalizing n with
  | zero => omega
  | succ f ih =>
    simp only [showHexAux, hexadecimal, ascii]
    rw [Nat.toDigits_eq_if (by omega)]
    split
    · rename_i hn; simp only [List.map_cons, List.map_nil]; rw [digitChar_hex ⟨n, hn⟩]
    · rename_i hn
      rw [ih (n / 16) (by omega)]
      simp only [hexadecimal, ascii, List.map_append, List.map_cons, List.map_nil]
      rw [digitChar_hex ⟨n % 16, Nat.mod_lt _ (by omega)⟩]

theorem showHex_eq (n : Nat) : showHex n = hexadecimal n := showHexAux_eq _ _ (by omega)

theorem decimal_isDecimal (n : Nat) : IsDecimal (decimal n) n := showDec_eq n ▸ showDec_isDecimal n

theorem hexDigit_ok : ∀ n : Fin 16, isHexDigit (hexDigitLower n) = true ∧ hexDigitVal (hexDigitLower n) = n := by decide

theorem showHexAux_spec (fuel n : Nat) (h : n < fuel) : IsHexNum (showHexAux fuel n) n := by
  induction fuel generalizing n with
  | zero => omega
  | succ f ih =>
    simp only [showHexAux]
    split
    · rename_i hn
      have := hexDigit_ok ⟨n, hn⟩
      refine ⟨by simp, by simpa using this.1, ?_⟩
      simp only [hexNumVal, List.foldl_cons, List.foldl_nil]
      have := this.2; simp only at this; omega
    · rename_i hn
      obtain ⟨h1, h2, h3⟩ := ih (n / 16) (by omega)
      have hd := hexDigit_ok ⟨n % 16, Nat.mod_lt _ (by omega)⟩
      refine ⟨by simp, ?_, ?_⟩
      · intro c hc
        rcases List.mem_append.1 hc with hc | hc
        · exact h2 c hc
        · simp only [List.mem_singleton] at hc; subst hc; exact hd.1
      · have e : hexNumVal (showHexAux f (n / 16) ++ [hexDigitLower (n % 16)]) = 16 * hexNumVal (showHexAux f (n / 16)) + hexDigitVal (hexDigitLower (n % 16)) := by
          simp [hexNumVal]
        rw [e, ← h3]
        have := hd.2; simp only at this; omega

theorem hexadecimal_isHexNum (n : Nat) : IsHexNum (hexadecimal n) n := showHex_eq n ▸ showHexAux_spec _ _ (by omega)

/-- length of a decimal numeral -/
theorem decimal_length (n k : Nat) (hk : 0 < k) (h : n < 10 ^ k) : (decimal n).length ≤ k := by
  simp only [decimal, ascii, List.length_map]
  exact (Nat.length_toDigits_le_iff (by omega) hk).2 h

/-! ### removing escape sequences, compositionally -/

/-- `t` is displayed as `o` wherever it occurs. -/
def Strips (t o : List UInt8) : Prop := ∀ r ro, Stripped r ro → Stripped (t ++ r) (o ++ ro)

theorem Strips.append {t o t' o' : List UInt8} (h : Strips t o) (h' : Strips t' o') : Strips (t ++ t') (o ++ o') := by
  intro r ro hr
  rw [List.append_assoc, List.append_assoc]
  exact h _ _ (h' _ _ hr)

theorem Strips.nil : Strips [] [] := fun _ _ h => h

theorem Strips.plain {t : List UInt8} (h : (27 : UInt8) ∉ t) : Strips t t := by
  induction t with
  | nil => exact .nil
  | cons c t ih =>
    simp only [List.mem_cons, not_or] at h
    intro r ro hr
    refine .char ?_ (ih h.2 r ro hr)
    rintro ⟨x, xs, he⟩
    simp only [List.cons.injEq] at he
    exact h.1 he.1.symm

theorem Strips.code (params : List UInt8) (l : UInt8) (hp : ∀ c ∈ params, isAlpha c = false) (hl : isAlpha l = true) :
    Strips (27 :: c!"[" :: (params ++ [l])) [] := by
  intro r ro hr
  have := Stripped.seq (params := params) (l := l) hp hl hr
  simpa using this

theorem Strips.code0 : Strips b!"\x1b[0m" [] := .code b!"0" c!"m" (by decide) (by decide)
theorem Strips.code1 : Strips b!"\x1b[1m" [] := .code b!"1" c!"m" (by decide) (by decide)
theorem Strips.code31 : Strips b!"\x1b[31m" [] := .code b!"31" c!"m" (by decide) (by decide)
theorem Strips.code32 : Strips b!"\x1b[32m" [] := .code b!"32" c!"m" (by decide) (by decide)
theorem Strips.code33 : Strips b!"\x1b[33m" [] := .code b!"33" c!"m" (by decide) (by decide)
theorem Strips.code36 : Strips b!"\x1b[36m" [] := .code b!"36" c!"m" (by decide) (by decide)

theorem Strips.stripped {t o : List UInt8} (h : Strips t o) : Stripped t o := by
  have := h [] [] .nil; simpa using this

theorem filterAnsi_strips (sc : Bool) {t o : List UInt8} (h : Strips t o) (h0 : (0 : UInt8) ∉ t) : filterAnsi sc false t = some o := by
  obtain ⟨o', e, h'⟩ := filterAnsi_off sc t h0
  rw [e, stripped_unique h' h.stripped]

/-- Text that is displayed as it is: no ESC, NUL or line feed. -/
def Plain (t : List UInt8) : Prop := ∀ c ∈ t, c ≠ 0 ∧ c ≠ 27 ∧ c ≠ 10

instance (t : List UInt8) : Decidable (Plain t) := inferInstanceAs (Decidable (∀ c ∈ t, c ≠ 0 ∧ c ≠ 27 ∧ c ≠ 10))

theorem Plain.append {a b : List UInt8} (h : Plain a) (h' : Plain b) : Plain (a ++ b) := by
  intro c hc; rcases List.mem_append.1 hc with hc | hc
  · exact h c hc
  · exact h' c hc

theorem Plain.strips {t : List UInt8} (h : Plain t) : Strips t t := .plain fun hm => (h _ hm).2.1 rfl
theorem Plain.nul {t : List UInt8} (h : Plain t) : (0 : UInt8) ∉ t := fun hm => (h _ hm).1 rfl
theorem Plain.lf {t : List UInt8} (h : Plain t) : (10 : UInt8) ∉ t := fun hm => (h _ hm).2.2 rfl

theorem decimal_plain (n : Nat) : Plain (decimal n) := by
  intro c hc
  have := (decimal_isDecimal n).2.1 c hc
  refine ⟨?_, ?_, ?_⟩ <;> (rintro rfl; revert this; decide)

theorem hexadecimal_plain (n : Nat) : Plain (hexadecimal n) := by
  intro c hc
  have := (hexadecimal_isHexNum n).2.1 c hc
  refine ⟨?_, ?_, ?_⟩ <;> (rintro rfl; revert this; decide)

theorem b64Char_plain (n : Nat) : b64Char n = 0 ∨ (b64Char n ≠ 27 ∧ b64Char n ≠ 10 ∧ b64Char n ≠ 9 ∧ b64Char n ≠ 0) := by
  by_cases h : n < 64
  · exact .inr ((by decide : ∀ n : Fin 64, b64Char n ≠ 27 ∧ b64Char n ≠ 10 ∧ b64Char n ≠ 9 ∧ b64Char n ≠ 0) ⟨n, h⟩)
  · left
    simp only [b64Char]
    rw [List.getD_eq_getElem?_getD, List.getElem?_eq_none (by simp [b64Alphabet]; omega)]; rfl

theorem b64_ok (n : Nat) (h : n < 64) : b64Char n ≠ 0 ∧ b64Char n ≠ 27 ∧ b64Char n ≠ 10 ∧ b64Char n ≠ 9 :=
  (by decide : ∀ n : Fin 64, b64Char n ≠ 0 ∧ b64Char n ≠ 27 ∧ b64Char n ≠ 10 ∧ b64Char n ≠ 9) ⟨n, h⟩

theorem rfc4648_chars (l : List UInt8) : ∀ c ∈ rfc4648 l, c ≠ 0 ∧ c ≠ 27 ∧ c ≠ 10 ∧ c ≠ 9 := by
  induction l using rfc4648.induct with
  | case1 a b c r ih =>
    have h1 := a.toNat_lt; have h2 := b.toNat_lt; have h3 := c.toNat_lt
    simp only [rfc4648, List.mem_cons]
    rintro x (rfl | rfl | rfl | rfl | hx)
    · exact b64_ok _ (by omega)
    · exact b64_ok _ (by omega)
    · exact b64_ok _ (by omega)
    · exact b64_ok _ (by omega)
    · exact ih x hx
  | case2 a b =>
    have h1 := a.toNat_lt; have h2 := b.toNat_lt
    simp only [rfc4648, List.mem_cons, List.not_mem_nil, or_false]
    rintro x (rfl | rfl | rfl | rfl)
    · exact b64_ok _ (by omega)
    · exact b64_ok _ (by omega)
    · exact b64_ok _ (by omega)
    · decide
  | case3 a =>
    have h1 := a.toNat_lt
    simp only [rfc4648, List.mem_cons, List.not_mem_nil, or_false]
    rintro x (rfl | rfl | rfl | rfl)
    · exact b64_ok _ (by omega)
    · exact b64_ok _ (by omega)
    · decide
    · decide
  | case4 => simp [rfc4648]

theorem rfc_plain (l : List UInt8) : Plain (rfc4648 l) := fun c hc => ⟨(rfc4648_chars l c hc).1, (rfc4648_chars l c hc).2.1, (rfc4648_chars l c hc).2.2.1⟩

end WG

namespace WG
open Spec

/-! ### durations -/

theorem joinWith_snoc (sep : List UInt8) (l : List (List UInt8)) (x : List UInt8) :
    joinWith sep (l ++ [x]) = if l = [] then x else joinWith sep l ++ sep ++ x := by
  induction l with
  | nil => rfl
  | cons a l ih =>
    rcases l with _ | ⟨b, l⟩
    · rfl
    · simp only [List.cons_append, joinWith] at ih ⊢
      rw [ih]; simp

/-- The text so far shows the parts done. -/
structure TimeInv (t : List UInt8) (done : List (List UInt8)) (bound : Nat) : Prop where
  strips : Strips t (joinWith b!", " done)
  nul : (0 : UInt8) ∉ t
  lf : (10 : UInt8) ∉ t
  empty : t.length = 0 ↔ done = []
  len : t.length ≤ bound

def addPart (len : Nat) (st : CStr × Nat) (n : Nat) (unit : CStr) : Option (CStr × Nat) :=
  if n ≠ 0 then snprintfAt len st (timePart st.2 n unit) else some st

theorem timePart_strips (off n : Nat) (unit : List UInt8) (hu : Plain unit) :
    Strips (timePart off n unit) ((if off ≠ 0 then b!", " else []) ++ quantity n unit) := by
  have h1 : Strips (if off ≠ 0 then b!", " else []) (if off ≠ 0 then b!", " else []) := by
    split
    · exact .plain (by decide)
    · exact .nil
  have h2 : Strips (if n = 1 then [] else b!"s") (if n = 1 then [] else b!"s") := by
    split
    · exact .nil
    · exact .plain (by decide)
  have := ((((h1.append (decimal_plain n).strips).append ((Strips.plain (t := b!" ") (by decide)).append .code36)).append hu.strips).append h2).append .code0
  simp only [timePart, quantity, showDec_eq]
  simpa using this

theorem timePart_mem (off n : Nat) (unit : List UInt8) (hu : Plain unit) (x : UInt8) (hx : x = 0 ∨ x = 10) : x ∉ timePart off n unit := by
  have hd := decimal_plain n
  have d0 : x ∉ decimal n := by rcases hx with rfl | rfl; exacts [hd.nul, hd.lf]
  have u0 : x ∉ unit := by rcases hx with rfl | rfl; exacts [hu.nul, hu.lf]
  simp only [timePart, showDec_eq, List.mem_append, not_or]
  refine ⟨⟨⟨⟨⟨?_, d0⟩, ?_⟩, u0⟩, ?_⟩, ?_⟩
  · split <;> rcases hx with rfl | rfl <;> decide
  · rcases hx with rfl | rfl <;> decide
  · split <;> rcases hx with rfl | rfl <;> decide
  · rcases hx with rfl | rfl <;> decide

theorem timePart_length (off n : Nat) (unit : List UInt8) (hu : unit.length ≤ 6) (hn : n < 10 ^ 20) : (timePart off n unit).length ≤ 39 := by
  have hd := decimal_length n 20 (by omega) hn
  have e1 : (if off ≠ 0 then b!", " else []).length ≤ 2 := by split <;> simp
  have e2 : (if n = 1 then [] else b!"s").length ≤ 1 := by split <;> simp
  simp only [timePart, showDec_eq, List.length_append, List.length_cons, List.length_nil]
  omega

theorem timePart_pos (off n : Nat) (unit : List UInt8) : 0 < (timePart off n unit).length := by
  simp only [timePart, List.length_append, List.length_cons, List.length_nil]; omega

theorem addPart_inv (len : Nat) (t : List UInt8) (done : List (List UInt8)) (b : Nat) (h : TimeInv t done b) (n : Nat) (unit : List UInt8)
    (hu : Plain unit) (hul : unit.length ≤ 6) (hn : n < 10 ^ 20) (hb : b + 39 < len) :
    ∃ t', addPart len (t, t.length) n unit = some (t', t'.length) ∧
      TimeInv t' (done ++ if n ≠ 0 then [quantity n unit] else []) (b + 39) := by
  simp only [addPart]
  split
  · have hlen := timePart_length t.length n unit hul hn
    have hb' := h.len
    simp only [snprintfAt]
    rw [if_neg (by omega), List.take_of_length_le (by omega)]
    refine ⟨t ++ timePart t.length n unit, by simp, ?_⟩
    have hs := h.strips.append (timePart_strips t.length n unit hu)
    refine ⟨?_, ?_, ?_, ?_, ?_⟩
    · rw [joinWith_snoc]
      by_cases hd : done = []
      · have ht : t.length = 0 := h.empty.2 hd
        subst hd
        simp only [ht, ne_eq, not_true_eq_false, if_false, joinWith, List.nil_append] at hs ⊢
        exact hs
      · have ht : ¬ t.length = 0 := fun e => hd (h.empty.1 e)
        rw [if_pos ht] at hs
        rw [if_neg hd, List.append_assoc]; exact hs
    · simp only [List.mem_append, not_or]; exact ⟨h.nul, timePart_mem _ _ _ hu 0 (.inl rfl)⟩
    · simp only [List.mem_append, not_or]; exact ⟨h.lf, timePart_mem _ _ _ hu 10 (.inr rfl)⟩
    · have := timePart_pos t.length n unit
      constructor
      · intro h; rw [List.length_append] at h; omega
      · intro h; simp at h
    · rw [List.length_append]; omega
  · exact ⟨t, rfl, by simpa using ⟨h.strips, h.nul, h.lf, h.empty, by have := h.len; omega⟩⟩

/-- The duration shown for a number of seconds. -/
def durationOf (n : Nat) : Duration :=
  ⟨n / 31536000, n % 31536000 / 86400, n % 86400 / 3600, n % 3600 / 60, n % 60⟩

theorem durationOf_proper (n : Nat) : (durationOf n).Proper ∧ (durationOf n).total = n := by
  simp only [Duration.Proper, Duration.total, durationOf]; omega

theorem filter_part (n : Nat) (u : List UInt8) (l : List (Nat × List UInt8)) :
    (((n, u) :: l).filter (·.1 ≠ 0)).map (fun q => quantity q.1 q.2) = (if n ≠ 0 then [quantity n u] else []) ++ ((l.filter (·.1 ≠ 0)).map fun q => quantity q.1 q.2) := by
  by_cases h : n = 0 <;> simp [h]

theorem prettyTime_spec (len left : Nat) (hl : left < 10 ^ 20) (hlen : 195 < len) :
    ∃ t, prettyTime len left = some (t, t.length) ∧ Strips t (durationOf left).text ∧ (0 : UInt8) ∉ t ∧ (10 : UInt8) ∉ t ∧ t.length ≤ 195 := by
  have h0 : TimeInv [] [] 0 := ⟨.nil, by simp, by simp, by simp, by simp⟩
  obtain ⟨t1, e1, h1⟩ := addPart_inv len [] [] 0 h0 (left / (365 * 24 * 60 * 60)) b!"year" (by decide) (by decide) (by omega) (by omega)
  obtain ⟨t2, e2, h2⟩ := addPart_inv len _ _ _ h1 (left % (365 * 24 * 60 * 60) / (24 * 60 * 60)) b!"day" (by decide) (by decide) (by omega) (by omega)
  obtain ⟨t3, e3, h3⟩ := addPart_inv len _ _ _ h2 (left % (365 * 24 * 60 * 60) % (24 * 60 * 60) / (60 * 60)) b!"hour" (by decide) (by decide) (by omega) (by omega)
  obtain ⟨t4, e4, h4⟩ := addPart_inv len _ _ _ h3 (left % (365 * 24 * 60 * 60) % (24 * 60 * 60) % (60 * 60) / 60) b!"minute" (by decide) (by decide) (by omega) (by omega)
  obtain ⟨t5, e5, h5⟩ := addPart_inv len _ _ _ h4 (left % (365 * 24 * 60 * 60) % (24 * 60 * 60) % (60 * 60) % 60) b!"second" (by decide) (by decide) (by omega) (by omega)
  refine ⟨t5, ?_, ?_, h5.nul, h5.lf, by have := h5.len; omega⟩
  · simp only [prettyTime]
    simp only [addPart] at e1 e2 e3 e4 e5
    simp only [List.length_nil] at e1
    rw [e1]; simp only [Option.bind_some]
    rw [e2]; simp only [Option.bind_some]
    rw [e3]; simp only [Option.bind_some]
    rw [e4]; simp only [Option.bind_some]
    exact e5
  · have := h5.strips
    simp only [Duration.text, filter_part, List.filter_nil, List.map_nil, List.append_nil]
    simp only [List.nil_append, List.append_assoc] at this
    simp only [durationOf]
    have a1 : left % 31536000 % 86400 = left % 86400 := by omega
    have a2 : left % 86400 % 3600 = left % 3600 := by omega
    have a3 : left % 3600 % 60 = left % 60 := by omega
    simp only [show 365 * 24 * 60 * 60 = 31536000 from rfl, show 24 * 60 * 60 = 86400 from rfl, show 60 * 60 = 3600 from rfl, a1, a2, a3] at this
    exact this

end WG

namespace WG
open Spec

/-! ### the human-readable listing with colours off -/

/-- Printing the texts one after another with colours off displays `out`. -/
def Shows (texts : List CStr) (out : List UInt8) : Prop :=
  ∃ outs, List.Forall₂ (fun t o => Strips t o ∧ (0 : UInt8) ∉ t) texts outs ∧ outs.flatten = out

theorem Shows.nil : Shows [] [] := ⟨[], .nil, rfl⟩

theorem Shows.append {a b : List CStr} {x y : List UInt8} (h : Shows a x) (h' : Shows b y) : Shows (a ++ b) (x ++ y) := by
  obtain ⟨o, h1, rfl⟩ := h
  obtain ⟨o', h2, rfl⟩ := h'
  exact ⟨o ++ o', forall2_append h1 h2, by simp⟩

theorem Shows.one {t : CStr} {o : List UInt8} (h : Strips t o) (h0 : (0 : UInt8) ∉ t) : Shows [t] o :=
  ⟨[o], .cons ⟨h, h0⟩ .nil, by simp⟩

theorem Shows.ite {c : Prop} [Decidable c] {a : List CStr} {x : List UInt8} (h : c → Shows a x) :
    Shows (if c then a else []) (if c then x else []) := by
  split
  · exact h ‹_›
  · exact .nil

theorem Shows.mapM (sc : Bool) {texts : List CStr} {out : List UInt8} (h : Shows texts out) :
    ((texts.mapM (filterAnsi sc false)).map List.flatten) = some out := by
  obtain ⟨outs, h, rfl⟩ := h
  have : texts.mapM (filterAnsi sc false) = some outs := by
    induction h with
    | nil => rfl
    | cons h _ ih => rw [List.mapM_cons, ih, filterAnsi_strips sc h.1 h.2]; rfl
  rw [this]; rfl

/-- A labelled line: two spaces, the label in bold, a colon, and a value. -/
theorem shows_field {pre label v o : List UInt8} (hpre : Strips pre b!"  " ∧ (0 : UInt8) ∉ pre) (hl : Plain label) (hv : Strips v o) (h0 : (0 : UInt8) ∉ v) :
    Shows [pre ++ label ++ b!"\x1b[0m: " ++ v ++ [10]] (b!"  " ++ label ++ b!": " ++ o ++ [10]) := by
  refine .one ?_ ?_
  · have := (((hpre.1.append hl.strips).append (Strips.code0.append (Strips.plain (t := b!": ") (by decide)))).append hv).append (Strips.plain (t := [10]) (by decide))
    simpa using this
  · simp only [List.mem_append, not_or]
    exact ⟨⟨⟨⟨hpre.2, hl.nul⟩, by decide⟩, h0⟩, by decide⟩

theorem bold_pre : Strips b!"  \x1b[1m" b!"  " ∧ (0 : UInt8) ∉ b!"  \x1b[1m" :=
  ⟨by have := (Strips.plain (t := b!"  ") (by decide)).append Strips.code1; simpa using this, by decide⟩

/-- The system's texts are ordinary text. -/
structure PlainTexts (env : ShowEnv) : Prop where
  addr : ∀ a, Plain (ntopAddr env.out a)
  endpoint : ∀ e, e ≠ .unset → Plain (endpointText env e)
  frac : ∀ b d, Plain (env.fmt2 b d)

/-- The texts the model uses. -/
def textsOf (env : ShowEnv) : Texts where
  addr := ntopAddr env.out
  endpoint := endpointText env
  frac := env.fmt2
  hide := env.hideVar ≠ some b!"never"
  now := env.now

theorem maskedKey_eq (env : ShowEnv) (k : Key) : maskedKey env.hideVar k = secretText (textsOf env) k := by
  simp only [maskedKey, secretText, textsOf, keyToBase64_rfc]
  split <;> simp [*]

theorem secretText_plain (T : Texts) (k : Key) : Plain (secretText T k) := by
  simp only [secretText]; split
  · decide
  · exact rfc_plain _

theorem unlines_append (a b : List (List UInt8)) : unlines (a ++ b) = unlines a ++ unlines b := by simp [unlines]
theorem unlines_ite {c : Prop} [Decidable c] (a : List (List UInt8)) : unlines (if c then a else []) = if c then unlines a else [] := by
  split <;> rfl
theorem unlines_one (a : List UInt8) : unlines [a] = a ++ [10] := by simp [unlines]

theorem prettyDevice_shows (env : ShowEnv) (d : Device) (hn : Plain d.name) :
    Shows (prettyDevice env d) (unlines (deviceLines (textsOf env) d) ++ if d.peers ≠ [] then [10] else []) := by
  simp only [prettyDevice, deviceLines, unlines_append, unlines_ite, unlines_one, maskedKey_eq, keyToBase64_rfc, showDec_eq, showHex_eq]
  refine .append (.append (.append (.append (.append ?_ (.ite fun _ => ?_)) (.ite fun _ => ?_)) (.ite fun _ => ?_)) (.ite fun _ => ?_)) (.ite fun _ => ?_)
  · have h1 : Shows [b!"\x1b[0m"] [] := .one .code0 (by decide)
    have h2 : Shows [b!"\x1b[32m\x1b[1minterface\x1b[0m: \x1b[32m" ++ d.name ++ b!"\x1b[0m\n"] (b!"interface: " ++ d.name ++ [10]) := by
      refine .one ?_ ?_
      · have := (((Strips.code32.append (Strips.code1.append (Strips.plain (t := b!"interface") (by decide)))).append
          (Strips.code0.append ((Strips.plain (t := b!": ") (by decide)).append Strips.code32))).append hn.strips).append
          (Strips.code0.append (Strips.plain (t := [10]) (by decide)))
        simpa using this
      · simp only [List.mem_append, not_or]; exact ⟨⟨by decide, hn.nul⟩, by decide⟩
    have := h1.append h2
    simpa using this
  · have := shows_field (label := b!"public key") bold_pre (by decide) (rfc_plain d.publicKey.toList).strips (rfc_plain _).nul
    simpa using this
  · have := shows_field (label := b!"private key") bold_pre (by decide) (secretText_plain (textsOf env) d.privateKey).strips (secretText_plain _ _).nul
    simpa using this
  · have := shows_field (label := b!"listening port") bold_pre (by decide) (decimal_plain d.listenPort.toNat).strips (decimal_plain _).nul
    simpa using this
  · have hp : Plain (b!"0x" ++ hexadecimal d.fwmark.toNat) := Plain.append (by decide) (hexadecimal_plain _)
    have := shows_field (label := b!"fwmark") bold_pre (by decide) hp.strips hp.nul
    simpa using this
  · exact .one (.plain (by decide)) (by decide)

theorem prettyIPs_shows (env : ShowEnv) (hP : PlainTexts env) (l : List AllowedIP) (hl : l ≠ []) :
    Shows (prettyIPs env l) (joinWith b!", " (l.map fun a => ntopAddr env.out a.addr ++ b!"/" ++ decimal a.cidr.toNat) ++ [10]) := by
  have one : ∀ (a : AllowedIP) (e : List UInt8), (27 : UInt8) ∉ e → (0 : UInt8) ∉ e →
      Shows [ntopAddr env.out a.addr ++ b!"\x1b[36m/\x1b[0m" ++ showDec a.cidr.toNat ++ e] (ntopAddr env.out a.addr ++ b!"/" ++ decimal a.cidr.toNat ++ e) := by
    intro a e h27 h0
    refine .one ?_ ?_
    · have := (((hP.addr a.addr).strips.append (Strips.code36.append ((Strips.plain (t := b!"/") (by decide)).append Strips.code0))).append
        (decimal_plain a.cidr.toNat).strips).append (Strips.plain h27)
      rw [showDec_eq]; simpa using this
    · rw [showDec_eq]; simp only [List.mem_append, not_or]
      exact ⟨⟨⟨(hP.addr _).nul, by decide⟩, (decimal_plain _).nul⟩, h0⟩
  induction l with
  | nil => exact absurd rfl hl
  | cons a l ih =>
    rcases l with _ | ⟨b, l⟩
    · exact one a [10] (by decide) (by decide)
    · have := (one a b!", " (by decide) (by decide)).append (ih (by simp))
      simp only [prettyIPs, List.map_cons, joinWith] at this ⊢
      simpa using this

theorem bytesText_strips (env : ShowEnv) (hP : PlainTexts env) (b : Nat) : Strips (bytesText env b) (amount (textsOf env) b) ∧ (0 : UInt8) ∉ bytesText env b := by
  have gen : ∀ (v u : List UInt8), Plain v → Plain u → Strips (v ++ b!" \x1b[36m" ++ u ++ b!"\x1b[0m") (v ++ b!" " ++ u) ∧ (0 : UInt8) ∉ v ++ b!" \x1b[36m" ++ u ++ b!"\x1b[0m" := by
    intro v u hv hu
    refine ⟨?_, ?_⟩
    · have := ((hv.strips.append ((Strips.plain (t := b!" ") (by decide)).append Strips.code36)).append hu.strips).append Strips.code0
      simpa using this
    · simp only [List.mem_append, not_or]; exact ⟨⟨⟨hv.nul, by decide⟩, hu.nul⟩, by decide⟩
  simp only [bytesText, amount, textsOf, show 1024 = 2 ^ 10 from rfl, show 2 ^ 10 * 2 ^ 10 = 2 ^ 20 from rfl, show 2 ^ 20 * 2 ^ 10 = 2 ^ 30 from rfl, show 2 ^ 30 * 2 ^ 10 = 2 ^ 40 from rfl]
  split
  · have := gen (decimal b) b!"B" (decimal_plain b) (by decide); rw [showDec_eq]; simpa using this
  split
  · have := gen (env.fmt2 b (2 ^ 10)) b!"KiB" (hP.frac _ _) (by decide); simpa using this
  split
  · have := gen (env.fmt2 b (2 ^ 20)) b!"MiB" (hP.frac _ _) (by decide); simpa using this
  split
  · have := gen (env.fmt2 b (2 ^ 30)) b!"GiB" (hP.frac _ _) (by decide); simpa using this
  · have := gen (env.fmt2 b (2 ^ 40)) b!"TiB" (hP.frac _ _) (by decide); simpa using this

theorem ago_spec (now sec : Int) (h : now - sec < 10 ^ 20) :
    ∃ t o, ago now sec = some t ∧ AgoText now sec o ∧ Strips t o ∧ (0 : UInt8) ∉ t ∧ t.length < 1024 := by
  simp only [ago]
  split
  · rename_i h; exact ⟨_, _, rfl, .inl ⟨h, rfl⟩, .plain (by decide), by decide, by decide⟩
  split
  · rename_i h1 h2
    refine ⟨_, _, rfl, .inr (.inl ⟨h2, rfl⟩), ?_, by decide, by decide⟩
    have := (Strips.plain (t := b!"(") (by decide)).append (Strips.code31.append ((Strips.plain (t := b!"System clock wound backward; connection problems may ensue.") (by decide)).append (Strips.code0.append (Strips.plain (t := b!")") (by decide)))))
    simpa using this
  · rename_i h1 h2
    obtain ⟨t, e, hs, h0, -, hlen⟩ := prettyTime_spec 1024 (now - sec).toNat (by omega) (by omega)
    rw [e]
    simp only
    rw [if_neg (by omega), List.take_of_length_le (by simp; omega)]
    refine ⟨_, _, rfl, .inr (.inr ⟨by omega, durationOf (now - sec).toNat, (durationOf_proper _).1, ?_, rfl⟩), ?_, ?_, ?_⟩
    · rw [(durationOf_proper _).2]; omega
    · exact hs.append (Strips.plain (by decide))
    · simp only [List.mem_append, not_or]; exact ⟨h0, by decide⟩
    · simp only [List.length_append, List.length_cons, List.length_nil]; omega

theorem every_spec (n : UInt16) : ∃ t o, every n = some t ∧ EveryText n.toNat o ∧ Strips t o ∧ (0 : UInt8) ∉ t ∧ t.length < 1024 := by
  have hn := n.toNat_lt
  obtain ⟨t, e, hs, h0, -, hlen⟩ := prettyTime_spec (1024 - 6 - 1) n.toNat (by omega) (by omega)
  simp only [every, e, Option.map_some]
  refine ⟨_, _, rfl, ⟨durationOf n.toNat, (durationOf_proper _).1, (durationOf_proper _).2, rfl⟩, (Strips.plain (by decide)).append hs, ?_, ?_⟩
  · simp only [List.mem_append, not_or]; exact ⟨by decide, h0⟩
  · simp only [List.length_append, List.length_cons, List.length_nil]; omega

theorem prettyPeer_shows (env : ShowEnv) (hP : PlainTexts env) (p : Peer) (ht : env.now - p.handshakeSec < 10 ^ 20) :
    ∃ texts ls, prettyPeer env p = some texts ∧ PeerLines (textsOf env) p ls ∧ Shows texts (unlines ls) := by
  obtain ⟨ta, oa, ea, ha1, ha2, ha3, -⟩ := ago_spec env.now p.handshakeSec ht
  obtain ⟨te, oe, ee, he1, he2, he3, -⟩ := every_spec p.keepalive
  have ep : prettyPeer env p = some ([b!"\x1b[33m\x1b[1mpeer\x1b[0m: \x1b[33m" ++ keyToBase64 p.publicKey ++ b!"\x1b[0m\n"] ++
      (if p.flags.hasPresharedKey then [b!"  \x1b[1mpreshared key\x1b[0m: " ++ maskedKey env.hideVar p.presharedKey ++ [10]] else []) ++
      (if p.endpoint ≠ .unset then [b!"  \x1b[1mendpoint\x1b[0m: " ++ endpointText env p.endpoint ++ [10]] else []) ++
      [b!"  \x1b[1mallowed ips\x1b[0m: "] ++
      (if p.allowedIPs ≠ [] then prettyIPs env p.allowedIPs else [b!"(none)\n"]) ++
      (if p.handshakeSec ≠ 0 then [b!"  \x1b[1mlatest handshake\x1b[0m: " ++ ta ++ [10]] else []) ++
      (if p.rx ≠ 0 ∨ p.tx ≠ 0 then
        [b!"  \x1b[1mtransfer\x1b[0m: ", bytesText env p.rx ++ b!" received, ", bytesText env p.tx ++ b!" sent\n"] else []) ++
      (if p.keepalive ≠ 0 then [b!"  \x1b[1mpersistent keepalive\x1b[0m: " ++ te ++ [10]] else [])) := by
    have e1 : prettyHandshake env p = some (if p.handshakeSec ≠ 0 then [b!"  \x1b[1mlatest handshake\x1b[0m: " ++ ta ++ [10]] else []) := by rw [prettyHandshake, ea]; split <;> rfl
    have e2 : prettyKeepalive p = some (if p.keepalive ≠ 0 then [b!"  \x1b[1mpersistent keepalive\x1b[0m: " ++ te ++ [10]] else []) := by rw [prettyKeepalive, ee]; split <;> rfl
    simp only [prettyPeer]
    rw [e1, e2]; rfl
  refine ⟨_, _, ep, ⟨oa, oe, fun _ => ha1, fun _ => he1, rfl⟩, ?_⟩
  · simp only [unlines_append, unlines_ite, unlines_one, maskedKey_eq, keyToBase64_rfc]
    rw [List.append_assoc (bs := [b!"  \x1b[1mallowed ips\x1b[0m: "])]
    refine .append (.append (.append (.append (.append (.append ?_ (.ite fun _ => ?_)) (.ite fun h => ?_)) ?_) (.ite fun _ => ?_)) (.ite fun _ => ?_)) (.ite fun _ => ?_)
    · refine .one ?_ ?_
      · have := ((Strips.code33.append (Strips.code1.append ((Strips.plain (t := b!"peer") (by decide)).append (Strips.code0.append
          ((Strips.plain (t := b!": ") (by decide)).append Strips.code33))))).append (rfc_plain p.publicKey.toList).strips).append
          (Strips.code0.append (Strips.plain (t := [10]) (by decide)))
        simpa using this
      · simp only [List.mem_append, not_or]; exact ⟨⟨by decide, (rfc_plain _).nul⟩, by decide⟩
    · have := shows_field (label := b!"preshared key") bold_pre (by decide) (secretText_plain (textsOf env) p.presharedKey).strips (secretText_plain _ _).nul
      simpa using this
    · have := shows_field (label := b!"endpoint") bold_pre (by decide) (hP.endpoint p.endpoint h).strips (hP.endpoint p.endpoint h).nul
      simpa [textsOf] using this
    · have h1 : Shows [b!"  \x1b[1mallowed ips\x1b[0m: "] b!"  allowed ips: " := by
        refine .one ?_ (by decide)
        have := bold_pre.1.append ((Strips.plain (t := b!"allowed ips") (by decide)).append (Strips.code0.append (Strips.plain (t := b!": ") (by decide))))
        simpa using this
      rw [List.append_assoc]
      refine h1.append ?_
      by_cases hi : p.allowedIPs = []
      · rw [if_pos hi, if_neg (by simpa using hi)]
        exact .one (.plain (by decide)) (by decide)
      · rw [if_neg hi, if_pos hi]
        exact prettyIPs_shows env hP _ hi
    · have := shows_field (label := b!"latest handshake") bold_pre (by decide) ha2 ha3
      simpa using this
    · have h1 : Shows [b!"  \x1b[1mtransfer\x1b[0m: "] b!"  transfer: " := by
        refine .one ?_ (by decide)
        have := bold_pre.1.append ((Strips.plain (t := b!"transfer") (by decide)).append (Strips.code0.append (Strips.plain (t := b!": ") (by decide))))
        simpa using this
      have br := bytesText_strips env hP p.rx
      have bt := bytesText_strips env hP p.tx
      have h2 : Shows [bytesText env p.rx ++ b!" received, "] (amount (textsOf env) p.rx ++ b!" received, ") :=
        .one (br.1.append (.plain (by decide))) (by simp only [List.mem_append, not_or]; exact ⟨br.2, by decide⟩)
      have h3 : Shows [bytesText env p.tx ++ b!" sent\n"] (amount (textsOf env) p.tx ++ b!" sent\n") :=
        .one (bt.1.append (.plain (by decide))) (by simp only [List.mem_append, not_or]; exact ⟨bt.2, by decide⟩)
      have := h1.append (h2.append h3)
      simpa using this
    · have := shows_field (label := b!"persistent keepalive") bold_pre (by decide) he2 he3
      simpa using this

theorem prettyPeers_shows (env : ShowEnv) (hP : PlainTexts env) (ps : List Peer) (ht : ∀ p ∈ ps, env.now - p.handshakeSec < 10 ^ 20) :
    ∃ texts blocks out, prettyPeers env ps = some texts ∧ List.Forall₂ (PeerLines (textsOf env)) ps blocks ∧ Shows texts out ∧
      (if ps ≠ [] then [10] else []) ++ out = unlines (blocks.flatMap ([] :: ·)) := by
  induction ps with
  | nil => exact ⟨[], [], [], rfl, .nil, .nil, rfl⟩
  | cons p ps ih =>
    obtain ⟨t1, l1, e1, h1, s1⟩ := prettyPeer_shows env hP p (ht p (by simp))
    obtain ⟨t2, b2, o2, e2, h2, s2, u2⟩ := ih fun q hq => ht q (by simp [hq])
    rcases ps with _ | ⟨q, ps⟩
    · cases h2
      refine ⟨t1, [l1], unlines l1, e1, .cons h1 .nil, s1, ?_⟩
      simp [unlines]
    · refine ⟨t1 ++ [[10]] ++ t2, l1 :: b2, unlines l1 ++ [10] ++ o2, ?_, .cons h1 h2, (s1.append (.one (.plain (by decide)) (by decide))).append s2, ?_⟩
      · simp only [prettyPeers]
        rw [e1]
        show (prettyPeers env (q :: ps)).bind _ = _
        rw [e2]; rfl
      · simp only [ne_eq, reduceCtorEq, not_false_eq_true, if_true] at u2 ⊢
        rw [List.flatMap_cons, unlines_append, ← u2]
        simp [unlines]

end WG

namespace WG
open Spec

/-! ### sorting -/

theorem peerCmp_le (a b : Peer) : peerCmp a b ≤ 0 ↔ NewerOrSame a b := by
  simp only [peerCmp, NewerOrSame]
  split
  · rename_i h; constructor
    · intro h'; omega
    · rintro (h' | ⟨h', -⟩) <;> omega
  split
  · rename_i h; constructor
    · intro _; left; omega
    · intro _; omega
  · rename_i h1 h2
    by_cases hs : a.handshakeSec - b.handshakeSec = 0
    · simp only [hs, if_true]
      split
      · constructor
        · intro h; omega
        · rintro (h | ⟨h, h'⟩) <;> omega
      split
      · constructor
        · intro _; by_cases hb : b.handshakeSec = 0 ∧ b.handshakeNsec = 0
          · exact .inl hb
          · right; omega
        · intro _; omega
      · constructor
        · intro _; by_cases hb : b.handshakeSec = 0 ∧ b.handshakeNsec = 0
          · exact .inl hb
          · right; omega
        · intro _; omega
    · simp only [if_neg hs]
      split
      · constructor
        · intro h; omega
        · rintro (h | ⟨h, h'⟩) <;> omega
      split
      · constructor
        · intro _; by_cases hb : b.handshakeSec = 0 ∧ b.handshakeNsec = 0
          · exact .inl hb
          · right; omega
        · intro _; omega
      · omega

theorem peerCmp_anti (a b : Peer) : peerCmp a b = - peerCmp b a := by
  unfold peerCmp
  by_cases h1 : a.handshakeSec = 0 ∧ a.handshakeNsec = 0 ∧ (b.handshakeSec ≠ 0 ∨ b.handshakeNsec ≠ 0)
  · rw [if_pos h1, if_neg (by omega), if_pos h1]; rfl
  rw [if_neg h1]
  by_cases h2 : b.handshakeSec = 0 ∧ b.handshakeNsec = 0 ∧ (a.handshakeSec ≠ 0 ∨ a.handshakeNsec ≠ 0)
  · rw [if_pos h2, if_pos h2]
  rw [if_neg h2, if_neg h2, if_neg h1]
  dsimp only
  (repeat' split) <;> omega

theorem newer_trans (a b c : Peer) (h : NewerOrSame a b) (h' : NewerOrSame b c) : NewerOrSame a c := by
  simp only [NewerOrSame] at *
  omega

theorem map_getD_range (ps : List Peer) : (List.range ps.length).map (fun i => ps.getD i {}) = ps := by
  apply List.ext_getElem
  · simp
  · intro i h1 h2; simp at h1; simp [h1]

theorem sortPeers_spec (env : ShowEnv) (hq : IsQsort env.qsort) (ps : List Peer) :
    (sortPeers env ps).Perm ps ∧ (sortPeers env ps).Pairwise NewerOrSame := by
  simp only [sortPeers]
  split
  · rename_i h; subst h; exact ⟨.refl _, .nil⟩
  · obtain ⟨h1, h2⟩ := hq ps.length (fun i j => peerCmp (ps.getD i {}) (ps.getD j {})) (fun i j => peerCmp_anti _ _)
      (fun i j k h h' => by rw [peerCmp_le] at *; exact newer_trans _ _ _ h h')
    refine ⟨?_, ?_⟩
    · have := h1.map (fun i => ps.getD i {})
      rwa [map_getD_range] at this
    · rw [List.pairwise_map]
      exact h2.imp fun h => (peerCmp_le _ _).1 h

theorem Shows.strips {texts : List CStr} {out : List UInt8} (h : Shows texts out) : Strips texts.flatten out := by
  obtain ⟨outs, h, rfl⟩ := h
  induction h with
  | nil => exact .nil
  | cons h _ ih => simpa using h.1.append ih

theorem mapM_color (sc : Bool) (texts : List CStr) : texts.mapM (filterAnsi sc true) = some texts := by
  induction texts with
  | nil => rfl
  | cons t l ih => rw [List.mapM_cons, ih]; rfl

theorem prettyPrint_listing (env : ShowEnv) (hP : PlainTexts env) (d : Device) (hn : Plain d.name)
    (ht : ∀ p ∈ sortPeers env d.peers, env.now - p.handshakeSec < 10 ^ 20) (hne : sortPeers env d.peers = [] ↔ d.peers = []) :
    ∃ out shown, Listing (textsOf env) d (sortPeers env d.peers) shown ∧ prettyPrint env d = some out ∧
      (colorMode env.colorVar env.isatty = false → out = shown) ∧ (colorMode env.colorVar env.isatty = true → Stripped out shown) := by
  obtain ⟨texts, blocks, o, e, hb, hs, hu⟩ := prettyPeers_shows env hP _ ht
  have hall := (prettyDevice_shows env d hn).append hs
  have hout : unlines (deviceLines (textsOf env) d) ++ (if d.peers ≠ [] then [10] else []) ++ o =
      unlines (deviceLines (textsOf env) d ++ blocks.flatMap ([] :: ·)) := by
    rw [unlines_append, ← hu, List.append_assoc]
    simp only [ne_eq, hne]
  rw [hout] at hall
  cases hc : colorMode env.colorVar env.isatty
  · refine ⟨_, _, ⟨blocks, hb, rfl⟩, ?_, fun _ => rfl, by simp⟩
    have hm := hall.mapM env.sc
    rw [Option.map_eq_some_iff] at hm
    obtain ⟨outs, hm1, hm2⟩ := hm
    simp only [prettyPrint, e, hc, Option.bind_eq_bind, Option.bind_some, hm1, hm2]; rfl
  · refine ⟨(prettyDevice env d ++ texts).flatten, _, ⟨blocks, hb, rfl⟩, ?_, by simp, fun _ => hall.strips.stripped⟩
    simp only [prettyPrint, e, hc, Option.bind_eq_bind, Option.bind_some, mapM_color]; rfl

/-! ### secrets -/

def hidePsk (p : Peer) : Peer := { p with presharedKey := zeroKey }

theorem getD_map_hide (ps : List Peer) (i : Nat) : (ps.map hidePsk).getD i {} = hidePsk (ps.getD i {}) := by
  have h : hidePsk {} = {} := rfl
  simp only [List.getD_eq_getElem?_getD, List.getElem?_map]
  cases ps[i]? <;> simp [h]

theorem sortPeers_hide (env : ShowEnv) (ps : List Peer) : sortPeers env (ps.map hidePsk) = (sortPeers env ps).map hidePsk := by
  simp only [sortPeers, List.map_eq_nil_iff, List.length_map, getD_map_hide]
  split
  · rfl
  · simp [hidePsk, peerCmp]

theorem prettyPeer_hide (env : ShowEnv) (h : env.hideVar ≠ some b!"never") (p : Peer) : prettyPeer env (hidePsk p) = prettyPeer env p := by
  have h1 : prettyHandshake env (hidePsk p) = prettyHandshake env p := rfl
  have h2 : prettyKeepalive (hidePsk p) = prettyKeepalive p := rfl
  have h3 : ∀ k, maskedKey env.hideVar k = b!"(hidden)" := by intro k; simp only [maskedKey, if_neg h]
  simp only [prettyPeer, h1, h2, h3]
  rfl

theorem prettyPeers_hide (env : ShowEnv) (h : env.hideVar ≠ some b!"never") (ps : List Peer) : prettyPeers env (ps.map hidePsk) = prettyPeers env ps := by
  induction ps with
  | nil => rfl
  | cons p ps ih =>
    rcases ps with _ | ⟨q, ps⟩
    · exact prettyPeer_hide env h p
    · simp only [List.map_cons, prettyPeers] at ih ⊢
      rw [prettyPeer_hide env h, ih]

theorem prettyPrint_hide (env : ShowEnv) (h : env.hideVar ≠ some b!"never") (d : Device) :
    prettyPrint env (withoutSecrets d) = prettyPrint env d := by
  have e : (withoutSecrets d).peers = d.peers.map hidePsk := rfl
  have h3 : ∀ k, maskedKey env.hideVar k = b!"(hidden)" := by intro k; simp only [maskedKey, if_neg h]
  have : prettyDevice env (withoutSecrets d) = prettyDevice env d := by
    have hp : (withoutSecrets d).peers = [] ↔ d.peers = [] := by rw [e, List.map_eq_nil_iff]
    simp only [prettyDevice, h3, ne_eq, hp]
    rfl
  simp only [prettyPrint, e, sortPeers_hide, prettyPeers_hide env h, this]

end WG
