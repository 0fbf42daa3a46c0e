import Verif.Spec.ExtractHandshakes
import Verif.Proof.Show
import Verif.Proof.Dump
import Mathlib.Data.List.Induction
import Mathlib.Data.List.GetD
/-! contrib/extract-handshakes. -/
namespace WG.Handshakes
open WG.Spec WG.Spec.Handshakes

/-! ### Hexadecimal digits -/

def pair (b : UInt8) : CStr := [hexDigitLower (b.toNat / 16), hexDigitLower (b.toNat % 16)]
def pairs (l : List UInt8) : CStr := l.flatMap pair

/-- The bytes of a number without leading zeros, the highest first. -/
def be : Nat → Nat → List UInt8
  | 0, _ => []
  | f + 1, n => if n < 256 then [UInt8.ofNat n] else be f (n / 256) ++ [UInt8.ofNat (n % 256)]

theorem showHexAux_fuel (f g n : Nat) (hf : n < f) (hg : n < g) : showHexAux f n = showHexAux g n := by
  rw [showHexAux_eq f n hf, showHexAux_eq g n hg]

theorem hexadecimal_step (n : Nat) : hexadecimal n =
    if n < 16 then [hexDigitLower n] else hexadecimal (n / 16) ++ [hexDigitLower (n % 16)] := by
  rw [← showHexAux_eq (n + 1) n (by omega)]
  by_cases h : n < 16
  · simp [showHexAux, h]
  · simp only [showHexAux, h, if_false]
    rw [showHexAux_eq n (n / 16) (by omega)]

def evened (s : CStr) : CStr := if s.length % 2 = 1 then c!"0" :: s else s

theorem evened_append (s t : CStr) (h : t.length = 2) : evened (s ++ t) = evened s ++ t := by
  unfold evened
  rw [List.length_append, h, Nat.add_mod_right]
  split <;> simp

theorem evened_hex (f n : Nat) (h : n < f) : evened (hexadecimal n) = pairs (be f n) := by
  induction f generalizing n with
  | zero => omega
  | succ f ih =>
    by_cases h256 : n < 256
    · have : ∀ n : Fin 256, evened (showHexAux 3 n.1) = pairs [UInt8.ofNat n.1] := by decide +kernel
      have h1 := this ⟨n, h256⟩
      simp only at h1
      simp only [be, h256, if_true]
      rw [← h1]
      congr 1
      rw [hexadecimal_step]
      by_cases h16 : n < 16
      · simp [showHexAux, h16]
      · rw [if_neg h16, hexadecimal_step, if_pos (by omega)]
        simp only [showHexAux, h16, if_false]
        rw [if_pos (by omega)]
    · simp only [be, h256, if_false]
      rw [hexadecimal_step, if_neg (by omega), hexadecimal_step (n / 16), if_neg (by omega)]
      rw [List.append_assoc, evened_append _ _ rfl, Nat.div_div_eq_div_mul, ih (n / 256) (by omega)]
      have e : pairs [UInt8.ofNat (n % 256)] = [hexDigitLower (n / 16 % 16)] ++ [hexDigitLower (n % 16)] := by
        have h1 : (UInt8.ofNat (n % 256)).toNat = n % 256 := by simp
        simp only [pairs, pair, List.flatMap_cons, List.flatMap_nil, List.append_nil, h1]
        have a1 : n % 256 / 16 = n / 16 % 16 := by omega
        have a2 : n % 256 % 16 = n % 16 := by omega
        rw [a1, a2]; rfl
      rw [← e]
      simp [pairs]

def sig (l : List UInt8) : List UInt8 := l.dropWhile fun c => decide (c = 0)

theorem sig_nil (l : List UInt8) : sig l = [] ↔ ∀ c ∈ l, c = 0 := by
  induction l with
  | nil => simp [sig]
  | cons b l ih =>
    unfold sig at ih ⊢
    by_cases hb : b = 0
    · rw [List.dropWhile_cons_of_pos (by simpa using hb), ih]; simp [hb]
    · rw [List.dropWhile_cons_of_neg (by simpa using hb)]; simp [hb]

theorem value_zero (g : List UInt8) : value g = 0 ↔ ∀ c ∈ g, c = 0 := by
  induction g with
  | nil => simp [value]
  | cons b r ih =>
    simp only [value, List.mem_cons, forall_eq_or_imp, ← ih]
    constructor
    · intro h
      exact ⟨UInt8.toNat_inj.1 (by simp; omega), by omega⟩
    · rintro ⟨rfl, h⟩; simp [h]

theorem be_value (g : List UInt8) (hne : g ≠ []) (f : Nat) (h : value g < f) :
    be f (value g) = if sig g.reverse = [] then [0] else sig g.reverse := by
  induction g generalizing f with
  | nil => exact absurd rfl hne
  | cons b r ih =>
    obtain ⟨f, rfl⟩ : ∃ f', f = f' + 1 := ⟨f - 1, by omega⟩
    have hb := b.toNat_lt
    have erev : (b :: r).reverse = r.reverse ++ [b] := by simp
    by_cases hz : value r = 0
    · have hr := (value_zero r).1 hz
      simp only [be, value, hz, Nat.mul_zero, Nat.add_zero]
      rw [if_pos (by omega), UInt8.ofNat_toNat, erev]
      have : sig (r.reverse ++ [b]) = sig [b] := by
        unfold sig
        rw [List.dropWhile_append_of_pos]
        intro c hc
        simpa using hr c (List.mem_reverse.1 hc)
      rw [this]
      by_cases hb0 : b = 0
      · subst hb0; rfl
      · simp [sig, hb0]
    · have hne' : sig r.reverse ≠ [] := by
        intro hc
        apply hz
        rw [value_zero]
        intro c hcm
        exact (sig_nil _).1 hc c (List.mem_reverse.2 hcm)
      have hrne : r ≠ [] := by rintro rfl; exact hz rfl
      have hv : value (b :: r) = b.toNat + 256 * value r := rfl
      rw [hv] at h ⊢
      rw [be, if_neg (by omega)]
      have e1 : (b.toNat + 256 * value r) / 256 = value r := by omega
      have e2 : (b.toNat + 256 * value r) % 256 = b.toNat := by omega
      rw [e1, e2, UInt8.ofNat_toNat, ih hrne f (by omega), if_neg hne', erev]
      have : sig (r.reverse ++ [b]) = sig r.reverse ++ [b] := by
        unfold sig at hne' ⊢
        rw [List.dropWhile_append, if_neg (by simpa using hne')]
      rw [this, if_neg (by simp)]

theorem hex_of_bytes (g : List UInt8) (hne : g ≠ []) :
    evened (hexadecimal (value g)) = pairs (if sig g.reverse = [] then [0] else sig g.reverse) := by
  rw [evened_hex (value g + 1) _ (by omega), be_value g hne _ (by omega)]

/-! ### Escapes -/

def esc (b : UInt8) : CStr := b!"\\x" ++ pair b

theorem printfBytes_esc (b : UInt8) (r : CStr) : printfBytes (esc b ++ r) = b :: printfBytes r := by
  have h1 : ∀ b : UInt8, hexVal (hexDigitLower (b.toNat / 16)) = some (b.toNat / 16) ∧ hexVal (hexDigitLower (b.toNat % 16)) = some (b.toNat % 16) := by
    apply forall_u8; decide +kernel
  have e : esc b ++ r = 92 :: 120 :: hexDigitLower (b.toNat / 16) :: hexDigitLower (b.toNat % 16) :: r := rfl
  rw [e]
  simp only [printfBytes, (h1 b).1, (h1 b).2]
  rw [show b.toNat / 16 * 16 + b.toNat % 16 = b.toNat by omega]
  simp

theorem printfBytes_escs (l : List UInt8) : printfBytes (l.flatMap esc) = l := by
  induction l with
  | nil => rfl
  | cons b l ih => rw [List.flatMap_cons, printfBytes_esc, ih]

theorem pairs_append (l m : List UInt8) : pairs (l ++ m) = pairs l ++ pairs m := by simp [pairs]

theorem pairs_length (l : List UInt8) : (pairs l).length = 2 * l.length := by
  induction l with
  | nil => rfl
  | cons b l ih => simp only [pairs, List.flatMap_cons, List.length_append] at ih ⊢; rw [ih]; simp [pair]; omega

theorem pairs_zeros (n : Nat) : pairs (List.replicate n 0) = List.replicate (2 * n) c!"0" := by
  induction n with
  | zero => rfl
  | succ n ih =>
    rw [List.replicate_succ, show 2 * (n + 1) = 2 * n + 1 + 1 by omega, List.replicate_succ, List.replicate_succ, ← ih]
    rfl

theorem pairs_get (l : List UInt8) (j : Nat) (h : j < l.length) : ((pairs l).drop (j * 2)).take 2 = pair l[j] := by
  induction l generalizing j with
  | nil => simp at h
  | cons b l ih =>
    cases j with
    | zero => rfl
    | succ j =>
      have : pairs (b :: l) = hexDigitLower (b.toNat / 16) :: hexDigitLower (b.toNat % 16) :: pairs l := rfl
      rw [this, show (j + 1) * 2 = j * 2 + 1 + 1 by omega, List.drop_succ_cons, List.drop_succ_cons]
      exact ih j (by simpa using h)

theorem sig_split (l : List UInt8) : l = List.replicate (l.takeWhile fun c => decide (c = 0)).length 0 ++ sig l := by
  conv => lhs; rw [← List.takeWhile_append_dropWhile (p := fun c => decide (c = 0)) (l := l)]
  congr 1
  rw [List.eq_replicate_iff]
  refine ⟨rfl, ?_⟩
  intro c hc
  have := List.all_takeWhile (p := fun c : UInt8 => decide (c = 0)) (l := l)
  simpa using List.all_eq_true.1 this c hc

theorem unpack_big (g : List UInt8) (h8 : g.length = 8) : unpack .big (hexadecimal (value g.reverse)) = g.flatMap esc := by
  have hne : g.reverse ≠ [] := by intro hc; simp at hc; subst hc; simp at h8
  have h := hex_of_bytes g.reverse hne
  rw [List.reverse_reverse] at h
  have hs := sig_split g
  have hl := congrArg List.length hs
  rw [h8, List.length_append, List.length_replicate] at hl
  have key : List.replicate (16 - (hexadecimal (value g.reverse)).length) c!"0" ++ hexadecimal (value g.reverse) = pairs g := by
    have hlen := congrArg List.length h
    rw [pairs_length] at hlen
    have e1 : pairs g = List.replicate (16 - (evened (hexadecimal (value g.reverse))).length) c!"0" ++ evened (hexadecimal (value g.reverse)) := by
      rw [h, pairs_length]
      conv => lhs; rw [hs]
      by_cases hz : sig g = []
      · rw [hz] at hl ⊢
        rw [if_pos rfl]
        simp at hl
        rw [← hl]
        decide
      · rw [if_neg hz, pairs_append, pairs_zeros]
        congr 2
        omega
    rw [e1]
    unfold evened
    split
    · rename_i ho
      rw [evened, if_pos ho] at hlen
      have : (if sig g = [] then [0] else sig g).length ≤ 8 := by
        split
        · decide
        · omega
      simp only [List.length_cons] at hlen ⊢
      rw [show 16 - (hexadecimal (value g.reverse)).length = (16 - ((hexadecimal (value g.reverse)).length + 1)) + 1 by omega]
      rw [List.replicate_succ']
      simp
    · rfl
  unfold unpack
  simp only
  rw [key]
  match g, h8 with
  | [a, b, c, d, e, f, g, h], _ => rfl

theorem unpack_little (g : List UInt8) (h8 : g.length = 8) : unpack .little (hexadecimal (value g)) = (shifted g).flatMap esc := by
  have hne : g ≠ [] := by rintro rfl; simp at h8
  have h := hex_of_bytes g hne
  have hs := sig_split g.reverse
  have hl := congrArg List.length hs
  rw [List.length_reverse, h8, List.length_append, List.length_replicate] at hl
  unfold evened at h
  unfold unpack
  simp only
  rw [h]
  generalize hB : (if sig g.reverse = [] then [0] else sig g.reverse) = B
  have hB8 : B.length ≤ 8 := by
    rw [← hB]; split
    · decide
    · omega
  have hsh : shifted g = (B ++ List.replicate (8 - B.length) 0).reverse := by
    unfold shifted
    simp only
    by_cases hz : sig g.reverse = []
    · rw [if_pos hz] at hB
      rw [hz] at hl
      simp at hl
      rw [← hl, ← hB]; rfl
    · rw [if_neg hz] at hB
      subst hB
      rw [List.reverse_append, List.reverse_replicate]
      have e : g.take (8 - (g.reverse.takeWhile fun c => decide (c = 0)).length) = (sig g.reverse).reverse := by
        have hg := congrArg List.reverse hs
        rw [List.reverse_reverse, List.reverse_append, List.reverse_replicate] at hg
        generalize (g.reverse.takeWhile fun c => decide (c = 0)).length = n at *
        conv => lhs; rw [hg]
        rw [List.take_append_of_le_length (by rw [List.length_reverse]; omega), List.take_of_length_le (by rw [List.length_reverse]; omega)]
      rw [e]
      congr 2
      omega
  rw [show List.replicate 16 c!"0" = pairs (List.replicate 8 0) by decide, ← pairs_append]
  have e8 : B ++ List.replicate 8 0 = (shifted g).reverse ++ List.replicate B.length 0 := by
    rw [hsh, List.reverse_reverse, List.append_assoc, ← List.replicate_add]
    congr 2; omega
  have hsl : (shifted g).length = 8 := by rw [hsh]; simp; omega
  rw [e8, pairs_append]
  generalize pairs (List.replicate B.length 0) = z
  match shifted g, hsl with
  | [a, b, c, d, e, f, g, h], _ => rfl

/-! ### Matching -/

theorem tail_unique (isx : UInt8 → Bool) (X Y v w : CStr) (c : UInt8) (hc : isx c = false) (hv : ∀ x ∈ v, isx x = true) (hw : ∀ x ∈ w, isx x = true)
    (h : X ++ c :: v = Y ++ c :: w) : X = Y ∧ v = w := by
  have h1 := congrArg List.reverse h
  simp only [List.reverse_append, List.reverse_cons, List.append_assoc, List.singleton_append] at h1
  have h2 := congrArg (List.takeWhile isx) h1
  rw [List.takeWhile_append_of_pos (by simpa using hv), List.takeWhile_append_of_pos (by simpa using hw)] at h2
  simp [hc] at h2
  subst h2
  have h3 := List.append_cancel_left h1
  simp at h3
  exact ⟨h3, rfl⟩

theorem fields_snoc (ns vs : List CStr) (n v : CStr) (h : vs.length = ns.length) :
    fields (ns ++ [n]) (vs ++ [v]) = fields ns vs ++ (b!" " ++ n ++ b!"=0") ++ c!"x" :: v := by
  unfold fields
  rw [List.zip_append h.symm]
  simp

def hexB (c : UInt8) : Bool := (48 ≤ c ∧ c ≤ 57) ∨ (97 ≤ c ∧ c ≤ 102)

theorem fields_unique (names vs ws : List CStr) (P Q : CStr) (hv : vs.length = names.length) (hw : ws.length = names.length)
    (hvx : ∀ v ∈ vs, IsHex v) (hwx : ∀ v ∈ ws, IsHex v) (h : P ++ fields names vs = Q ++ fields names ws) : vs = ws := by
  induction names using List.reverseRecOn generalizing vs ws with
  | nil => rw [List.length_eq_zero_iff.1 hv, List.length_eq_zero_iff.1 hw]
  | append_singleton ns n ih =>
    rcases List.eq_nil_or_concat vs with rfl | ⟨vs, v, rfl⟩
    · simp at hv
    rcases List.eq_nil_or_concat ws with rfl | ⟨ws, w, rfl⟩
    · simp at hw
    simp only [List.concat_eq_append, List.length_append, List.length_cons, List.length_nil, Nat.zero_add, Nat.add_right_cancel_iff, List.mem_append,
      List.mem_singleton] at *
    rw [fields_snoc _ _ _ _ hv, fields_snoc _ _ _ _ hw, ← List.append_assoc P, ← List.append_assoc Q] at h
    obtain ⟨h1, rfl⟩ := tail_unique hexB _ _ v w c!"x" (by decide)
      (fun x hx => by simpa [hexB] using (hvx v (Or.inr rfl)).2 x hx) (fun x hx => by simpa [hexB] using (hwx w (Or.inr rfl)).2 x hx) h
    rw [← List.append_assoc P, ← List.append_assoc Q] at h1
    have h2 := List.append_cancel_right h1
    rw [ih vs ws hv hw (fun v hv => hvx v (Or.inl hv)) (fun v hv => hwx v (Or.inl hv)) h2]

theorem posix_line {re} (hre : Posix re) (names vals : List CStr) (hv : vals.length = names.length) (hx : ∀ v ∈ vals, IsHex v) (a b : CStr) :
    re names (a ++ b!": idxadd: " ++ b ++ fields names vals) = some vals := by
  have hm : Matches names (a ++ b!": idxadd: " ++ b ++ fields names vals) vals [] := ⟨hv, hx, a, b, by simp⟩
  have h := hre names (a ++ b!": idxadd: " ++ b ++ fields names vals)
  cases hr : re names (a ++ b!": idxadd: " ++ b ++ fields names vals) with
  | none => rw [hr] at h; exact absurd hm (h vals [])
  | some caps =>
    rw [hr] at h
    obtain ⟨rest, ⟨h1, h2, a', b', h3⟩, hl⟩ := h
    have := hl vals [] hm
    simp at this
    subst this
    rw [List.append_nil] at h3
    rw [fields_unique names vals caps _ _ hv h1 hx h2 h3]

theorem hexadecimal_isHex (n : Nat) : IsHex (hexadecimal n) := by
  induction n using Nat.strongRecOn with
  | _ n ih =>
    have d : ∀ k : Fin 16, (48 ≤ hexDigitLower k.1 ∧ hexDigitLower k.1 ≤ 57) ∨ (97 ≤ hexDigitLower k.1 ∧ hexDigitLower k.1 ≤ 102) := by decide
    rw [hexadecimal_step]
    split
    · rename_i h
      refine ⟨by simp, ?_⟩
      intro c hc
      rw [List.mem_singleton] at hc; subst hc
      exact d ⟨n, h⟩
    · rename_i h
      refine ⟨by simp, ?_⟩
      intro c hc
      rcases List.mem_append.1 hc with hc | hc
      · exact (ih (n / 16) (by omega)).2 c hc
      · rw [List.mem_singleton] at hc; subst hc
        exact d ⟨n % 16, by omega⟩

/-! ### The probe -/

theorem wanted_names (srcs : List Source) : (wanted srcs).map (·.1) = regexNames srcs := by
  unfold wanted regexNames
  induction srcs with
  | nil => rfl
  | cons s srcs ih => rw [List.flatMap_cons, List.map_append, ih, List.flatMap_cons]; rfl

theorem probe_text (reg : CStr) (srcs : List Source) : probeText reg srcs = probe reg (wanted srcs) := by
  unfold probeText probe wanted
  congr 3
  induction srcs with
  | nil => rfl
  | cons s srcs ih =>
    rw [List.flatMap_cons, List.flatMap_cons, List.map_append, ← ih]
    congr 1
    have one : ∀ i, argText reg s i = argName s i ++ b!"=" ++ Fetch.text reg (.deref (i * 8 + s.offset) (base s)) ++ b!":x64" := by
      intro i
      unfold argText base
      cases hi : s.indirection <;> simp [Fetch.text, showDec_eq]
    simp only [one]
    rfl

/-- The value of one argument. -/
theorem wanted_value (m : Machine) (s : Source) (i : Nat) : Fetch.eval m (.deref (i * 8 + s.offset) (base s)) 8 = load m 8 (place m s + 8 * i) := by
  unfold place base
  cases s.indirection with
  | none => simp only [Fetch.eval]; congr 1; omega
  | some ind => simp only [Fetch.eval]; congr 1; omega

def valuesOf (m : Machine) (s : Source) : List CStr := [0, 1, 2, 3].map fun i => hexadecimal (load m 8 (place m s + 8 * i))

theorem wanted_values (m : Machine) (srcs : List Source) :
    ((wanted srcs).map fun a => hexadecimal (a.2.eval m 8)) = srcs.flatMap (valuesOf m) := by
  unfold wanted
  induction srcs with
  | nil => rfl
  | cons s srcs ih =>
    rw [List.flatMap_cons, List.map_append, ih, List.flatMap_cons]
    refine congrArg (· ++ _) ?_
    rw [List.map_map, valuesOf]
    refine List.map_congr_left ?_
    intro i _
    simp only [Function.comp_apply]
    rw [wanted_value]

theorem flat4 {α β : Type} (f : α → List β) (hf : ∀ a, (f a).length = 4) (l : List α) (j : Nat) (hj : j < l.length) (i : Nat) (hi : i < 4) (d : β) :
    (l.flatMap f).getD (4 * j + i) d = (f l[j]).getD i d := by
  induction l generalizing j with
  | nil => simp at hj
  | cons a l ih =>
    rw [List.flatMap_cons]
    cases j with
    | zero =>
      rw [List.getD_append _ _ _ _ (by rw [hf]; omega)]
      simp
    | succ j =>
      rw [List.getD_append_right _ _ _ _ (by rw [hf]; omega), hf, show 4 * (j + 1) + i - 4 = 4 * j + i by omega]
      exact ih j (by simpa using hj)

theorem zipIdx_map {α β : Type} (l : List α) (f : α × Nat → β) (g : α → β) (h : ∀ j (hj : j < l.length), f (l[j], j) = g l[j]) :
    l.zipIdx.map f = l.map g := by
  apply List.ext_getElem
  · simp
  · intro j h1 h2
    simp at h1
    simpa using h j h1

theorem bytesAt_group (m : Machine) (a i : Nat) (hi : i < 4) : bytesAt m (a + 8 * i) 8 = ((bytesAt m a 32).drop (8 * i)).take 8 := by
  unfold bytesAt
  rw [← List.map_drop, ← List.map_take]
  have : ∀ i : Fin 4, ((List.range 32).drop (8 * i.1)).take 8 = (List.range 8).map (· + 8 * i.1) := by decide
  rw [this ⟨i, hi⟩, List.map_map]
  apply List.map_congr_left
  intro j _
  simp only [Function.comp]
  congr 1; omega

/-- What is printed: the words, each as `word` makes it. -/
theorem shown_eq (m : Machine) {re} (hre : Posix re) (srcs : List Source) (header place' : CStr) (word : List UInt8 → List UInt8)
    (hw : ∀ a, unpack m.endian (hexadecimal (load m 8 a)) = (word (bytesAt m a 8)).flatMap esc) :
    shown m.endian re srcs (traceLine m (wanted srcs) header place') =
      report srcs fun s => [0, 1, 2, 3].flatMap fun i => word (((keyAt m s).drop (8 * i)).take 8) := by
  unfold shown traceLine report
  rw [wanted_names, wanted_values]
  rw [posix_line hre]
  · simp only
    congr 1
    apply zipIdx_map
    intro j hj
    simp only
    congr 2
    have e : ((List.range 4).flatMap fun i => unpack m.endian ((srcs.flatMap (valuesOf m)).getD (4 * j + i) [])) =
        ([0, 1, 2, 3].flatMap fun i => word (((keyAt m srcs[j]).drop (8 * i)).take 8)).flatMap esc := by
      have hr : List.range 4 = [0, 1, 2, 3] := by decide
      have one : ∀ i, i < 4 → unpack m.endian ((srcs.flatMap (valuesOf m)).getD (4 * j + i) []) =
          (word (((keyAt m srcs[j]).drop (8 * i)).take 8)).flatMap esc := by
        intro i hi
        rw [flat4 (valuesOf m) (by intro a; rfl) srcs j hj i hi]
        have : (valuesOf m srcs[j]).getD i [] = hexadecimal (load m 8 (place m srcs[j] + 8 * i)) := by
          have : i = 0 ∨ i = 1 ∨ i = 2 ∨ i = 3 := by omega
          rcases this with rfl | rfl | rfl | rfl <;> rfl
        rw [this, hw, bytesAt_group _ _ _ hi]
        rfl
      rw [hr]
      simp only [List.flatMap_cons, List.flatMap_nil, List.append_nil, one 0 (by omega), one 1 (by omega), one 2 (by omega), one 3 (by omega),
        List.flatMap_append]
    rw [e, printfBytes_escs]
  · have : ∀ l : List Source, (l.flatMap (valuesOf m)).length = (regexNames l).length := by
      intro l
      unfold regexNames
      induction l with
      | nil => rfl
      | cons s l ih => rw [List.flatMap_cons, List.length_append, ih, List.flatMap_cons, List.length_append]; rfl
    exact this srcs
  · intro v hv
    obtain ⟨s, -, hv⟩ := List.mem_flatMap.1 hv
    obtain ⟨i, -, rfl⟩ := List.mem_map.1 hv
    exact hexadecimal_isHex _

end WG.Handshakes
