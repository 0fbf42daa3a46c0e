import Verif.Model.Terminal
import Verif.Spec.Terminal
import Verif.Proof.Encoding
namespace WG
open Spec

/-- list view of `blankSeq` -/
def zeroTo : List UInt8 → List UInt8
  | [] => []
  | c :: t => if isAlpha c then 0 :: t else 0 :: zeroTo t

/-- list view of `blankLoop` -/
def blankN : Nat → List UInt8 → List UInt8
  | n + 1, c :: d :: x :: t => if c = 27 ∧ d = c!"[" then 0 :: blankN n (0 :: zeroTo (x :: t)) else c :: blankN n (d :: x :: t)
  | _, l => l

theorem zeroTo_length (l : List UInt8) : (zeroTo l).length = l.length := by
  induction l with
  | nil => rfl
  | cons c t ih => simp only [zeroTo]; split <;> simp [ih]

theorem blankN_length (n : Nat) (l : List UInt8) : (blankN n l).length = l.length := by
  induction n generalizing l with
  | zero => simp [blankN]
  | succ n ih =>
    match l with
    | [] => rfl
    | [_] => rfl
    | [_, _] => rfl
    | c :: d :: x :: t => simp only [blankN]; split <;> simp [ih, zeroTo_length]

theorem rd_mid (pre : List UInt8) (c : UInt8) (t : List UInt8) : rd (pre ++ c :: t) pre.length = some c := by
  simp [rd]
theorem wr_mid (pre : List UInt8) (c v : UInt8) (t : List UInt8) : wr (pre ++ c :: t) pre.length v = some (pre ++ v :: t) := by
  simp [wr]

theorem blankSeq_eq (sc : Bool) (suf pre : List UInt8) :
    blankSeq sc suf.length pre.length (pre ++ suf ++ [0]) = some (pre ++ zeroTo suf ++ [0]) := by
  induction suf generalizing pre with
  | nil => simp [blankSeq, zeroTo, wr]
  | cons c t ih =>
    simp only [List.length_cons, blankSeq, List.append_assoc, List.cons_append, rd_mid, charIsAlpha_spec, zeroTo, wr_mid,
      Option.bind_eq_bind, Option.bind_some]
    split
    · rfl
    · have := ih (pre ++ [0])
      simpa using this

theorem blankLoop_eq (sc : Bool) (n : Nat) (suf pre : List UInt8) (h : suf.length = n + 2) :
    blankLoop sc (pre.length + suf.length) n pre.length (pre ++ suf ++ [0]) = some (pre ++ blankN n suf ++ [0]) := by
  induction n generalizing suf pre with
  | zero => simp [blankLoop, blankN]
  | succ n ih =>
    match suf, h with
    | c :: d :: x :: t, h =>
      simp only [blankLoop, List.append_assoc, List.cons_append, rd_mid, Option.bind_eq_bind, Option.bind_some]
      have e1 : rd (pre ++ c :: d :: x :: (t ++ [0])) (pre.length + 1) = some d := by
        have := rd_mid (pre ++ [c]) d (x :: (t ++ [0])); simpa using this
      have e2 : wr (pre ++ c :: d :: x :: (t ++ [0])) (pre.length + 1) 0 = some (pre ++ c :: 0 :: x :: (t ++ [0])) := by
        have := wr_mid (pre ++ [c]) d 0 (x :: (t ++ [0])); simpa using this
      simp only [e1, e2, Option.bind_some, wr_mid, blankN]
      have step : ∀ (y : UInt8) (s : List UInt8), s.length = n + 2 →
          blankLoop sc (pre.length + (c :: d :: x :: t).length) n (pre.length + 1) (pre ++ y :: (s ++ [0])) =
            some (pre ++ y :: (blankN n s ++ [0])) := by
        intro y s hs
        have := ih s (pre ++ [y]) hs
        simp only [List.length_append, List.length_cons, List.length_nil, List.append_assoc, List.cons_append, List.nil_append] at this
        rw [← this]
        congr 1
        simp only [List.length_cons] at h ⊢; omega
      have e3 : blankSeq sc (pre.length + (c :: d :: x :: t).length - (pre.length + 2)) (pre.length + 2) (pre ++ 0 :: 0 :: x :: (t ++ [0]))
          = some (pre ++ 0 :: 0 :: (zeroTo (x :: t) ++ [0])) := by
        have := blankSeq_eq sc (x :: t) (pre ++ [0, 0])
        simp only [List.length_append, List.length_cons, List.length_nil, List.append_assoc, List.cons_append, List.nil_append] at this
        rw [← this]
        congr 1
        simp only [List.length_cons]; omega
      by_cases hc : c = 27
      · rw [if_pos hc]
        by_cases hd : d = c!"["
        · rw [if_pos hd, e3, if_pos ⟨hc, hd⟩]
          simp only [Option.bind_some]
          rw [← List.cons_append, step 0 (0 :: zeroTo (x :: t)) (by simp [zeroTo_length]; simp at h; omega)]
          simp
        · rw [if_neg hd, if_neg (fun e => hd e.2)]
          have := step c (d :: x :: t) (by simp at h ⊢; omega)
          simpa using this
      · rw [if_neg hc, if_neg (fun e => hc e.1)]
        have := step c (d :: x :: t) (by simp at h ⊢; omega)
        simpa using this

theorem skipNul_eq (suf pre : List UInt8) :
    skipNul (pre ++ suf ++ [0]) suf.length pre.length = some (pre.length + (suf.takeWhile (· = 0)).length) := by
  induction suf generalizing pre with
  | nil => simp [skipNul]
  | cons c t ih =>
    simp only [List.length_cons, skipNul, List.append_assoc, List.cons_append, rd_mid, Option.bind_eq_bind, Option.bind_some]
    by_cases hc : c = 0
    · subst hc
      have := ih (pre ++ [0])
      simp only [List.length_append, List.length_cons, List.length_nil, List.append_assoc, List.cons_append, List.nil_append] at this
      simp [this]; omega
    · simp [hc]

theorem strAt_eq (pre suf : List UInt8) : strAt (pre ++ suf ++ [0]) pre.length = some (suf.takeWhile (· ≠ 0)) := by
  have e : (suf ++ [(0 : UInt8)]).takeWhile (· ≠ 0) = suf.takeWhile (· ≠ 0) := by
    induction suf with
    | nil => simp
    | cons c t ih => simp only [List.cons_append, List.takeWhile_cons, ih]
  have hl : (suf.takeWhile (· ≠ 0)).length ≤ suf.length := (List.takeWhile_prefix _).length_le
  simp only [strAt, List.append_assoc, List.drop_left, e]
  rw [if_pos]
  simp only [List.length_append, List.length_cons, List.length_nil]
  omega

theorem filter_takeWhile_zero (l : List UInt8) : (l.takeWhile (· = 0)).filter (· ≠ 0) = [] := by
  rw [List.filter_eq_nil_iff]; intro x hx
  have := List.all_takeWhile (p := fun x : UInt8 => decide (x = 0)) (l := l)
  rw [List.all_eq_true] at this
  simpa using this x hx
theorem filter_takeWhile_ne (l : List UInt8) : (l.takeWhile (· ≠ 0)).filter (· ≠ 0) = l.takeWhile (· ≠ 0) := by
  rw [List.filter_eq_self]; intro x hx
  have := List.all_takeWhile (p := fun x : UInt8 => decide (x ≠ 0)) (l := l)
  rw [List.all_eq_true] at this
  simpa using this x hx

theorem putLoop_eq (fuel : Nat) (suf pre : List UInt8) (h : suf.length ≤ fuel) :
    putLoop (pre ++ suf ++ [0]) (pre.length + suf.length) fuel pre.length = some (suf.filter (· ≠ 0)) := by
  induction fuel generalizing suf pre with
  | zero =>
    have : suf = [] := List.length_eq_zero_iff.1 (by omega)
    subst this; simp [putLoop]
  | succ fuel ih =>
    by_cases hs : suf = []
    · subst hs; simp [putLoop]
    have hpos : 0 < suf.length := List.length_pos_iff.2 hs
    simp only [putLoop, if_pos (show pre.length < pre.length + suf.length by omega), strAt_eq, Option.bind_eq_bind, Option.bind_some]
    have hsplit := List.takeWhile_append_dropWhile (p := fun x : UInt8 => decide (x ≠ 0)) (l := suf)
    generalize ha : suf.takeWhile (· ≠ 0) = a at *
    generalize hb : suf.dropWhile (· ≠ 0) = b at *
    have hfa : a.filter (· ≠ 0) = a := by rw [← ha]; exact filter_takeWhile_ne suf
    have hlen : a.length + b.length = suf.length := by rw [← hsplit]; simp
    have e := skipNul_eq b (pre ++ a)
    have hsplit2 := List.takeWhile_append_dropWhile (p := fun x : UInt8 => decide (x = 0)) (l := b)
    have hz := filter_takeWhile_zero b
    generalize hz1 : b.takeWhile (· = 0) = z at *
    generalize hr : b.dropWhile (· = 0) = r at *
    have e' : skipNul (pre ++ suf ++ [0]) (pre.length + suf.length - (pre.length + a.length)) (pre.length + a.length) =
        some (pre.length + a.length + z.length) := by
      rw [show pre.length + suf.length - (pre.length + a.length) = b.length by omega, ← hsplit]
      simpa using e
    rw [e']
    simp only [Option.bind_some]
    have hprog : r.length ≤ fuel := by
      have h2 : z.length + r.length = b.length := by rw [← hsplit2]; simp
      have : 0 < a.length ∨ 0 < z.length := by
        rcases suf with _ | ⟨c, t⟩
        · exact absurd rfl hs
        · by_cases hc : c = 0
          · right; subst hc
            simp at hb; subst hb; simp at hz1; subst hz1; simp
          · left; simp [hc] at ha; subst ha; simp
      omega
    have key := ih r (pre ++ a ++ z) hprog
    have e3 : pre ++ a ++ z ++ r ++ [0] = pre ++ suf ++ [0] := by rw [← hsplit, ← hsplit2]; simp
    have e4 : (pre ++ a ++ z).length + r.length = pre.length + suf.length := by
      rw [← hsplit, ← hsplit2]; simp; omega
    rw [e3, e4, show (pre ++ a ++ z).length = pre.length + a.length + z.length by simp; omega] at key
    rw [key]
    rw [← hsplit, ← hsplit2]
    simp only [List.filter_append, hfa, hz, List.nil_append]; rfl

theorem blankN_zeros (k n : Nat) (t : List UInt8) : blankN (k + n) (List.replicate k 0 ++ t) = List.replicate k 0 ++ blankN n t ∨ (t.length ≤ 2) := by
  by_cases ht : t.length ≤ 2
  · exact .inr ht
  left
  induction k with
  | zero => simp
  | succ k ih =>
    rw [List.replicate_succ, List.cons_append, List.cons_append, ← ih]
    have : ∃ d x r, List.replicate k 0 ++ t = d :: x :: r := by
      match hh : List.replicate k 0 ++ t with
      | [] => have := congrArg List.length hh; rw [List.length_append, List.length_nil] at this; omega
      | [_] => have := congrArg List.length hh; rw [List.length_append] at this; simp only [List.length_cons, List.length_nil] at this; omega
      | d :: x :: r => exact ⟨d, x, r, rfl⟩
    obtain ⟨d, x, r, hr⟩ := this
    rw [hr, show k + 1 + n = (k + n) + 1 by omega, blankN, if_neg (by simp)]

theorem stripped_short (t : List UInt8) (h : t.length ≤ 2) : Stripped t t := by
  match t with
  | [] => exact .nil
  | [c] => exact .char (by simp) .nil
  | [c, d] => exact .char (by simp) (.char (by simp) .nil)

theorem zeroTo_split (t : List UInt8) :
    (∃ params l rest, t = params ++ l :: rest ∧ (∀ c ∈ params, isAlpha c = false) ∧ isAlpha l = true ∧
      zeroTo t = List.replicate (params.length + 1) 0 ++ rest) ∨
    ((∀ c ∈ t, isAlpha c = false) ∧ zeroTo t = List.replicate t.length 0) := by
  induction t with
  | nil => right; simp [zeroTo]
  | cons c t ih =>
    by_cases hc : isAlpha c
    · left; exact ⟨[], c, t, rfl, by simp, hc, by simp [zeroTo, hc]⟩
    · simp only [zeroTo, hc]
      rcases ih with ⟨p, l, r, rfl, hp, hl, e⟩ | ⟨hp, e⟩
      · left; exact ⟨c :: p, l, r, rfl, by simpa [hc] using hp, hl, by simp [e, List.replicate_succ]⟩
      · right; exact ⟨by simpa [hc] using hp, by simp [e, List.replicate_succ]⟩

theorem filter_rep (k : Nat) : (List.replicate k (0 : UInt8)).filter (· ≠ 0) = [] := by
  simp

theorem blank_stripped (n : Nat) (t : List UInt8) (h : t.length = n + 2) (h0 : (0 : UInt8) ∉ t) :
    Stripped t ((blankN n t).filter (· ≠ 0)) := by
  induction n using Nat.strongRecOn generalizing t with
  | _ n ih =>
    match n with
    | 0 =>
      have e : (blankN 0 t).filter (· ≠ 0) = t := by
        simp only [blankN]; rw [List.filter_eq_self]; intro x hx; simpa using fun (e : x = 0) => h0 (e ▸ hx)
      rw [e]; exact stripped_short t (by omega)
    | n + 1 =>
      match t, h with
      | c :: d :: x :: t, h =>
        simp only [blankN]
        split
        · rename_i hcd
          obtain ⟨rfl, rfl⟩ := hcd
          rcases zeroTo_split (x :: t) with ⟨p, l, r, he, hp, hl, e⟩ | ⟨hp, e⟩
          · rw [e, he]
            rw [← List.cons_append (a := (0 : UInt8)), ← List.replicate_succ]
            have hlen : (x :: t).length = p.length + 1 + r.length := by rw [he]; simp; omega
            have hr0 : (0 : UInt8) ∉ r := by
              intro hm; apply h0; rw [he]; simp [hm]
            have hn : n + 1 = p.length + 1 + r.length := by simp only [List.length_cons] at h hlen; omega
            by_cases hr2 : r.length ≤ 2
            · -- too short for another sequence
              have hb : blankN n (List.replicate (p.length + 1 + 1) 0 ++ r) = List.replicate (p.length + 1 + 1) 0 ++ r := by
                have gen : ∀ (m k : Nat) (r : List UInt8), r.length ≤ 2 → blankN m (List.replicate k 0 ++ r) = List.replicate k 0 ++ r := by
                  intro m
                  induction m with
                  | zero => intro k r _; simp [blankN]
                  | succ m ihm =>
                    intro k r hr
                    rcases k with _ | k
                    · match r, hr with
                      | [], _ => rfl
                      | [_], _ => rfl
                      | [_, _], _ => rfl
                    · rw [List.replicate_succ, List.cons_append]
                      match hh : List.replicate k 0 ++ r with
                      | [] => rfl
                      | [_] => rfl
                      | d :: x :: q => rw [blankN, if_neg (by simp), ← hh, ihm k r hr]
                exact gen _ _ _ hr2
              rw [hb]
              have : ((0 : UInt8) :: (List.replicate (p.length + 1 + 1) 0 ++ r)).filter (· ≠ 0) = r := by
                rw [← List.cons_append (a := (0 : UInt8)), ← List.replicate_succ, List.filter_append, filter_rep, List.nil_append, List.filter_eq_self]
                intro y hy; simpa using fun (e : y = 0) => hr0 (e ▸ hy)
              rw [this]
              exact .seq hp hl (stripped_short r hr2)
            · have hb : blankN n (List.replicate (p.length + 1 + 1) 0 ++ r) = List.replicate (p.length + 1 + 1) 0 ++ blankN (r.length - 2) r := by
                have := blankN_zeros (p.length + 1 + 1) (r.length - 2) r
                rw [show p.length + 1 + 1 + (r.length - 2) = n by omega] at this
                exact this.resolve_right hr2
              rw [hb]
              have : ((0 : UInt8) :: (List.replicate (p.length + 1 + 1) 0 ++ blankN (r.length - 2) r)).filter (· ≠ 0) = (blankN (r.length - 2) r).filter (· ≠ 0) := by
                rw [← List.cons_append (a := (0 : UInt8)), ← List.replicate_succ, List.filter_append, filter_rep, List.nil_append]
              rw [this]
              exact .seq hp hl (ih (r.length - 2) (by omega) r (by omega) hr0)
          · rw [e, ← List.replicate_succ]
            have gen : ∀ (m k : Nat), blankN m (List.replicate k 0) = List.replicate k 0 := by
              intro m
              induction m with
              | zero => intro k; simp [blankN]
              | succ m ihm =>
                intro k
                match k with
                | 0 => rfl
                | 1 => rfl
                | 2 => rfl
                | k + 3 => rw [List.replicate_succ, List.replicate_succ, List.replicate_succ, blankN, if_neg (by simp), ← List.replicate_succ, ← List.replicate_succ, ihm]
            rw [gen, ← List.replicate_succ, filter_rep]
            exact .cut (by simp) hp
        · rename_i hcd
          have hc0 : c ≠ 0 := fun e => h0 (by simp [e])
          rw [List.filter_cons_of_pos (by simpa using hc0)]
          refine .char ?_ (ih n (by omega) _ (by simp at h ⊢; omega) (fun hm => h0 (List.mem_cons_of_mem _ hm)))
          rintro ⟨y, ys, he⟩
          simp only [List.cons.injEq] at he
          exact hcd ⟨he.1, he.2.1⟩

/-- `filter_ansi` with colours off: no access outside the buffer, and the output is the stripped text. -/
theorem filterAnsi_off (sc : Bool) (text : CStr) (h0 : (0 : UInt8) ∉ text) :
    ∃ out, filterAnsi sc false text = some out ∧ Stripped text out := by
  simp only [filterAnsi, Bool.false_eq_true, if_false]
  by_cases hl : text.length ≥ 2
  · have e := blankLoop_eq sc (text.length - 2) text [] (by omega)
    simp only [List.length_nil, Nat.zero_add, List.nil_append] at e
    have e2 := putLoop_eq text.length (blankN (text.length - 2) text) [] (by rw [blankN_length]; exact Nat.le_refl _)
    simp only [List.length_nil, Nat.zero_add, List.nil_append, blankN_length] at e2
    rw [if_pos hl, e]
    exact ⟨_, e2, blank_stripped _ _ (by omega) h0⟩
  · have e2 := putLoop_eq text.length text [] (Nat.le_refl _)
    simp only [List.length_nil, Nat.zero_add, List.nil_append] at e2
    rw [if_neg hl]
    refine ⟨_, e2, ?_⟩
    rw [List.filter_eq_self.2 (by intro x hx; simpa using fun (e : x = 0) => h0 (e ▸ hx))]
    exact stripped_short _ (by omega)

theorem params_unique {p p' : List UInt8} {l l' : UInt8} {r r' : List UInt8} (hp : ∀ c ∈ p, isAlpha c = false) (hp' : ∀ c ∈ p', isAlpha c = false)
    (hl : isAlpha l = true) (hl' : isAlpha l' = true) (h : p ++ l :: r = p' ++ l' :: r') : p = p' ∧ l = l' ∧ r = r' := by
  induction p generalizing p' with
  | nil =>
    rcases p' with _ | ⟨c, p'⟩
    · simpa using h
    · simp at h; have := hp' c (by simp); rw [← h.1, hl] at this; cases this
  | cons c p ih =>
    rcases p' with _ | ⟨c', p'⟩
    · simp at h; have := hp c (by simp); rw [h.1, hl'] at this; cases this
    · simp at h
      have := ih (p' := p') (fun x hx => hp x (by simp [hx])) (fun x hx => hp' x (by simp [hx])) h.2
      exact ⟨by rw [h.1, this.1], this.2⟩

/-- The stripped text is unique. -/
theorem stripped_unique {t o o' : List UInt8} (h : Stripped t o) (h' : Stripped t o') : o = o' := by
  induction h generalizing o' with
  | nil => cases h'; rfl
  | @seq p l r out hp hl _ ih =>
    generalize ht : (27 : UInt8) :: 91 :: (p ++ l :: r) = t' at h'
    cases h' with
    | nil => simp at ht
    | @seq p' l' r' out' hp' hl' h2 =>
      simp only [List.cons.injEq, true_and] at ht
      obtain ⟨-, -, rfl⟩ := params_unique hp hp' hl hl' ht
      exact ih h2
    | @cut p' hne hp' =>
      simp only [List.cons.injEq, true_and] at ht
      have := hp' l (by rw [← ht]; simp); rw [hl] at this; cases this
    | char hn _ =>
      exfalso; apply hn; rw [← ht]
      rcases p with _ | ⟨a, p⟩
      · exact ⟨l, r, rfl⟩
      · exact ⟨a, p ++ l :: r, rfl⟩
  | @cut p hne hp =>
    generalize ht : (27 : UInt8) :: 91 :: p = t' at h'
    cases h' with
    | nil => simp at ht
    | @seq p' l' r' out' hp' hl' h2 =>
      simp only [List.cons.injEq, true_and] at ht
      have := hp l' (by rw [ht]; simp); rw [hl'] at this; cases this
    | cut => rfl
    | char hn _ =>
      exfalso; apply hn; rw [← ht]
      rcases p with _ | ⟨a, p⟩
      · exact absurd rfl hne
      · exact ⟨a, p, rfl⟩
  | @char c r out hn _ ih =>
    generalize ht : c :: r = t' at h'
    cases h' with
    | nil => simp at ht
    | @seq p' l' r' out' hp' hl' h2 =>
      exfalso; apply hn; rw [ht]
      rcases p' with _ | ⟨a, p⟩
      · exact ⟨l', r', rfl⟩
      · exact ⟨a, p ++ l' :: r', rfl⟩
    | @cut p' hne hp' =>
      exfalso; apply hn; rw [ht]
      rcases p' with _ | ⟨a, p⟩
      · exact absurd rfl hne
      · exact ⟨a, p, rfl⟩
    | char _ h2 =>
      simp only [List.cons.injEq] at ht
      obtain ⟨rfl, rfl⟩ := ht
      rw [ih h2]

end WG
