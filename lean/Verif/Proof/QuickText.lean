import Verif.Proof.QuickVals
import Verif.Spec.QuickRun
/-! What the script reads from texts is what the specification says. -/
namespace WG.Quick
open WG.Spec WG.Spec.Quick

theorem chomp_eq (s : List UInt8) : chomp s = captured s := rfl

/-! ### Lines and fields -/

theorem forall2_map {α β : Type} {R : α → β → Prop} {f : α → β} (xs : List α) (h : ∀ x ∈ xs, R x (f x)) : List.Forall₂ R xs (xs.map f) := by
  induction xs with
  | nil => exact .nil
  | cons x xs ih => exact .cons (h x (List.mem_cons_self ..)) (ih fun y hy => h y (List.mem_cons_of_mem _ hy))

theorem forall2_trim (xs ys : List CStr) : List.Forall₂ (Trimmed spaceTab) xs ys ↔ ys = xs.map (trim isIfs) := by
  induction xs generalizing ys with
  | nil => simp
  | cons x xs ih =>
    cases ys with
    | nil => simp
    | cons y ys => simp [ih, trimmed_iff, isIfs_eq]

theorem readLoopLines_of (segs : List (List UInt8)) (last : List UInt8) (h : ∀ s ∈ segs, (10 : UInt8) ∉ s) (hl : (10 : UInt8) ∉ last) :
    readLoopLines (segs.flatMap (· ++ [10]) ++ last) = segs.map readLine := by
  unfold readLoopLines
  rw [getlines_of segs last h hl, List.filterMap_append]
  have e1 : (segs.map (· ++ [10])).filterMap (fun raw => if raw.getLast? = some 10 then some (readLine raw.dropLast) else none) = segs.map readLine := by
    clear h
    induction segs with
    | nil => rfl
    | cons s ss ih =>
      simp only [List.map_cons, List.filterMap_cons, List.getLast?_append, List.getLast?_singleton, List.dropLast_concat]
      simp [ih]
  have e2 : (if last = [] then [] else [last]).filterMap (fun raw => if raw.getLast? = some 10 then some (readLine raw.dropLast) else none) = [] := by
    by_cases e : last = []
    · subst e; rfl
    · rw [if_neg e]
      have : last.getLast? ≠ some 10 := fun e => hl (List.mem_of_getLast? e)
      simp [this]
  rw [e1, e2, List.append_nil]

theorem filter_lines (segs : List (List UInt8)) (last : List UInt8) :
    (segs.flatMap (· ++ [10]) ++ last).filter (· ≠ 0) = (segs.map (·.filter (· ≠ 0))).flatMap (· ++ [10]) ++ last.filter (· ≠ 0) := by
  rw [List.filter_append]
  congr 1
  induction segs with
  | nil => rfl
  | cons s ss ih => rw [List.flatMap_cons, List.filter_append, ih]; simp

theorem endedLines_iff (content : List UInt8) (lines : List CStr) : EndedLines content lines ↔ lines = readLoopLines content := by
  obtain ⟨hc, hs, hl⟩ := splitLF_spec content
  generalize (splitLF content).1 = segs at *
  generalize (splitLF content).2 = last at *
  have hf : content.filter (· ≠ 0) = (segs.map (·.filter (· ≠ 0))).flatMap (· ++ [10]) ++ last.filter (· ≠ 0) := by rw [hc]; exact filter_lines ..
  have hs' : ∀ s ∈ segs.map (·.filter (· ≠ 0)), (10 : UInt8) ∉ s := by
    intro s h
    obtain ⟨s', h', rfl⟩ := List.mem_map.1 h
    exact fun e => hs s' h' (List.mem_of_mem_filter e)
  have hl' : (10 : UInt8) ∉ last.filter (· ≠ 0) := fun e => hl (List.mem_of_mem_filter e)
  have hb : readLoopLines content = (segs.map (·.filter (· ≠ 0))).map (trim isIfs) := by
    rw [hc, readLoopLines_of segs last hs hl]
    simp [readLine, Function.comp_def]
  constructor
  · rintro ⟨segs2, last2, e, hs2, hl2, h1⟩
    have e2 := congrArg splitLF (e.symm.trans hf)
    rw [splitLF_of _ _ hs2 hl2, splitLF_of _ _ hs' hl'] at e2
    simp only [Prod.mk.injEq] at e2
    obtain ⟨rfl, rfl⟩ := e2
    rw [forall2_trim] at h1
    rw [h1, hb]
  · rintro rfl
    exact ⟨_, _, hf, hs', hl', by rw [hb]; exact (forall2_trim _ _).2 rfl⟩

theorem takeWhile_ne10 (s t : List UInt8) (hs : (10 : UInt8) ∉ s) (ht : t = [] ∨ t.head? = some 10) : (s ++ t).takeWhile (· ≠ 10) = s := by
  rw [List.takeWhile_append_of_pos]
  · rcases ht with rfl | ht
    · simp
    · cases t with
      | nil => simp
      | cons c t => simp at ht; subst ht; simp
  · intro c hc
    have : c ≠ 10 := by rintro rfl; exact hs hc
    simpa using this

/-- The first line as `read` gives it. -/
theorem firstLine_sound (out : List UInt8) :
    FirstLine out (((getlines out).map fun raw => readLine (if raw.getLast? = some 10 then raw.dropLast else raw)).head?.getD []) := by
  obtain ⟨hc, hs, hl⟩ := splitLF_spec out
  generalize (splitLF out).1 = segs at *
  generalize (splitLF out).2 = last at *
  refine ⟨(out.filter (· ≠ 0)).takeWhile (· ≠ 10), (before_iff _ _ _).2 rfl, ?_⟩
  rw [trimmed_iff, hc, filter_lines, getlines_of segs last hs hl]
  cases segs with
  | nil =>
    simp only [List.flatMap_nil, List.nil_append, List.map_nil]
    have : (last.filter (· ≠ 0)).takeWhile (· ≠ 10) = last.filter (· ≠ 0) := by
      have := takeWhile_ne10 (last.filter (· ≠ 0)) [] (fun e => hl (List.mem_of_mem_filter e)) (.inl rfl)
      rwa [List.append_nil] at this
    rw [this]
    by_cases e : last = []
    · subst e; rfl
    · have h10 : last.getLast? ≠ some 10 := fun e => hl (List.mem_of_getLast? e)
      rw [if_neg e]
      simp only [List.map_cons, List.map_nil, List.head?_cons, Option.getD_some, if_neg h10]
      rw [readLine, isIfs_eq]
  | cons s segs =>
    have h0 : (10 : UInt8) ∉ s.filter (· ≠ 0) := fun e => hs s (by simp) (List.mem_of_mem_filter e)
    simp only [List.map_cons, List.flatMap_cons, List.append_assoc, List.cons_append, List.nil_append]
    rw [takeWhile_ne10 _ _ h0 (.inr rfl)]
    simp [readLine, isIfs_eq]

theorem remainder_sound (line : CStr) : Remainder line (afterFirst line) := by
  refine ⟨line.takeWhile fun c => !isIfs c, (line.dropWhile fun c => !isIfs c).takeWhile isIfs, ?_, ?_, ?_, ?_, ?_⟩
  · unfold afterFirst
    rw [List.append_assoc, List.takeWhile_append_dropWhile, List.takeWhile_append_dropWhile]
  · intro c hc
    rw [← isIfs_eq]
    simpa using List.mem_takeWhile_imp hc
  · intro c hc
    rw [← isIfs_eq]
    exact List.mem_takeWhile_imp hc
  · intro c hc
    rw [← isIfs_eq]
    exact dropWhile_head_false _ _ c hc
  · intro h
    unfold afterFirst
    generalize hr : line.dropWhile (fun c => !isIfs c) = r at h ⊢
    cases r with
    | nil => rfl
    | cons c r =>
      have h1 := dropWhile_head_false (fun c => !isIfs c) line c (by rw [hr]; rfl)
      simp only [Bool.not_eq_false'] at h1
      rw [List.takeWhile_cons_of_pos h1] at h
      cases h

theorem remainders_sound (out : List UInt8) : Remainders out ((readLoopLines out).map afterFirst) :=
  ⟨_, (endedLines_iff _ _).2 rfl, forall2_map _ fun x _ => remainder_sound x⟩

/-! ### Collected -/

theorem collected_filterMap {α β : Type} {R : α → β → Prop} {f : α → Option β} (h : ∀ x y, f x = some y ↔ R x y) (xs : List α) :
    Collected R xs (xs.filterMap f) := by
  induction xs with
  | nil => exact .nil
  | cons x xs ih =>
    cases e : f x with
    | none => rw [List.filterMap_cons_none e]; exact .miss (fun y hy => by rw [(h x y).2 hy] at e; cases e) ih
    | some y => rw [List.filterMap_cons_some e]; exact .hit ((h x y).1 e) ih

theorem collected_unique {α β : Type} {R : α → β → Prop} (hR : ∀ x y y', R x y → R x y' → y = y') {xs : List α} {ys ys' : List β}
    (h : Collected R xs ys) (h' : Collected R xs ys') : ys = ys' := by
  induction h generalizing ys' with
  | nil => cases h'; rfl
  | hit hr _ ih =>
    cases h' with
    | hit hr' h' => rw [hR _ _ _ hr hr', ih h']
    | miss hn _ => exact absurd hr (hn _)
  | miss hn _ ih =>
    cases h' with
    | hit hr' h' => exact absurd hr' (hn _)
    | miss _ h' => exact ih h'

/-! ### Places in a text -/

theorem mem_suffixes {s t : CStr} : t ∈ suffixes s ↔ ∃ a, s = a ++ t := by
  induction s with
  | nil =>
    simp only [suffixes, List.mem_singleton]
    constructor
    · rintro rfl; exact ⟨[], rfl⟩
    · rintro ⟨a, h⟩
      have := List.append_eq_nil_iff.1 h.symm
      exact this.2
  | cons c s ih =>
    simp only [suffixes, List.mem_cons, ih]
    constructor
    · rintro (rfl | ⟨a, rfl⟩)
      · exact ⟨[], rfl⟩
      · exact ⟨c :: a, rfl⟩
    · rintro ⟨a, h⟩
      cases a with
      | nil => exact .inl h.symm
      | cons x a => simp only [List.cons_append, List.cons.injEq] at h; exact .inr ⟨a, h.2⟩

theorem find_first {β : Type} (f : CStr → Option β) (s : CStr) (d : β) :
    (suffixes s).findSome? f = some d ↔
      ∃ a t, s = a ++ t ∧ f t = some d ∧ ∀ a' t', s = a' ++ t' → f t' ≠ none → a.length ≤ a'.length := by
  induction s with
  | nil =>
    have e : (suffixes []).findSome? f = f [] := by simp [suffixes]
    rw [e]
    constructor
    · intro h; exact ⟨[], [], rfl, h, by simp⟩
    · rintro ⟨a, t, h, h1, _⟩
      obtain ⟨rfl, rfl⟩ := List.append_eq_nil_iff.1 h.symm
      exact h1
  | cons c s ih =>
    rw [suffixes, List.findSome?_cons]
    cases e : f (c :: s) with
    | some x =>
      simp only [Option.some.injEq]
      constructor
      · rintro rfl
        exact ⟨[], _, rfl, e, by simp⟩
      · rintro ⟨a, t, h, h1, h2⟩
        have := h2 [] (c :: s) rfl (by rw [e]; simp)
        have ha : a = [] := List.length_eq_zero_iff.1 (by simpa using this)
        subst ha
        simp only [List.nil_append] at h
        rw [← h, e] at h1
        simpa using h1
    | none =>
      simp only
      rw [ih]
      constructor
      · rintro ⟨a, t, rfl, h1, h2⟩
        refine ⟨c :: a, t, rfl, h1, ?_⟩
        intro a' t' h hn
        cases a' with
        | nil => rw [List.nil_append] at h; rw [← h, e] at hn; exact absurd rfl hn
        | cons x a' =>
          simp only [List.cons_append, List.cons.injEq] at h
          have := h2 a' t' h.2 hn
          simpa using this
      · rintro ⟨a, t, h, h1, h2⟩
        cases a with
        | nil => rw [List.nil_append] at h; rw [← h, e] at h1; cases h1
        | cons x a =>
          simp only [List.cons_append, List.cons.injEq] at h
          refine ⟨a, t, h.2, h1, ?_⟩
          intro a' t' h' hn
          have := h2 (c :: a') t' (by rw [h']; rfl) hn
          simpa using this

theorem find_last {β : Type} (f : CStr → Option β) (s : CStr) (d : β) :
    (suffixes s).reverse.findSome? f = some d ↔
      ∃ a t, s = a ++ t ∧ f t = some d ∧ ∀ a' t', s = a' ++ t' → f t' ≠ none → a'.length ≤ a.length := by
  induction s generalizing d with
  | nil =>
    have e : (suffixes []).reverse.findSome? f = f [] := by simp [suffixes]
    rw [e]
    constructor
    · intro h
      refine ⟨[], [], rfl, h, ?_⟩
      intro a' t' h _
      rw [(List.append_eq_nil_iff.1 h.symm).1]
    · rintro ⟨a, t, h, h1, _⟩
      obtain ⟨rfl, rfl⟩ := List.append_eq_nil_iff.1 h.symm
      exact h1
  | cons c s ih =>
    rw [suffixes, List.reverse_cons, List.findSome?_append]
    have one : [c :: s].findSome? f = f (c :: s) := by simp
    rw [one]
    cases e : (suffixes s).reverse.findSome? f with
    | some x =>
      simp only [Option.some_or, Option.some.injEq]
      obtain ⟨a, t, rfl, h1, h2⟩ := (ih x).1 e
      constructor
      · rintro rfl
        refine ⟨c :: a, t, rfl, h1, ?_⟩
        intro a' t' h hn
        cases a' with
        | nil => simp
        | cons z a' =>
          simp only [List.cons_append, List.cons.injEq] at h
          have := h2 a' t' h.2 hn
          simpa using this
      · rintro ⟨b, u, h, g1, g2⟩
        have k1 := g2 (c :: a) t rfl (by rw [h1]; simp)
        cases b with
        | nil => simp at k1
        | cons z b =>
          simp only [List.cons_append, List.cons.injEq] at h
          have k2 := h2 b u h.2 (by rw [g1]; simp)
          simp only [List.length_cons] at k1
          have hl : a.length = b.length := by omega
          obtain ⟨rfl, rfl⟩ := List.append_inj h.2 hl
          rw [h1] at g1
          simpa using g1
    | none =>
      simp only [Option.none_or]
      rw [List.findSome?_eq_none_iff] at e
      constructor
      · intro h
        refine ⟨[], _, rfl, h, ?_⟩
        intro a' t' h hn
        cases a' with
        | nil => simp
        | cons z a' =>
          simp only [List.cons_append, List.cons.injEq] at h
          exact absurd (e t' (List.mem_reverse.2 (mem_suffixes.2 ⟨a', h.2⟩))) hn
      · rintro ⟨a, t, h, h1, _⟩
        cases a with
        | nil => rw [List.nil_append] at h; rw [h]; exact h1
        | cons z a =>
          simp only [List.cons_append, List.cons.injEq] at h
          have := e t (List.mem_reverse.2 (mem_suffixes.2 ⟨a, h.2⟩))
          rw [this] at h1; cases h1

/-- What is found at a place. -/
theorem at_iff (word : CStr) (p : UInt8 → Bool) (t d : CStr) :
    (if word.isPrefixOf t ∧ (t.drop word.length).takeWhile p ≠ [] then some ((t.drop word.length).takeWhile p) else none) = some d ↔
      ∃ b, t = word ++ d ++ b ∧ d ≠ [] ∧ (∀ x ∈ d, p x) ∧ (∀ x, b.head? = some x → p x = false) := by
  constructor
  · intro h
    split at h
    · rename_i hc
      simp only [Option.some.injEq] at h
      obtain ⟨r, rfl⟩ := List.isPrefixOf_iff_prefix.1 hc.1
      rw [List.drop_left] at h hc
      refine ⟨r.dropWhile p, ?_, ?_, ?_, ?_⟩
      · rw [← h, List.append_assoc, List.takeWhile_append_dropWhile]
      · rw [← h]; exact hc.2
      · rw [← h]; intro x hx; exact List.mem_takeWhile_imp hx
      · intro x hx; exact dropWhile_head_false p r x hx
    · cases h
  · rintro ⟨b, rfl, h1, h2, h3⟩
    have e : ((word ++ d ++ b).drop word.length).takeWhile p = d := by
      rw [List.append_assoc, List.drop_left, List.takeWhile_append_of_pos h2]
      cases b with
      | nil => simp
      | cons c b => rw [List.takeWhile_cons_of_neg (by rw [h3 c rfl]; simp), List.append_nil]
    rw [e, if_pos ⟨by rw [List.append_assoc]; exact List.isPrefixOf_iff_prefix.2 (List.prefix_append _ _), h1⟩]

theorem at_some_iff (word : CStr) (p : UInt8 → Bool) (t : CStr) :
    (if word.isPrefixOf t ∧ (t.drop word.length).takeWhile p ≠ [] then some ((t.drop word.length).takeWhile p) else none) ≠ none ↔
      ∃ x b, t = word ++ x :: b ∧ p x := by
  rw [Option.ne_none_iff_exists']
  constructor
  · rintro ⟨d, h⟩
    obtain ⟨b, rfl, h1, h2, _⟩ := (at_iff word p t d).1 h
    obtain ⟨x, d, rfl⟩ := List.exists_cons_of_ne_nil h1
    exact ⟨x, d ++ b, by simp, h2 x (by simp)⟩
  · rintro ⟨x, b, rfl, h⟩
    refine ⟨(x :: b).takeWhile p, (at_iff word p _ _).2 ⟨(x :: b).dropWhile p, ?_, ?_, ?_, ?_⟩⟩
    · rw [List.append_assoc, List.takeWhile_append_dropWhile]
    · rw [List.takeWhile_cons_of_pos h]; simp
    · intro y hy; exact List.mem_takeWhile_imp hy
    · intro y hy; exact dropWhile_head_false p _ y hy

theorem wordArg_iff (word : CStr) (p : UInt8 → Bool) (s d : CStr) : wordArg word p s = some d ↔ FirstArg word p s d := by
  unfold wordArg FirstArg
  rw [find_first]
  constructor
  · rintro ⟨a, t, rfl, h1, h2⟩
    obtain ⟨b, rfl, h3, h4, h5⟩ := (at_iff _ _ _ _).1 h1
    refine ⟨a, b, by simp, h3, h4, h5, ?_⟩
    intro a' x b' h hx
    exact h2 a' (word ++ x :: b') (by rw [h]; simp) ((at_some_iff _ _ _).2 ⟨x, b', rfl, hx⟩)
  · rintro ⟨a, b, rfl, h3, h4, h5, h6⟩
    refine ⟨a, word ++ d ++ b, by simp, (at_iff _ _ _ _).2 ⟨b, rfl, h3, h4, h5⟩, ?_⟩
    intro a' t' h hn
    obtain ⟨x, b', rfl, hx⟩ := (at_some_iff _ _ _).1 hn
    exact h6 a' x b' (by rw [h]; simp) hx

theorem isDig_eq : isDig = isDigit := by funext c; simp [isDig, isDigit]

theorem mtuIn_iff (s : CStr) (n : Nat) : (mtuIn s).map (digitsVal 10) = some n ↔ MtuIn s n := by
  unfold mtuIn MtuIn
  rw [Option.map_eq_some_iff]
  constructor
  · rintro ⟨d, h, rfl⟩
    rw [wordArg_iff, isDig_eq] at h
    obtain ⟨a, b, h1, h2, h3, h4⟩ := id h
    exact ⟨d, h, digitsVal10 d h3⟩
  · rintro ⟨d, h, rfl⟩
    refine ⟨d, by rw [wordArg_iff, isDig_eq]; exact h, ?_⟩
    obtain ⟨a, b, h1, h2, h3, h4⟩ := h
    exact digitsVal10 d h3

theorem mtuIn_none (s : CStr) : mtuIn s = none ↔ ∀ n, ¬ MtuIn s n := by
  constructor
  · intro h n hn
    rw [← mtuIn_iff, h] at hn
    cases hn
  · intro h
    cases e : mtuIn s with
    | none => rfl
    | some d => exact absurd ((mtuIn_iff s _).1 (by rw [e]; rfl)) (h (digitsVal 10 d))

theorem devIn_iff (s d : CStr) : devIn s = some d ↔ DevIn s d := by
  unfold devIn DevIn
  have : (fun c : UInt8 => c != 32) = fun c => decide (c ≠ 32) := by funext c; simp [bne, BEq.beq]
  rw [wordArg_iff, this]

theorem devIn_none (s : CStr) : devIn s = none ↔ ∀ d, ¬ DevIn s d := by
  constructor
  · intro h d hd; rw [← devIn_iff, h] at hd; cases hd
  · intro h
    cases e : devIn s with
    | none => rfl
    | some d => exact absurd ((devIn_iff s d).1 e) (h d)

/-! ### Endpoints, order lines, routes -/

theorem addrByte_eq (c : UInt8) : ((97 ≤ c && c ≤ 122) || isDig c || c == c!":" || c == c!".") = addrByte c := by
  revert c; unfold isDig addrByte isDigit; apply forall_u8; decide +kernel

theorem routeByte_eq (c : UInt8) : (isDig c || (97 ≤ c && c ≤ 122) || c == c!":" || c == c!".") = addrByte c := by
  revert c; unfold isDig addrByte isDigit; apply forall_u8; decide +kernel

theorem last_colon (x port : CStr) (hp : ∀ c ∈ port, isDigit c = true) :
    ((x ++ b!":" ++ port).reverse.takeWhile (· ≠ c!":")).reverse = port ∧
    (((x ++ b!":" ++ port).reverse.dropWhile (· ≠ c!":")).drop 1).reverse = x := by
  have hr : (x ++ b!":" ++ port).reverse = port.reverse ++ (c!":" :: x.reverse) := by simp
  have hpos : ∀ c ∈ port.reverse, decide (c ≠ c!":") = true := by
    intro c hc
    have := hp c (List.mem_reverse.1 hc)
    rw [decide_eq_true_eq]
    rintro rfl
    exact absurd this (by decide)
  rw [hr, List.takeWhile_append_of_pos hpos, List.dropWhile_append_of_pos hpos]
  simp

theorem endpointHost_iff (e h : CStr) : endpointHost e = some h ↔ EndpointHost e h := by
  have nb : ∀ {l : CStr}, (∀ c ∈ l, addrByte c = true) → (l.head? = some c!"[" → False) ∧ (l.getLast? = some c!"]" → False) := by
    intro l hl
    constructor
    · intro hh; exact absurd (hl _ (List.mem_of_head? hh)) (by decide)
    · intro hh; exact absurd (hl _ (List.mem_of_getLast? hh)) (by decide)
  constructor
  · intro he
    unfold endpointHost at he
    dsimp only at he
    generalize hport : (e.reverse.takeWhile (· ≠ c!":")).reverse = port at he
    generalize hbef : ((e.reverse.dropWhile (· ≠ c!":")).drop 1).reverse = before at he
    rw [Option.ite_none_right_eq_some] at he
    obtain ⟨⟨h1, h2, h3, h4, h5⟩, he⟩ := he
    simp only [Option.some.injEq] at he
    rw [he] at h4 h5
    have hsplit : e = before ++ b!":" ++ port := by
      have hd : e.reverse.dropWhile (· ≠ c!":") = c!":" :: (e.reverse.dropWhile (· ≠ c!":")).drop 1 := by
        generalize hr : e.reverse.dropWhile (· ≠ c!":") = r
        cases r with
        | nil =>
          exfalso
          have := List.dropWhile_eq_nil_iff.1 hr _ (List.mem_reverse.2 h1)
          simp at this
        | cons x r =>
          have := dropWhile_head_false _ _ x (by rw [hr]; rfl)
          simp only [decide_eq_false_iff_not, not_not] at this
          rw [this]; rfl
      have := (List.takeWhile_append_dropWhile (p := fun c => decide (c ≠ c!":")) (l := e.reverse)).symm
      rw [hd] at this
      have := congrArg List.reverse this
      rw [List.reverse_reverse, List.reverse_append, List.reverse_cons, hport, hbef] at this
      exact this
    rw [isDig_eq] at h3
    rw [List.all_eq_true] at h3 h5
    simp only [addrByte_eq] at h5
    -- the brackets
    have ho : ∃ o, (o = [] ∨ o = b!"[") ∧ before = o ++ (if before.head? = some c!"[" then before.drop 1 else before) := by
      by_cases hb : before.head? = some c!"["
      · rw [if_pos hb]
        cases before with
        | nil => simp at hb
        | cons x t =>
          simp only [List.head?_cons, Option.some.injEq] at hb
          exact ⟨b!"[", .inr rfl, by rw [hb]; rfl⟩
      · rw [if_neg hb]; exact ⟨[], .inl rfl, rfl⟩
    obtain ⟨o, ho, hbo⟩ := ho
    generalize (if before.head? = some c!"[" then before.drop 1 else before) = h' at he hbo
    have hcl : ∃ cl, (cl = [] ∨ cl = b!"]") ∧ h' = h ++ cl := by
      by_cases hb : h'.getLast? = some c!"]"
      · rw [if_pos hb] at he
        refine ⟨b!"]", .inr rfl, ?_⟩
        rw [← he]
        exact (List.dropLast_append_getLast? _ hb).symm
      · rw [if_neg hb] at he; exact ⟨[], .inl rfl, by rw [he, List.append_nil]⟩
    obtain ⟨cl, hcl, hh⟩ := hcl
    refine ⟨o, cl, port, ?_, ho, hcl, h4, h5, h2, h3⟩
    rw [hsplit, hbo, hh]; simp
  · rintro ⟨o, cl, port, rfl, ho, hcl, h4, h5, h2, h3⟩
    unfold endpointHost
    dsimp only
    obtain ⟨e1, e2⟩ := last_colon (o ++ h ++ cl) port h3
    rw [e1, e2]
    have hb1 : (if (o ++ h ++ cl).head? = some c!"[" then (o ++ h ++ cl).drop 1 else o ++ h ++ cl) = h ++ cl := by
      rcases ho with rfl | rfl
      · obtain ⟨x, t, rfl⟩ := List.exists_cons_of_ne_nil h4
        have := (nb h5).1
        rw [if_neg (by simpa using this)]; simp
      · simp
    rw [hb1]
    have hb2 : (if (h ++ cl).getLast? = some c!"]" then (h ++ cl).dropLast else h ++ cl) = h := by
      rcases hcl with rfl | rfl
      · rw [List.append_nil, if_neg (nb h5).2]
      · simp
    rw [hb2, if_pos]
    refine ⟨by simp, h2, ?_, h4, ?_⟩
    · rw [isDig_eq, List.all_eq_true]; exact h3
    · rw [List.all_eq_true]; simpa only [addrByte_eq] using h5

theorem endpointHost_none (e : CStr) : endpointHost e = none ↔ ∀ h, ¬ EndpointHost e h := by
  constructor
  · intro h x hx; rw [← endpointHost_iff, h] at hx; cases hx
  · intro h
    cases e' : endpointHost e with
    | none => rfl
    | some x => exact absurd ((endpointHost_iff e x).1 e') (h x)

theorem orderByte_eq (c : UInt8) : ((97 ≤ c && c ≤ 122) || (65 ≤ c && c ≤ 90) || isDig c || c == c!"-") = true ↔
    (isAlpha c = true ∨ isDigit c = true ∨ c = c!"-") := by
  revert c; unfold isDig isAlpha isDigit; apply forall_u8; decide +kernel

theorem orderPrefix_iff (line p : CStr) : orderPrefix line = some p ↔ OrderLine line p := by
  unfold orderPrefix OrderLine
  constructor
  · intro h
    split at h
    swap
    · cases h
    rename_i hc
    simp only [Option.some.injEq] at h
    subst h
    refine ⟨(List.dropLast_append_getLast? _ hc.1).symm, hc.2.1, ?_⟩
    intro c hm
    exact (orderByte_eq c).1 (List.all_eq_true.1 hc.2.2 c hm)
  · rintro ⟨rfl, h1, h2⟩
    rw [if_pos]
    · simp
    · refine ⟨by simp, by simpa using h1, ?_⟩
      rw [List.dropLast_concat, List.all_eq_true]
      intro c hc
      exact (orderByte_eq c).2 (h2 c hc)

theorem isRoute_iff (w : CStr) : isRoute w = true ↔ IsRoute w := by
  unfold isRoute IsRoute
  simp only [Bool.and_eq_true, decide_eq_true_eq, isDig_eq, List.all_eq_true]
  constructor
  · rintro ⟨⟨⟨⟨h1, h2⟩, h3⟩, h4⟩, h5⟩
    refine ⟨_, _, ?_, h2, h3, h4, h5⟩
    have hd : w.dropWhile (· ≠ c!"/") = c!"/" :: (w.dropWhile (· ≠ c!"/")).drop 1 := by
      generalize hr : w.dropWhile (· ≠ c!"/") = r
      cases r with
      | nil => exact absurd (List.dropWhile_eq_nil_iff.1 hr _ h1) (by simp)
      | cons x r =>
        have := dropWhile_head_false _ _ x (by rw [hr]; rfl)
        simp only [decide_eq_false_iff_not, not_not] at this
        rw [this]; rfl
    have hw := (List.takeWhile_append_dropWhile (p := fun c => decide (c ≠ c!"/")) (l := w)).symm
    rw [hd] at hw
    generalize hA : w.takeWhile (fun c => decide (c ≠ c!"/")) = A at hw
    generalize (w.dropWhile (fun c => decide (c ≠ c!"/"))).drop 1 = B at hw
    rw [hw]
    have : (A ++ c!"/" :: B).drop (A.length + 1) = B := by
      rw [← List.drop_drop, List.drop_left]; rfl
    rw [this]; simp
  · rintro ⟨a, n, rfl, h2, h3, h4, h5⟩
    have e : (a ++ b!"/" ++ n).takeWhile (· ≠ c!"/") = a := by
      rw [List.append_assoc, List.takeWhile_append_of_pos]
      · simp
      · intro c hc
        rw [decide_eq_true_eq]
        rintro rfl
        exact absurd (h3 _ hc) (by decide)
    rw [e]
    have e2 : (a ++ b!"/" ++ n).drop (a.length + 1) = n := by
      rw [← List.drop_drop, List.append_assoc, List.drop_left]; rfl
    rw [e2]
    exact ⟨⟨⟨⟨by simp, h2⟩, h3⟩, h4⟩, h5⟩

theorem words_blank (s cur : List UInt8) (hcur : ∀ c ∈ cur, blankSep c = false) : Words blankSep (cur ++ s) (wordsAux cur s) := by
  induction s generalizing cur with
  | nil =>
    simp only [List.append_nil, wordsAux]
    by_cases e : cur = []
    · rw [if_pos e, e]; exact .nil (by simp)
    · rw [if_neg e]
      have := Words.cons (sep := blankSep) (g := []) (w := cur) (rest := []) (ws := []) (by simp) e hcur (by simp) (.nil (by simp))
      simpa using this
  | cons c t ih =>
    simp only [wordsAux]
    have hsep : (c = 32 ∨ c = 9 ∨ c = 10) ↔ blankSep c = true := by simp [blankSep]
    by_cases h : blankSep c = true
    · rw [if_pos (hsep.2 h)]
      have hr := words_prepend c h (ih [] (by simp))
      by_cases e : cur = []
      · rw [if_pos e, e]; exact hr
      · rw [if_neg e]
        have := Words.cons (sep := blankSep) (g := []) (w := cur) (rest := c :: t) (by simp) e hcur (by simp [h]) hr
        simpa using this
    · rw [if_neg (fun e => h (hsep.1 e))]
      have := ih (cur ++ [c]) (by
        intro d hd
        rw [List.mem_append, List.mem_singleton] at hd
        rcases hd with hd | rfl
        · exact hcur d hd
        · exact Bool.eq_false_iff.2 h)
      simpa using this

theorem blankWords (s : CStr) : Words blankSep s (wordsAux [] s) := by simpa using words_blank s [] (by simp)

theorem routesShown (out : List UInt8) : RoutesShown out (routesIn out) := by
  refine ⟨_, _, remainders_sound out, forall2_map (f := wordsAux []) _ fun x _ => blankWords x, ?_⟩
  have h := collected_filterMap (R := fun w r : CStr => r = w ∧ IsRoute w) (f := fun w => if isRoute w then some w else none) (by
    intro x y
    constructor
    · intro h
      split at h
      · rename_i hx
        cases h; exact ⟨rfl, (isRoute_iff x).1 hx⟩
      · cases h
    · rintro ⟨rfl, hx⟩
      rw [if_pos ((isRoute_iff y).2 hx)]) (((readLoopLines out).map afterFirst).map (wordsAux [])).flatten
  have e : routesIn out = (((readLoopLines out).map afterFirst).map (wordsAux [])).flatten.filterMap fun w => if isRoute w then some w else none := by
    unfold routesIn
    rw [List.map_map, ← List.flatMap_def, List.filterMap_flatMap]
    congr 1
    funext line
    simp only [Function.comp]
    generalize wordsAux [] (afterFirst line) = ws
    induction ws with
    | nil => rfl
    | cons w ws ih => by_cases hw : isRoute w = true <;> simp [hw, ih]
  rw [e]; exact h

/-! ### Addresses -/

theorem hexAddrByte_eq (c : UInt8) : (isDig c || (97 ≤ c && c ≤ 102) || c == c!":" || c == c!".") = hexAddrByte c := by
  revert c; unfold isDig hexAddrByte isDigit; apply forall_u8; decide +kernel

/-- The address at a place. -/
def inetHere (t : CStr) : Option CStr :=
  let r := if b!"inet ".isPrefixOf t then some (t.drop 5) else if b!"inet6 ".isPrefixOf t then some (t.drop 6) else none
  match r with
  | none => none
  | some r =>
    let a := r.takeWhile fun c => isDig c || (97 ≤ c && c ≤ 102) || c == c!":" || c == c!"."
    let rest := r.drop a.length
    if a ≠ [] ∧ rest.head? = some c!"/" ∧ ((rest.drop 1).head?.map isDig) = some true then some a else none

theorem inetAddr_eq (line : CStr) : inetAddr line = (suffixes line).reverse.findSome? inetHere := rfl

theorem inetTail_iff (r a : CStr) :
    (if r.takeWhile (fun c => isDig c || (97 ≤ c && c ≤ 102) || c == c!":" || c == c!".") ≠ [] ∧
        (r.drop (r.takeWhile (fun c => isDig c || (97 ≤ c && c ≤ 102) || c == c!":" || c == c!".")).length).head? = some c!"/" ∧
        (((r.drop (r.takeWhile (fun c => isDig c || (97 ≤ c && c ≤ 102) || c == c!":" || c == c!".")).length).drop 1).head?.map isDig) = some true
      then some (r.takeWhile (fun c => isDig c || (97 ≤ c && c ≤ 102) || c == c!":" || c == c!".")) else none) = some a ↔
    ∃ d y, r = a ++ b!"/" ++ d :: y ∧ a ≠ [] ∧ (∀ c ∈ a, hexAddrByte c) ∧ isDigit d := by
  have hfun : (fun c : UInt8 => isDig c || (97 ≤ c && c ≤ 102) || c == c!":" || c == c!".") = hexAddrByte := by funext c; exact hexAddrByte_eq c
  rw [hfun, isDig_eq]
  constructor
  · intro h
    split at h
    swap
    · cases h
    rename_i hc
    simp only [Option.some.injEq] at h
    rw [h] at hc
    obtain ⟨h1, h2, h3⟩ := hc
    have hr : r = a ++ r.drop a.length := by
      rw [← h]
      have := (List.takeWhile_append_dropWhile (p := hexAddrByte) (l := r)).symm
      conv_rhs => rw [this]
      conv_lhs => rw [this]
      rw [List.takeWhile_append_of_pos (fun c hc => List.mem_takeWhile_imp hc)]
      have e : (r.dropWhile hexAddrByte).takeWhile hexAddrByte = [] := by
        cases e : r.dropWhile hexAddrByte with
        | nil => rfl
        | cons x t => rw [List.takeWhile_cons_of_neg (by rw [dropWhile_head_false hexAddrByte r x (by rw [e]; rfl)]; simp)]
      rw [e, List.append_nil, List.drop_left]
    generalize r.drop a.length = q at hr h2 h3
    rcases q with - | ⟨x, q⟩
    · simp at h2
    simp only [List.head?_cons, Option.some.injEq] at h2
    subst h2
    rcases q with - | ⟨d, y⟩
    · simp at h3
    simp only [List.drop_succ_cons, List.drop_zero, List.head?_cons, Option.map_some, Option.some.injEq] at h3
    refine ⟨d, y, by rw [hr]; simp, h1, ?_, h3⟩
    rw [← h]
    intro c hc; exact List.mem_takeWhile_imp hc
  · rintro ⟨d, y, rfl, h1, h2, h3⟩
    have e : (a ++ b!"/" ++ d :: y).takeWhile hexAddrByte = a := by
      rw [List.append_assoc, List.takeWhile_append_of_pos h2]
      simp [hexAddrByte, isDigit]
    rw [e, List.append_assoc, List.drop_left, if_pos]
    exact ⟨h1, rfl, by simp [h3]⟩

theorem inetHere_iff (t a : CStr) : inetHere t = some a ↔ InetAt t [] a := by
  unfold inetHere InetAt
  dsimp only
  by_cases h1 : b!"inet ".isPrefixOf t = true
  · obtain ⟨r, rfl⟩ := List.isPrefixOf_iff_prefix.1 h1
    rw [if_pos h1]
    simp only
    have hd : (b!"inet " ++ r).drop 5 = r := rfl
    rw [hd, inetTail_iff]
    constructor
    · rintro ⟨d, y, rfl, h⟩
      exact ⟨b!"inet ", d, y, by simp, .inl rfl, h⟩
    · rintro ⟨k, d, y, h, rfl | rfl, h'⟩
      · refine ⟨d, y, ?_, h'⟩
        simp only [List.nil_append, List.append_assoc] at h
        have := List.append_cancel_left h
        rw [this]; simp
      · simp at h
  · rw [if_neg h1]
    by_cases h2 : b!"inet6 ".isPrefixOf t = true
    · obtain ⟨r, rfl⟩ := List.isPrefixOf_iff_prefix.1 h2
      rw [if_pos h2]
      simp only
      have hd : (b!"inet6 " ++ r).drop 6 = r := rfl
      rw [hd, inetTail_iff]
      constructor
      · rintro ⟨d, y, rfl, h⟩
        exact ⟨b!"inet6 ", d, y, by simp, .inr rfl, h⟩
      · rintro ⟨k, d, y, h, rfl | rfl, h'⟩
        · simp at h
        · refine ⟨d, y, ?_, h'⟩
          simp only [List.nil_append, List.append_assoc] at h
          have := List.append_cancel_left h
          rw [this]; simp
    · rw [if_neg h2]
      simp only [reduceCtorEq, false_iff]
      rintro ⟨k, d, y, rfl, rfl | rfl, h'⟩
      · exact h1 (by simp)
      · exact h2 (by simp)

theorem inetAt_shift (x t a : CStr) : InetAt (x ++ t) x a ↔ InetAt t [] a := by
  unfold InetAt
  constructor
  · rintro ⟨k, d, y, h, h'⟩
    refine ⟨k, d, y, ?_, h'⟩
    simp only [List.append_assoc] at h
    have := List.append_cancel_left h
    rw [this]; simp
  · rintro ⟨k, d, y, rfl, h'⟩
    exact ⟨k, d, y, by simp, h'⟩

theorem inetAddr_iff (line a : CStr) : inetAddr line = some a ↔ InetAddr line a := by
  rw [inetAddr_eq, find_last]
  unfold InetAddr
  constructor
  · rintro ⟨x, t, rfl, h1, h2⟩
    refine ⟨x, (inetAt_shift _ _ _).2 ((inetHere_iff _ _).1 h1), ?_⟩
    intro x' a' h
    have : ∃ t', x ++ t = x' ++ t' := by
      obtain ⟨k, d, y, h, _⟩ := h
      exact ⟨k ++ a' ++ b!"/" ++ d :: y, by rw [h]; simp⟩
    obtain ⟨t', ht⟩ := this
    refine h2 x' t' ht ?_
    rw [ht] at h
    rw [(inetHere_iff _ _).2 ((inetAt_shift _ _ _).1 h)]; simp
  · rintro ⟨x, h, h2⟩
    have : ∃ t, line = x ++ t := by
      obtain ⟨k, d, y, h, _⟩ := h
      exact ⟨k ++ a ++ b!"/" ++ d :: y, by rw [h]; simp⟩
    obtain ⟨t, rfl⟩ := this
    refine ⟨x, t, rfl, (inetHere_iff _ _).2 ((inetAt_shift _ _ _).1 h), ?_⟩
    intro x' t' ht hn
    obtain ⟨a', ha⟩ := Option.ne_none_iff_exists'.1 hn
    refine h2 x' a' ?_
    rw [ht]
    exact (inetAt_shift _ _ _).2 ((inetHere_iff _ _).1 ha)

theorem inetAddrs_sound (out : List UInt8) : InetAddrs out ((readLoopLines out).filterMap inetAddr) :=
  ⟨_, (endedLines_iff _ _).2 rfl, collected_filterMap inetAddr_iff _⟩

/-! ### The mark -/

theorem markDecimal_text (m : Reply) : MarkText m (markDecimal (chomp m.out)) := by
  rintro h n he ⟨h1, h2, rfl⟩
  rw [chomp_eq, he]
  have : markDecimal (b!"0x" ++ h) = showDec (digitsVal 16 (h.takeWhile (isDigitOf 16))) := rfl
  rw [this]
  have hd : h.takeWhile (isDigitOf 16) = h := List.takeWhile_eq_self_iff.2 fun c hc => by
    rw [isDigitOf16]; exact h2 c hc
  rw [hd, digitsVal16 h h2]

end WG.Quick
