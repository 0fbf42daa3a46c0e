import Verif.Proof.BsdWhole
import Verif.Spec.BsdUp
import Verif.Proof.QuickUp
import Verif.Proof.QuickDown
import Verif.Proof.Uapi
import Mathlib.Data.List.Nodup
import Mathlib.Data.List.Perm.Subperm
/-! What the BSD scripts read from texts is what the specification says. -/
namespace WG.Bsd
open WG.Quick (Call Reply Ev World Out calm chomp readLoopLines afterFirst hasInfix isDig mtuIn wordsAux suffixes isDig_eq hasInfix_iff chomp_eq
  mtuIn_iff mtuIn_none endedLines_iff blankWords)
open WG.Spec WG.Spec.Quick WG.Spec.Bsd

theorem subst_spec (x : UInt8) (v h : CStr) : ReplacedAll [c!"%", x] v h (subst x v h) := by
  match h with
  | [] => unfold subst; exact .nil
  | [c] =>
    unfold subst
    exact .other (by rintro ⟨r, e⟩; simp at e) .nil
  | c :: d :: t =>
    unfold subst
    by_cases e : c = c!"%" ∧ d = x
    · rw [if_pos e, e.1, e.2]
      exact .name (pat := [c!"%", x]) (subst_spec x v t)
    · rw [if_neg e]
      refine .other ?_ (subst_spec x v (d :: t))
      rintro ⟨r, hr⟩
      simp only [List.cons_append, List.nil_append, List.cons.injEq] at hr
      exact e ⟨hr.1, hr.2.1⟩

theorem hookText_spec (c : Cfg) (real h : CStr) : HookFor c real h (hookText c real h) := by
  unfold HookFor hookText
  by_cases hp : c.plat = .freebsd
  · rw [if_pos hp, if_pos hp]; exact subst_spec c!"i" _ _
  · rw [if_neg hp, if_neg hp]; exact ⟨_, subst_spec c!"i" _ _, subst_spec c!"I" _ _⟩

theorem takeWhile_all {p : UInt8 → Bool} (a t : List UInt8) (ha : ∀ c ∈ a, p c = true) (ht : ∀ c, t.head? = some c → p c = false) :
    (a ++ t).takeWhile p = a := by
  rw [List.takeWhile_append_of_pos (by simpa using ha)]
  cases t with
  | nil => simp
  | cons c t => rw [List.takeWhile_cons_of_neg (by rw [ht c rfl]; decide), List.append_nil]

theorem takeWhile_drop (p : UInt8 → Bool) (l : List UInt8) : l = l.takeWhile p ++ l.drop (l.takeWhile p).length := by
  induction l with
  | nil => rfl
  | cons c l ih =>
    by_cases h : p c = true
    · rw [List.takeWhile_cons_of_pos h, List.length_cons, List.drop_succ_cons, List.cons_append, ← ih]
    · rw [List.takeWhile_cons_of_neg h]; rfl

theorem ifaceLine_iff (l n : CStr) : ifaceLine l = some n ↔ IfLine l n := by
  unfold ifaceLine
  constructor
  · intro h
    dsimp only at h
    split at h
    · rename_i hc
      obtain ⟨h1, h2, h3, h4⟩ := hc
      simp only [Option.some.injEq] at h
      have ha := takeWhile_drop (fun c => decide (97 ≤ c) && decide (c ≤ 122)) l
      have pa : ∀ c ∈ l.takeWhile (fun c => decide (97 ≤ c) && decide (c ≤ 122)), 97 ≤ c ∧ c ≤ 122 := by
        intro c hc
        simpa using List.mem_takeWhile_imp hc
      generalize l.takeWhile (fun c => decide (97 ≤ c) && decide (c ≤ 122)) = a at *
      have hm := takeWhile_drop isDig (l.drop a.length)
      have pm : ∀ c ∈ (l.drop a.length).takeWhile isDig, isDigit c = true := by
        intro c hc
        rw [← isDig_eq]
        exact List.mem_takeWhile_imp hc
      generalize (l.drop a.length).takeWhile isDig = m at *
      generalize (l.drop a.length).drop m.length = r at *
      rw [List.isPrefixOf_iff_prefix] at h3
      obtain ⟨t, rfl⟩ := h3
      cases t with
      | nil => simp at h4
      | cons x y =>
        refine ⟨a, m, x, y, h.symm, ?_, h1, pa, h2, pm⟩
        rw [ha, hm]
        simp
    · cases h
  · rintro ⟨a, m, x, y, rfl, rfl, h1, h2, h3, h4⟩
    have e1 : (a ++ m ++ b!": " ++ x :: y).takeWhile (fun c => decide (97 ≤ c) && decide (c ≤ 122)) = a := by
      rw [List.append_assoc, List.append_assoc]
      refine takeWhile_all a _ (by intro c hc; simpa using h2 c hc) ?_
      intro c hc
      cases m with
      | nil => exact absurd rfl h3
      | cons d m =>
        simp only [List.cons_append, List.head?_cons, Option.some.injEq] at hc
        subst hc
        have := h4 d (List.mem_cons_self ..)
        clear h3 h4
        revert this
        revert d
        apply forall_u8
        decide +kernel
    dsimp only
    rw [e1]
    have e2 : (a ++ m ++ b!": " ++ x :: y).drop a.length = m ++ (b!": " ++ x :: y) := by
      rw [List.append_assoc, List.append_assoc, List.drop_left]
    rw [e2]
    have e3 : (m ++ (b!": " ++ x :: y)).takeWhile isDig = m :=
      takeWhile_all m _ (by intro c hc; rw [isDig_eq]; exact h4 c hc) (by intro c hc; simp at hc; subst hc; decide)
    rw [e3, List.drop_left]
    rw [if_pos ⟨h1, h3, by simp [List.isPrefixOf], by simp⟩]

theorem ifaceLine_none (l : CStr) : ifaceLine l = none ↔ ∀ n, ¬ IfLine l n := by
  constructor
  · intro h n hn
    rw [← ifaceLine_iff, h] at hn
    cases hn
  · intro h
    cases e : ifaceLine l with
    | none => rfl
    | some n => exact absurd ((ifaceLine_iff l n).1 e) (h n)

theorem findReal_iff (iface cur : CStr) (ls : List CStr) (n : CStr) : findReal iface cur ls = some n ↔ Described iface cur ls n := by
  induction ls generalizing cur with
  | nil =>
    unfold findReal
    exact ⟨fun h => (by cases h), fun h => (by cases h)⟩
  | cons l ls ih =>
    unfold findReal
    cases e : ifaceLine l with
    | some m =>
      dsimp only
      rw [ih]
      have hm := (ifaceLine_iff l m).1 e
      constructor
      · exact fun h => .line hm h
      · intro h
        cases h with
        | line a b => rw [← ifaceLine_iff, e] at a; cases a; exact b
        | here a _ _ => exact absurd hm (a m)
        | other a _ _ => exact absurd hm (a m)
    | none =>
      dsimp only
      have hn := (ifaceLine_none l).1 e
      by_cases hc : b!"wg".isPrefixOf cur = true ∧ l = b!"\tdescription: wg-quick: " ++ iface
      · have hp : b!"wg" <+: cur := List.isPrefixOf_iff_prefix.1 hc.1
        rw [if_pos hc]
        constructor
        · intro h
          simp only [Option.some.injEq] at h
          subst h
          exact .here hn hp hc.2
        · intro h
          cases h with
          | line a _ => exact absurd a (hn _)
          | here _ _ _ => rfl
          | other _ a _ => exact absurd ⟨hp, hc.2⟩ a
      · rw [if_neg hc, ih]
        have hc' : ¬ (b!"wg" <+: cur ∧ l = b!"\tdescription: wg-quick: " ++ iface) := fun h => hc ⟨List.isPrefixOf_iff_prefix.2 h.1, h.2⟩
        constructor
        · exact fun h => .other hn hc' h
        · intro h
          cases h with
          | line a _ => exact absurd a (hn _)
          | here _ a b => exact absurd ⟨a, b⟩ hc'
          | other _ _ a => exact a

theorem fullLines (out : List UInt8) : FullLines out (rawLines out) := by
  obtain ⟨hc, hs, hl⟩ := WG.Quick.splitLF_spec out
  generalize (WG.Quick.splitLF out).1 = segs at *
  generalize (WG.Quick.splitLF out).2 = last at *
  have e : rawLines out = segs.map (·.filter (· ≠ 0)) := by
    unfold rawLines
    rw [hc, WG.Quick.getlines_of segs last hs hl, List.filterMap_append]
    have e1 : (segs.map (· ++ [10])).filterMap (fun raw => if raw.getLast? = some 10 then some (raw.dropLast.filter (· ≠ 0)) else none) = segs.map (·.filter (· ≠ 0)) := by
      clear hs hc
      induction segs with
      | nil => rfl
      | cons s ss ih =>
        simp only [List.map_cons, List.filterMap_cons, List.getLast?_append, List.getLast?_singleton, List.dropLast_concat]
        simp only [Option.some_or, if_true, ih]
    have e2 : (if last = [] then [] else [last]).filterMap (fun raw : List UInt8 => if raw.getLast? = some 10 then some (raw.dropLast.filter (· ≠ 0)) else none) = [] := by
      by_cases e : last = []
      · subst e; rfl
      · rw [if_neg e]
        have : last.getLast? ≠ some 10 := fun e => hl (List.mem_of_getLast? e)
        simp [this]
    rw [e1, e2, List.append_nil]
  rw [e]
  refine ⟨last.filter (· ≠ 0), ?_, ?_, fun h => hl (List.mem_of_mem_filter h)⟩
  · rw [hc]; exact WG.Quick.filter_lines ..
  · intro s h
    obtain ⟨s', h', rfl⟩ := List.mem_map.1 h
    exact fun e => hs s' h' (List.mem_of_mem_filter e)

theorem showDec_inj {m n : Nat} (h : showDec m = showDec n) : m = n := by
  have h1 := showDec_isDecimal m
  have h2 := showDec_isDecimal n
  rw [h] at h1
  exact h1.2.2.trans h2.2.2.symm

theorem freeIndex_spec (names : List CStr) : wgName (freeIndex names) ∉ names ∧ ∀ m < freeIndex names, wgName m ∈ names := by
  unfold freeIndex
  cases e : (List.range (names.length + 1)).find? (fun i => decide (b!"wg" ++ showDec i ∉ names)) with
  | none =>
    exfalso
    rw [List.find?_eq_none] at e
    have hall : ∀ i < names.length + 1, wgName i ∈ names := by
      intro i hi
      have := e i (List.mem_range.2 hi)
      simpa [wgName] using this
    have hn : ((List.range (names.length + 1)).map wgName).Nodup := by
      refine List.Nodup.map_on ?_ List.nodup_range
      intro x _ y _ hxy
      exact showDec_inj (List.append_cancel_left hxy)
    have := (hn.subperm (l₂ := names) (by
      intro x hx
      obtain ⟨i, hi, rfl⟩ := List.mem_map.1 hx
      exact hall i (List.mem_range.1 hi))).length_le
    simp at this
    omega
  | some i =>
    dsimp only [Option.getD]
    rw [List.find?_range_eq_some] at e
    refine ⟨by simpa [wgName] using e.1, fun m hm => ?_⟩
    simpa [wgName] using e.2.2 m hm

theorem freeName (out : List UInt8) : FreeName out (wgName (freeIndex (wordsAux [] (chomp out)))) := by
  obtain ⟨h1, h2⟩ := freeIndex_spec (wordsAux [] (chomp out))
  refine ⟨_, _, blankWords _, rfl, h1, h2⟩

theorem beforeLast_of (c : UInt8) (a n : List UInt8) (h : c ∉ n) : (((a ++ c :: n).reverse.dropWhile (· ≠ c)).drop 1).reverse = a := by
  have : (a ++ c :: n).reverse = n.reverse ++ c :: a.reverse := by simp
  rw [this, List.dropWhile_append_of_pos (by
    intro x hx
    have : x ≠ c := by rintro rfl; exact h (List.mem_reverse.1 hx)
    simpa using this), List.dropWhile_cons_of_neg (by simp)]
  simp

theorem last_split {c : UInt8} {l : List UInt8} (h : c ∈ l) : ∃ a n, l = a ++ c :: n ∧ c ∉ n := by
  induction l with
  | nil => cases h
  | cons x l ih =>
    by_cases hl : c ∈ l
    · obtain ⟨a, n, rfl, h2⟩ := ih hl
      exact ⟨x :: a, n, rfl, h2⟩
    · rcases List.mem_cons.1 h with rfl | h
      · exact ⟨[], l, rfl, hl⟩
      · exact absurd h hl

theorem beforeLastSlash_spec (x : CStr) : (∃ n, x = beforeLastSlash x ++ c!"/" :: n ∧ c!"/" ∉ n) ∨ (c!"/" ∉ x ∧ beforeLastSlash x = x) := by
  unfold beforeLastSlash
  by_cases h : c!"/" ∈ x
  · rw [if_pos h]
    obtain ⟨a, n, rfl, h2⟩ := last_split h
    rw [beforeLast_of _ _ _ h2]
    exact .inl ⟨n, rfl, h2⟩
  · rw [if_neg h]; exact .inr ⟨h, rfl⟩

/-- The part of `ifaceIn` for one place. -/
def ifHere (t : CStr) : Option CStr :=
  let r : CStr := (t.drop 11).takeWhile (· ≠ 32)
  let g : CStr := ((r.reverse.dropWhile (· ≠ 10)).drop 1).reverse
  if b!"interface: ".isPrefixOf t ∧ (10 : UInt8) ∈ r ∧ g ≠ [] then some g else none

theorem ifHere_of (g b : CStr) (h1 : g ≠ []) (h2 : (32 : UInt8) ∉ g) : ∃ g', ifHere (b!"interface: " ++ g ++ 10 :: b) = some g' := by
  have e : ((b!"interface: " ++ g ++ 10 :: b).drop 11).takeWhile (· ≠ 32) = g ++ 10 :: b.takeWhile (· ≠ 32) := by
    have : (b!"interface: " ++ g ++ 10 :: b).drop 11 = (g ++ [10]) ++ b := by simp
    rw [this, List.takeWhile_append_of_pos (by
      intro x hx
      have : x ≠ 32 := by
        rintro rfl
        rcases List.mem_append.1 hx with h | h
        · exact h2 h
        · simp at h
      simpa using this)]
    simp
  unfold ifHere
  dsimp only
  rw [e]
  have h10 : (10 : UInt8) ∈ g ++ 10 :: b.takeWhile (· ≠ 32) := by simp
  obtain ⟨a, n, e2, h3⟩ := last_split h10
  rw [e2, beforeLast_of _ _ _ h3]
  have ha : a ≠ [] := by
    rintro rfl
    cases g with
    | nil => exact h1 rfl
    | cons x g =>
      simp only [List.cons_append, List.nil_append, List.cons.injEq] at e2
      rw [← e2.2] at h3
      exact h3 (by simp)
  rw [if_pos ⟨by simp [List.isPrefixOf], by simp, ha⟩]
  exact ⟨a, rfl⟩

theorem ifHere_some {t g : CStr} (h : ifHere t = some g) :
    ∃ b, t = b!"interface: " ++ g ++ 10 :: b ∧ g ≠ [] ∧ (32 : UInt8) ∉ g ∧ ∀ x y, b = x ++ 10 :: y → (32 : UInt8) ∈ x := by
  unfold ifHere at h
  dsimp only at h
  split at h
  · rename_i hc
    obtain ⟨h1, h2, h3⟩ := hc
    simp only [Option.some.injEq] at h
    rw [List.isPrefixOf_iff_prefix] at h1
    obtain ⟨u, rfl⟩ := h1
    have e : (b!"interface: " ++ u).drop 11 = u := by simp
    rw [e] at h h2 h3
    obtain ⟨a, n, e2, h4⟩ := last_split h2
    rw [e2, beforeLast_of _ _ _ h4] at h h3
    subst h
    have hu := takeWhile_drop (· ≠ 32) u
    rw [e2] at hu
    have hno : (32 : UInt8) ∉ a ++ 10 :: n := by
      rw [← e2]
      intro hm
      have := List.mem_takeWhile_imp hm
      simp at this
    refine ⟨n ++ u.drop (a ++ 10 :: n).length, ?_, h3, fun hm => hno (by simp [hm]), ?_⟩
    · conv_lhs => rw [hu]
      simp
    · intro x y hxy
      by_contra hx
      -- `x` cannot be longer than `n`
      have hn : ∀ k, (u.drop (a ++ 10 :: n).length).head? = some k → k = 32 := by
        intro k hk
        have : u.drop (a ++ 10 :: n).length = u.dropWhile (· ≠ 32) := by
          have h5 := List.takeWhile_append_dropWhile (p := fun c => decide (c ≠ (32 : UInt8))) (l := u)
          rw [e2] at h5
          conv_lhs => rw [← h5, List.drop_left]
        rw [this] at hk
        have := WG.Quick.dropWhile_head_false _ _ k hk
        simpa using this
      rcases List.append_eq_append_iff.1 hxy with ⟨p, e3, e4⟩ | ⟨p, e3, e4⟩
      · cases p with
        | nil =>
          rw [List.nil_append] at e4
          have := hn 10 (by rw [e4]; rfl)
          simp at this
        | cons k p =>
          have := hn k (by rw [e4]; rfl)
          subst this
          exact hx (by rw [e3]; simp)
      · cases p with
        | nil =>
          rw [List.nil_append] at e4
          have := hn 10 (by rw [← e4]; rfl)
          simp at this
        | cons k p =>
          simp only [List.cons_append, List.cons.injEq] at e4
          apply h4
          rw [e3, ← e4.1]
          simp
  · cases h

theorem ifaceIn_iff (s g : CStr) : ifaceIn s = some g ↔ IfShown s g := by
  have e : ifaceIn s = (suffixes s).findSome? ifHere := rfl
  rw [e, WG.Quick.find_first]
  constructor
  · rintro ⟨a, t, rfl, h1, h2⟩
    obtain ⟨b, rfl, h3, h4, h5⟩ := ifHere_some h1
    refine ⟨a, b, by simp, h3, h4, h5, ?_⟩
    intro a' g' b' hs hg h32
    obtain ⟨g2, hg2⟩ := ifHere_of g' b' hg h32
    exact h2 a' (b!"interface: " ++ g' ++ 10 :: b') (by rw [hs]; simp) (by rw [hg2]; simp)
  · rintro ⟨a, b, rfl, h1, h2, h3, h4⟩
    refine ⟨a, b!"interface: " ++ g ++ 10 :: b, by simp, ?_, ?_⟩
    · obtain ⟨g2, hg2⟩ := ifHere_of g b h1 h2
      obtain ⟨b2, e2, k1, k2, k3⟩ := ifHere_some hg2
      rw [hg2]
      congr 1
      -- both are the longest
      have e3 : g ++ 10 :: b = g2 ++ 10 :: b2 := by simpa using e2
      rcases List.append_eq_append_iff.1 e3 with ⟨p, e4, e5⟩ | ⟨p, e4, e5⟩
      · cases p with
        | nil => rw [e4, List.append_nil]
        | cons k p =>
          simp only [List.cons_append, List.cons.injEq] at e5
          obtain ⟨_, e5⟩ := e5
          have := h3 p b2 e5
          exact absurd (by rw [e4]; simp [this]) k2
      · cases p with
        | nil => rw [e4, List.append_nil]
        | cons k p =>
          simp only [List.cons_append, List.cons.injEq] at e5
          obtain ⟨_, e5⟩ := e5
          have := k3 p b e5
          exact absurd (by rw [e4]; simp [this]) h2
    · intro a' t' hs hn
      cases e3 : ifHere t' with
      | none => exact absurd e3 hn
      | some g' =>
        obtain ⟨b', rfl, k1, k2, _⟩ := ifHere_some e3
        exact h4 a' g' b' (by rw [hs]; simp) k1 k2

theorem ifaceIn_none (s : CStr) : ifaceIn s = none ↔ ∀ g, ¬ IfShown s g := by
  constructor
  · intro h g hg
    rw [← ifaceIn_iff, h] at hg
    cases hg
  · intro h
    cases e : ifaceIn s with
    | none => rfl
    | some g => exact absurd ((ifaceIn_iff s g).1 e) (h g)

/-- One line shows no interface. -/
theorem firstLine_none (out : List UInt8) : ifaceIn (firstLine out) = none := by
  have h10 : (10 : UInt8) ∉ firstLine out := by
    obtain ⟨s, h1, h2⟩ := WG.Quick.firstLine_sound out
    have : firstLine out = WG.Quick.trim spaceTab s := WG.Quick.trim_of _ h2
    obtain ⟨a, b, hab⟩ : ∃ a b, s = a ++ firstLine out ++ b := by
      obtain ⟨a, b, e, _⟩ := h2
      exact ⟨a, b, e⟩
    intro h
    exact h1.1 (by rw [hab]; simp [h])
  rw [ifaceIn_none]
  rintro g ⟨a, b, e, _⟩
  exact h10 (by rw [e]; simp)

/-! ### Regular expressions -/

theorem atoms_plain (s : CStr) (h : c!"+" ∉ s) : atoms s = s.map fun c => (c, false) := by
  match s with
  | [] => rfl
  | [c] => rfl
  | c :: d :: t =>
    have hd : d ≠ c!"+" := by rintro rfl; exact h (by simp)
    unfold atoms
    rw [if_neg hd, atoms_plain (d :: t) (fun hm => h (List.mem_cons_of_mem _ hm))]
    rfl

theorem reHere_plain (p s : CStr) (h : c!"." ∉ p) : reHere (p.map fun c => (c, false)) s = p.isPrefixOf s := by
  induction p generalizing s with
  | nil => simp [reHere]
  | cons a p ih =>
    have ha : a ≠ c!"." := by rintro rfl; exact h (by simp)
    cases s with
    | nil => rfl
    | cons c s =>
      simp only [List.map_cons, reHere, ih s (fun hm => h (List.mem_cons_of_mem _ hm)), List.isPrefixOf]
      simp only [decide_eq_false ha, Bool.false_or]
      congr 1
      by_cases hca : c = a
      · subst hca; simp
      · have hac : a ≠ c := fun h => hca h.symm
        simp [hca, hac]

theorem throughIf_iff (real s : CStr) (h1 : c!"." ∉ real) (h2 : c!"+" ∉ real) : throughIf real s = true ↔ Occurs (b!"interface: " ++ real ++ b!"\n") s := by
  rw [← hasInfix_iff]
  unfold throughIf hasInfix
  have e : atoms (b!"interface: " ++ real ++ [10]) = (b!"interface: " ++ real ++ [10]).map fun c => (c, false) := atoms_plain _ (by
    intro h
    simp only [List.mem_append] at h
    rcases h with (h | h) | h
    · revert h; decide
    · exact h2 h
    · revert h; decide)
  rw [e]
  have : ∀ t, reHere ((b!"interface: " ++ real ++ [10]).map fun c => (c, false)) t = (b!"interface: " ++ real ++ b!"\n").isPrefixOf t := fun t => reHere_plain _ t (by
    intro h
    simp only [List.mem_append] at h
    rcases h with (h | h) | h
    · revert h; decide
    · exact h1 h
    · revert h; decide)
  rw [funext this]

/-! ### MTU -/

theorem defaultIf_spec (out : List UInt8) : DefaultIf out (defaultIf out) := by
  refine ⟨readLoopLines out, (endedLines_iff _ _).2 rfl, ?_⟩
  dsimp only
  unfold defaultIf
  have key : ∀ l i, (∃ ws, Words blankSep l ws ∧ ws.head? = some b!"default" ∧ i = (ws[5]?).getD []) ↔ wordAt 0 l = b!"default" ∧ i = wordAt 5 l := by
    intro l i
    constructor
    · rintro ⟨ws, h1, h2, h3⟩
      rw [wordAt_of h1, wordAt_of h1]
      refine ⟨?_, h3⟩
      rw [← List.head?_eq_getElem?, h2]; rfl
    · rintro ⟨h1, h2⟩
      refine ⟨_, blankWords l, ?_, ?_⟩
      · rw [wordAt_of (blankWords l), ← List.head?_eq_getElem?] at h1
        cases e : (wordsAux [] l).head? with
        | none => rw [e] at h1; simp at h1
        | some x => rw [e] at h1; simpa using h1
      · rw [h2, wordAt_of (blankWords l)]
  simp only [key]
  cases e : (readLoopLines out).find? (fun l => decide (wordAt 0 l = b!"default")) with
  | none =>
    right
    rw [List.find?_eq_none] at e
    refine ⟨fun x hx i h => e x hx (by simpa using h.1), rfl⟩
  | some l =>
    left
    rw [List.find?_eq_some_iff_append] at e
    obtain ⟨h1, a, b, h2, h3⟩ := e
    exact ⟨a, l, b, h2, fun x hx i h => (by have := h3 x hx; simp [h.1] at this), by simpa using h1, rfl⟩

theorem mtuOr (out : List UInt8) (d : Nat) : MtuOr out d ((((mtuIn (chomp out)).map (digitsVal 10)).getD d : Nat) : Int) := by
  cases e : mtuIn (chomp out) with
  | none => exact .inr ⟨(mtuIn_none _).1 e, rfl⟩
  | some x => exact .inl ⟨digitsVal 10 x, (mtuIn_iff _ _).1 (by rw [← chomp_eq, e]; rfl), rfl⟩

theorem mtuOr' (out : List UInt8) : MtuOr out (-1) (((mtuIn (chomp out)).map fun d => (digitsVal 10 d : Int)).getD (-1)) := by
  cases e : mtuIn (chomp out) with
  | none => exact .inr ⟨(mtuIn_none _).1 e, rfl⟩
  | some x => exact .inl ⟨digitsVal 10 x, (mtuIn_iff _ _).1 (by rw [← chomp_eq, e]; rfl), rfl⟩

theorem mtime (r : Reply) (n : Nat) : MTime r n (mtimeOf r n) := by
  unfold MTime mtimeOf
  refine ⟨fun h hd => ?_, fun h => by rw [if_neg h]⟩
  rw [if_pos h, chomp_eq, digitsVal10 _ hd]

end WG.Bsd
