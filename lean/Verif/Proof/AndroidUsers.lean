import Verif.Proof.AndroidRun
import Verif.Proof.AndroidParse
import Verif.Proof.Uapi
import Verif.Proof.Show
import Verif.Proof.BsdShown
import Verif.Proof.QuickVals
import Verif.Spec.AndroidRun
/-!
The uids that wg-quick for Android gives to a network.
-/
namespace WG.Android
open WG.Spec WG.Spec.Android WG.Spec.Quick

/-! ### The entries of a list -/

theorem takeWhile_stop {p : UInt8 → Bool} (a : List UInt8) (c : UInt8) (t : List UInt8) (ha : ∀ x ∈ a, p x = true) (hc : p c = false) :
    (a ++ c :: t).takeWhile p = a ∧ (a ++ c :: t).drop a.length = c :: t := by
  refine ⟨?_, by simp⟩
  rw [List.takeWhile_append_of_pos ha, List.takeWhile_cons_of_neg (by simp [hc])]; simp

theorem split_comma (sel : CStr) : (c!"," ∉ sel) ∨ ∃ a rest, sel = a ++ c!"," :: rest ∧ c!"," ∉ a := by
  induction sel with
  | nil => exact .inl (by simp)
  | cons c t ih =>
    by_cases hc : c = c!","
    · exact .inr ⟨[], t, by simp [hc], by simp⟩
    · rcases ih with h | ⟨a, rest, rfl, h⟩
      · exact .inl (by simp [h, Ne.symm hc])
      · exact .inr ⟨c :: a, rest, rfl, by simp [h, Ne.symm hc]⟩

theorem listed_none {sel : CStr} (h : c!"," ∉ sel) (n : CStr) : Listed sel n ↔ n = sel ∧ n ≠ [] := by
  constructor
  · rintro ⟨h1, h2, pre, post, rfl, h3, h4⟩
    have hp : pre = [] := by
      rcases hl : pre.getLast? with _ | c
      · simpa using hl
      · exact absurd (by have := List.mem_of_getLast? hl; rw [h3 c hl] at this; simp [this]) h
    have hq : post = [] := by
      rcases hl : post.head? with _ | c
      · simpa using hl
      · exact absurd (by have := List.mem_of_head? hl; rw [h4 c hl] at this; simp [this]) h
    exact ⟨by simp [hp, hq], h1⟩
  · rintro ⟨rfl, h1⟩
    exact ⟨h1, h, [], [], by simp, by simp, by simp⟩

theorem listed_cons {a rest : CStr} (h : c!"," ∉ a) (n : CStr) : Listed (a ++ c!"," :: rest) n ↔ (n = a ∧ n ≠ []) ∨ Listed rest n := by
  constructor
  · rintro ⟨h1, h2, pre, post, he, h3, h4⟩
    by_cases hp : pre = []
    · subst hp
      left
      refine ⟨?_, h1⟩
      rcases post with _ | ⟨c, post⟩
      · exact absurd (by rw [List.nil_append, List.append_nil] at he; rw [← he]; simp) h2
      · have hc : c = c!"," := h4 c rfl
        subst hc
        rw [List.nil_append] at he
        have e1 := congrArg (List.takeWhile (fun x => decide (x ≠ c!","))) he
        rw [(takeWhile_stop a _ rest (by intro x hx; simp; rintro rfl; exact h hx) (by simp)).1,
          (takeWhile_stop n _ post (by intro x hx; simp; rintro rfl; exact h2 hx) (by simp)).1] at e1
        exact e1.symm
    · right
      obtain ⟨pre', rfl⟩ : ∃ p, pre = p ++ [c!","] := by
        rcases List.eq_nil_or_concat pre with h0 | ⟨p, c, h0⟩
        · exact absurd h0 hp
        · subst h0
          have := h3 c (by simp)
          exact ⟨p, by rw [this]; simp⟩
      have he' : a ++ c!"," :: rest = pre' ++ c!"," :: (n ++ post) := by rw [he]; simp
      rcases List.append_eq_append_iff.1 he' with ⟨x, hx1, hx2⟩ | ⟨x, hx1, hx2⟩
      · rcases x with _ | ⟨y, x⟩
        · simp at hx2 hx1
          exact ⟨h1, h2, [], post, by simp [hx2], by simp, h4⟩
        · simp only [List.cons_append, List.cons.injEq] at hx2
          obtain ⟨hy, hx2⟩ := hx2
          subst hy
          refine ⟨h1, h2, x ++ [c!","], post, by simp [hx2], by simp, h4⟩
      · rcases x with _ | ⟨y, x⟩
        · simp at hx2 hx1
          exact ⟨h1, h2, [], post, by simp [hx2], by simp, h4⟩
        · simp only [List.cons_append, List.cons.injEq] at hx2
          exact absurd (by rw [hx1, ← hx2.1]; simp) h
  · rintro (⟨rfl, h1⟩ | ⟨h1, h2, pre, post, rfl, h3, h4⟩)
    · exact ⟨h1, h, [], c!"," :: rest, by simp, by simp, by simp⟩
    · refine ⟨h1, h2, a ++ c!"," :: pre, post, by simp, ?_, h4⟩
      intro c hc
      rw [List.getLast?_append] at hc
      rcases hl : pre.getLast? with _ | d
      · have : pre = [] := by simpa using hl
        subst this
        simp at hc; exact hc.symm
      · have : (c!"," :: pre).getLast? = some d := by rw [List.getLast?_cons, hl]; rfl
        rw [this] at hc
        simp at hc; subst hc
        exact h3 d hl

/-- Reading behind the list finds nothing: it ends with a comma, or there is a zero. -/
def Ends (sel residue : List UInt8) : Prop := residue.head? = some 0 ∨ sel = [] ∨ sel.getLast? = some c!","

theorem tokens_ok : ∀ (fuel : Nat) (sel residue : List UInt8), sel.length + 2 ≤ fuel → (0 : UInt8) ∉ sel → Ends sel residue →
    ∃ toks, tokens fuel (sel ++ 0 :: residue) = some toks ∧ (∀ n, n ∈ toks ∧ n ≠ [] ↔ Listed sel n) ∧ (toks.filter (· ≠ [])).length ≤ 1 + sel.count c!","
  | 0, _, _, hf, _, _ => by omega
  | fuel + 1, sel, residue, hf, h0, hE => by
    rcases split_comma sel with hc | ⟨a, rest, rfl, hc⟩
    · have h1 := takeWhile_stop (p := fun c => decide (c ≠ c!"," ∧ c ≠ 0)) sel 0 residue (by
        intro x hx; simp only [decide_eq_true_eq]; exact ⟨fun h => hc (h ▸ hx), fun h => h0 (h ▸ hx)⟩) (by decide)
      simp only [tokens, h1.1, h1.2]
      by_cases hs : sel = []
      · subst hs
        refine ⟨[], by simp, ?_, by simp⟩
        intro n
        rw [listed_none hc]; simp
      · rw [if_neg (by simp [hs])]
        rcases hE with hE | hE | hE
        · obtain ⟨f, rfl⟩ : ∃ f, fuel = f + 1 := ⟨fuel - 1, by omega⟩
          rcases residue with _ | ⟨c, r⟩
          · simp at hE
          · simp only [List.head?_cons, Option.some.injEq] at hE
            subst hE
            refine ⟨[sel], by simp [tokens], ?_, ?_⟩
            · intro n
              rw [listed_none hc]; simp
            · simp [hs]
        · exact absurd hE hs
        · exact absurd (List.mem_of_getLast? hE) hc
    · have h0' : (0 : UInt8) ∉ a ∧ (0 : UInt8) ∉ rest := by simp at h0; exact ⟨h0.1, h0.2⟩
      have h1 := takeWhile_stop (p := fun c => decide (c ≠ c!"," ∧ c ≠ 0)) a c!"," (rest ++ 0 :: residue) (by
        intro x hx; simp only [decide_eq_true_eq]; exact ⟨fun h => hc (h ▸ hx), fun h => h0'.1 (h ▸ hx)⟩) (by decide)
      have hE' : Ends rest residue := by
        rcases hE with hE | hE | hE
        · exact .inl hE
        · simp at hE
        · rcases rest with _ | ⟨c, r⟩
          · exact .inr (.inl rfl)
          · right; right
            rw [List.getLast?_append, List.getLast?_cons_cons] at hE
            rcases hl : (c :: r).getLast? with _ | d
            · simp at hl
            · rw [hl] at hE; simpa using hE
      obtain ⟨toks, h2, h3, h4⟩ := tokens_ok fuel rest residue (by simp at hf; omega) h0'.2 hE'
      refine ⟨a :: toks, ?_, ?_, ?_⟩
      · rw [List.append_assoc, List.cons_append]
        simp only [tokens, h1.1, h1.2, h2]
        rw [if_neg (by simp)]; rfl
      · intro n
        rw [listed_cons hc, ← h3 n]
        simp only [List.mem_cons]
        constructor
        · rintro ⟨rfl | h, hn⟩
          · exact .inl ⟨rfl, hn⟩
          · exact .inr ⟨h, hn⟩
        · rintro (⟨rfl, hn⟩ | ⟨h, hn⟩)
          · exact ⟨.inl rfl, hn⟩
          · exact ⟨.inr h, hn⟩
      · have : (a :: toks).filter (· ≠ []) = (if a ≠ [] then [a] else []) ++ toks.filter (· ≠ []) := by
          rw [List.filter_cons]; by_cases ha : a = [] <;> simp [ha]
        rw [this, List.length_append, List.count_append, List.count_cons]
        simp only [beq_self_eq_true, if_true]
        have : (if a ≠ [] then [a] else []).length ≤ 1 := by split <;> simp
        have hz : a.count c!"," = 0 := List.count_eq_zero.2 hc
        omega

/-- The array is large enough for all entries. -/
theorem tokens_cap {sel residue : List UInt8} {cap fuel : Nat} (hcap : uidCap sel = some cap) (hf : sel.length + 2 ≤ fuel) (h0 : (0 : UInt8) ∉ sel)
    (hE : Ends sel residue) : ∃ toks, tokens fuel (sel ++ 0 :: residue) = some toks ∧ (∀ n, n ∈ toks ∧ n ≠ [] ↔ Listed sel n) ∧
      (toks.filter (· ≠ [])).length < cap := by
  rcases sel with _ | ⟨c, t⟩
  · simp [uidCap] at hcap
  · simp only [uidCap, Option.some.injEq] at hcap
    subst hcap
    obtain ⟨toks, h1, h2, h3⟩ := tokens_ok fuel (c :: t) residue hf h0 hE
    refine ⟨toks, h1, h2, ?_⟩
    by_cases hc : c = c!","
    · subst hc
      obtain ⟨f, rfl⟩ : ∃ f, fuel = f + 1 := ⟨fuel - 1, by omega⟩
      have h4 : tokens (f + 1) (c!"," :: t ++ 0 :: residue) = (tokens f (t ++ 0 :: residue)).map fun ts => [] :: ts := by
        simp only [tokens, List.cons_append]
        rw [List.takeWhile_cons_of_neg (by simp)]
        simp
      obtain ⟨toks', h5, h6, h7⟩ := tokens_ok f t residue (by simp at hf; omega) (by simp at h0; exact h0) (by
        rcases hE with hE | hE | hE
        · exact .inl hE
        · simp at hE
        · rcases t with _ | ⟨d, r⟩
          · exact .inr (.inl rfl)
          · rw [List.getLast?_cons_cons] at hE; exact .inr (.inr hE))
      rw [h4, h5] at h1
      simp only [Option.map_some, Option.some.injEq] at h1
      subst h1
      simp only [ne_eq, not_true_eq_false, decide_false, Bool.false_eq_true, not_false_eq_true, List.filter_cons_of_neg]
      simp only [ne_eq] at h7
      omega
    · rw [List.count_cons] at h3
      have : (c == c!",") = false := by simp [hc]
      rw [this] at h3
      simp only [Bool.false_eq_true, if_false] at h3
      omega

/-! ### The package list -/

theorem digit_plain : ∀ c : UInt8, isDigit c = true → c ≠ 32 ∧ c ≠ 0 ∧ c ≠ 10 ∧ c ≠ 9 ∧ c ≠ c!"-" := by
  apply forall_u8; decide +kernel

theorem packageOf_line {l name : List UInt8} {uid : Nat} (h : PackageLine l name uid) (h1 : 0 < uid) (h2 : uid < 2 ^ 31) : packageOf l = some (name, uid) := by
  obtain ⟨hn, ds, rest, ⟨hd0, hd1, hd2⟩, rfl⟩ := h
  have hdp := fun c hc => digit_plain c (hd1 c hc)
  have hc : ∃ rest', cstr (name ++ b!" " ++ ds ++ b!" " ++ rest) = name ++ 32 :: (ds ++ 32 :: rest') := by
    refine ⟨rest.takeWhile (· ≠ 0), ?_⟩
    unfold cstr
    rw [show name ++ b!" " ++ ds ++ b!" " ++ rest = (name ++ b!" " ++ ds ++ b!" ") ++ rest from by simp]
    rw [List.takeWhile_append_of_pos]
    · simp
    · intro c hc
      simp only [List.mem_append, List.mem_singleton] at hc
      simp only [ne_eq, decide_eq_true_eq]
      rcases hc with ((hc | hc) | hc) | hc
      · exact (hn c hc).2
      · subst hc; decide
      · exact (hdp c hc).2.1
      · subst hc; decide
  obtain ⟨rest', hc⟩ := hc
  have e1 : (name ++ 32 :: (ds ++ 32 :: rest')).takeWhile (fun x => decide (x ≠ 32)) = name :=
    (takeWhile_stop name 32 _ (by intro x hx; simpa using (hn x hx).1) (by decide)).1
  have e2 : (name ++ 32 :: (ds ++ 32 :: rest')).dropWhile (fun x => decide (x ≠ 32)) = 32 :: (ds ++ 32 :: rest') := by
    rw [List.dropWhile_append_of_pos (by intro x hx; simpa using (hn x hx).1), List.dropWhile_cons_of_neg (by simp)]
  have e3 : (ds ++ 32 :: rest').takeWhile (fun x => decide (x ≠ 32)) = ds :=
    (takeWhile_stop ds 32 _ (by intro x hx; simpa using (hdp x hx).1) (by decide)).1
  have e4 := strtoul10_all (2 ^ 64 - 1) ds hd0 hd1
  have hv : decVal ds = uid := hd2.symm
  rw [hv, if_neg (by omega)] at e4
  simp only [packageOf, hc, e1, e2, e3, e4]
  rw [if_neg, Nat.mod_eq_of_lt (by omega)]
  rw [Nat.mod_eq_of_lt (by omega)]
  simp [hd0]; omega

/-- What one line stores. -/
def lineUids (toks : List CStr) (raw : List UInt8) : List Nat := match packageOf raw with
  | none => []
  | some (name, uid) => (toks.filter fun t => t ≠ [] ∧ t = name).map fun _ => uid

theorem storedUids_eq (toks : List CStr) (content : List UInt8) : storedUids toks content = (getlines content).flatMap (lineUids toks) := rfl

theorem stored_apps (toks : List CStr) {lines : List (List UInt8)} {apps : List (CStr × Nat)}
    (h : List.Forall₂ (fun l a => PackageLine l a.1 a.2) lines apps) (hu : ∀ a ∈ apps, 0 < a.2 ∧ a.2 < 2 ^ 31) :
    lines.flatMap (lineUids toks) = apps.flatMap fun a => ((toks.filter (· ≠ [])).filter (· = a.1)).map fun _ => a.2 := by
  induction h with
  | nil => rfl
  | @cons l a ls as h1 _ ih =>
    obtain ⟨h3, h4⟩ := hu a (by simp)
    rw [List.flatMap_cons, List.flatMap_cons, ih fun b hb => hu b (by simp [hb])]
    congr 1
    simp only [lineUids, packageOf_line h1 h3 h4, List.filter_filter]
    congr 1
    apply List.filter_congr
    intro t _
    simp [Bool.and_comm]

theorem apps_length {apps : List (CStr × Nat)} (hn : (apps.map Prod.fst).Nodup) : ∀ (toks : List CStr),
    (apps.flatMap fun a => (toks.filter (· = a.1)).map fun _ => a.2).length ≤ toks.length := by
  induction apps with
  | nil => simp
  | cons a as ih =>
    intro toks
    simp only [List.map_cons, List.nodup_cons] at hn
    have h1 : (as.flatMap fun b => (toks.filter (· = b.1)).map fun _ => b.2) = as.flatMap fun b => ((toks.filter (· ≠ a.1)).filter (· = b.1)).map fun _ => b.2 := by
      apply List.flatMap_congr
      intro b hb
      congr 1
      rw [List.filter_filter]
      apply List.filter_congr
      intro t _
      have : b.1 ≠ a.1 := fun h => hn.1 (h ▸ List.mem_map_of_mem hb)
      by_cases ht : t = b.1
      · subst ht; simp [this]
      · simp [ht]
    rw [List.flatMap_cons, List.length_append, h1]
    have h2 := ih hn.2 (toks.filter (· ≠ a.1))
    have h4 : (toks.filter (· = a.1)).length + (toks.filter (· ≠ a.1)).length = toks.length := by
      rw [List.length_eq_countP_add_countP (fun t => decide (t = a.1)) (l := toks), List.countP_eq_length_filter, List.countP_eq_length_filter]
      congr 2
      apply List.filter_congr
      intro t _
      simp
    rw [List.length_map]
    omega

/-- `qsort`: if the comparison is an order of the elements, they are put into that order. -/
def Sorts (sort : List Nat → List Nat) : Prop := ∀ l,
  (∀ a ∈ l, ∀ b ∈ l, (0 ≤ compareUid a b ↔ compareUid b a ≤ 0) ∧ ∀ c ∈ l, compareUid a b ≤ 0 → compareUid b c ≤ 0 → compareUid a c ≤ 0) →
  (sort l).Perm l ∧ (sort l).Pairwise fun a b => compareUid a b ≤ 0

theorem compareUid_small {a b : Nat} (ha : a < 2 ^ 31) (hb : b < 2 ^ 31) : compareUid a b = (a : Int) - b := by
  unfold compareUid; omega

theorem sorts_small {sort : List Nat → List Nat} (hs : Sorts sort) {l : List Nat} (h : ∀ u ∈ l, u < 2 ^ 31) : (sort l).Perm l ∧ (sort l).Pairwise (· ≤ ·) := by
  obtain ⟨h1, h2⟩ := hs l (by
    intro a ha b hb
    rw [compareUid_small (h a ha) (h b hb), compareUid_small (h b hb) (h a ha)]
    refine ⟨by omega, fun c hc => ?_⟩
    rw [compareUid_small (h b hb) (h c hc), compareUid_small (h a ha) (h c hc)]
    omega)
  refine ⟨h1, ?_⟩
  apply h2.imp_of_mem
  intro a b ha hb hab
  rw [compareUid_small (h a (h1.mem_iff.1 ha)) (h b (h1.mem_iff.1 hb))] at hab
  omega

theorem any_package {lines : List (List UInt8)} {apps : List (CStr × Nat)}
    (h : List.Forall₂ (fun l a => PackageLine l a.1 a.2) lines apps) (hu : ∀ a ∈ apps, 0 < a.2 ∧ a.2 < 2 ^ 31) :
    (lines.any fun raw => (packageOf raw).isSome) = !apps.isEmpty := by
  cases h with
  | nil => rfl
  | @cons l a ls as h1 _ =>
    obtain ⟨h3, h4⟩ := hu a (by simp)
    simp [packageOf_line h1 h3 h4]

/-- The uids found are those of the listed applications, sorted. -/
theorem getUidList_ok {content residue sel : List UInt8} {apps : List (CStr × Nat)} {sort : List Nat → List Nat} (hp : PackageList content apps)
    (hs : Sorts sort) (hne : sel ≠ []) (h0 : (0 : UInt8) ∉ sel) (hE : Ends sel residue) :
    ∃ l, getUidList (.ok content) residue sort (some sel) = .ok l ∧ l.Pairwise (· ≤ ·) ∧ (∀ u, u ∈ l ↔ UidListed apps sel u) ∧ ∀ u ∈ l, 0 < u ∧ u < 2 ^ 31 := by
  obtain ⟨cap, hcap⟩ : ∃ cap, uidCap sel = some cap := by
    rcases sel with _ | ⟨c, t⟩
    · exact absurd rfl hne
    · exact ⟨_, rfl⟩
  obtain ⟨h1, h2, h3⟩ := hp
  obtain ⟨toks, ht1, ht2, ht3⟩ := tokens_cap (fuel := (sel ++ 0 :: residue).length + 1) hcap (by simp) h0 hE
  rw [← getlines_eq] at h1
  have hst : storedUids toks content = apps.flatMap fun a => ((toks.filter (· ≠ [])).filter (· = a.1)).map fun _ => a.2 := stored_apps toks h1 h3
  have hlen : (storedUids toks content).length < cap := by
    rw [hst]
    exact Nat.lt_of_le_of_lt (apps_length h2 _) ht3
  have hmem : ∀ u, u ∈ storedUids toks content ↔ UidListed apps sel u := by
    intro u
    rw [hst]
    simp only [List.mem_flatMap, List.mem_map, List.mem_filter, decide_eq_true_eq]
    constructor
    · rintro ⟨a, ha, t, ⟨⟨h4, h5⟩, h6⟩, h7⟩
      subst h6; subst h7
      exact ⟨a.1, (ht2 a.1).1 ⟨h4, h5⟩, ha⟩
    · rintro ⟨n, hn, ha⟩
      obtain ⟨h4, h5⟩ := (ht2 n).2 hn
      exact ⟨(n, u), ha, n, ⟨⟨h4, h5⟩, rfl⟩, rfl⟩
  have hb : ∀ u ∈ storedUids toks content, 0 < u ∧ u < 2 ^ 31 := by
    intro u hu
    obtain ⟨n, _, ha⟩ := (hmem u).1 hu
    exact h3 _ ha
  by_cases ha : anyPackage content
  · obtain ⟨hs1, hs2⟩ := sorts_small hs fun u hu => (hb u hu).2
    refine ⟨_, ?_, hs2, fun u => (hs1.mem_iff).trans (hmem u), fun u hu => hb u (hs1.mem_iff.1 hu)⟩
    simp only [getUidList, hcap, ha, if_true, ht1, if_pos hlen]
  · have hz : apps = [] := by
      have := any_package h1 h3
      rw [show ((getlines content).any fun raw => (packageOf raw).isSome) = anyPackage content from rfl, Bool.eq_false_iff.2 ha] at this
      simpa using this.symm
    refine ⟨[], ?_, List.Pairwise.nil, ?_, by simp⟩
    · simp only [getUidList, hcap, if_neg ha]
    · intro u
      simp [UidListed, hz]

/-! ### Ranges -/

theorem gaps_snd : ∀ (us : List Nat) (start : Nat), (∀ u ∈ us, u < 2 ^ 31) → (gaps start us).2 = (us.getLast?.map (· + 1)).getD start
  | [], start, _ => rfl
  | u :: us, start, h => by
    have hu := h u (by simp)
    simp only [gaps]
    rw [gaps_snd us _ fun v hv => h v (by simp [hv]), Nat.mod_eq_of_lt (by omega)]
    rcases us with _ | ⟨v, vs⟩
    · simp
    · rw [List.getLast?_cons_cons]
      rcases hl : (v :: vs).getLast? with _ | x
      · simp at hl
      · rfl

theorem gaps_fst : ∀ (us : List Nat) (start : Nat), us.Pairwise (· ≤ ·) → (∀ u ∈ us, 0 < u ∧ u < 2 ^ 31 ∧ start ≤ u + 1) → ∀ x,
    (∃ r ∈ (gaps start us).1, r.1 ≤ x ∧ x ≤ r.2) ↔ start ≤ x ∧ x ∉ us ∧ ∃ u ∈ us, x < u
  | [], start, _, _, x => by simp [gaps]
  | u :: us, start, hs, h, x => by
    obtain ⟨hs1, hs2⟩ := List.pairwise_cons.1 hs
    obtain ⟨h1, h2, h3⟩ := h u (by simp)
    have ih := gaps_fst us (u + 1) hs2 (fun v hv => ⟨(h v (by simp [hv])).1, (h v (by simp [hv])).2.1, by have := hs1 v hv; omega⟩) x
    simp only [gaps]
    rw [Nat.mod_eq_of_lt (by omega)]
    have key : (∃ r ∈ (if start > u - 1 then (gaps (u + 1) us).1 else (start, u - 1) :: (gaps (u + 1) us).1), r.1 ≤ x ∧ x ≤ r.2) ↔
        (start ≤ x ∧ x < u) ∨ ∃ r ∈ (gaps (u + 1) us).1, r.1 ≤ x ∧ x ≤ r.2 := by
      by_cases hc : start > u - 1
      · rw [if_pos hc]
        constructor
        · exact .inr
        · rintro (⟨_, _⟩ | h)
          · omega
          · exact h
      · rw [if_neg hc]
        simp only [List.mem_cons, exists_eq_or_imp]
        apply or_congr _ Iff.rfl
        omega
    rw [key, ih]
    simp only [List.mem_cons, exists_eq_or_imp, not_or]
    constructor
    · rintro (⟨h4, h5⟩ | ⟨h4, h5, v, hv, h6⟩)
      · refine ⟨h4, ⟨by omega, fun hx => ?_⟩, .inl h5⟩
        have := hs1 x hx; omega
      · exact ⟨by omega, ⟨by omega, h5⟩, .inr ⟨v, hv, h6⟩⟩
    · rintro ⟨h4, ⟨h5, h6⟩, h7⟩
      by_cases hx : x < u
      · exact .inl ⟨h4, hx⟩
      · rcases h7 with h7 | ⟨v, hv, h7⟩
        · omega
        · exact .inr ⟨by omega, h6, v, hv, h7⟩

theorem dash_not (n : Nat) : c!"-" ∉ decimal n := by
  intro h
  exact (digit_plain _ ((decimal_isDecimal n).2.1 _ h)).2.2.2.2 rfl

theorem decimal_inj {m n : Nat} (h : decimal m = decimal n) : m = n := by
  rw [← showDec_eq, ← showDec_eq] at h; exact Bsd.showDec_inj h

theorem inArg_single (v u : Nat) : InArg (showDec v) u ↔ u = v := by
  rw [showDec_eq]
  constructor
  · rintro (h | ⟨lo, hi, h, _⟩)
    · exact (decimal_inj h).symm
    · exact absurd (by rw [h]; simp) (dash_not v)
  · rintro rfl; exact .inl rfl

theorem inArg_range (lo hi u : Nat) : InArg (showDec lo ++ b!"-" ++ showDec hi) u ↔ lo ≤ u ∧ u ≤ hi := by
  rw [showDec_eq, showDec_eq]
  constructor
  · rintro (h | ⟨lo', hi', h, h1, h2⟩)
    · exact absurd (by rw [← h]; simp) (dash_not u)
    · have e : decimal lo ++ c!"-" :: decimal hi = decimal lo' ++ c!"-" :: decimal hi' := by simpa using h
      have p : ∀ n : Nat, ∀ x ∈ decimal n, (fun x => decide (x ≠ c!"-")) x = true := fun n x hx => by
        simp only [decide_eq_true_eq]; rintro rfl; exact dash_not n hx
      have e1 := congrArg (List.takeWhile (fun x => decide (x ≠ c!"-"))) e
      rw [(takeWhile_stop _ _ _ (p lo) (by simp)).1, (takeWhile_stop _ _ _ (p lo') (by simp)).1] at e1
      rw [e1] at e
      simp only [List.append_cancel_left_eq, List.cons.injEq, true_and] at e
      rw [decimal_inj e1, decimal_inj e]
      exact ⟨h1, h2⟩
  · rintro ⟨h1, h2⟩
    exact .inr ⟨lo, hi, by simp, h1, h2⟩

theorem inArg_showRange (r : Nat × Nat) (u : Nat) : InArg (showRange r) u ↔ r.1 ≤ u ∧ u ≤ r.2 := by
  unfold showRange
  by_cases hr : r.1 = r.2
  · rw [if_pos hr, inArg_single]; omega
  · rw [if_neg hr, inArg_range]

/-- Which uids the arguments for excluded applications include. -/
theorem excluded_ranges {us : List Nat} (hs : us.Pairwise (· ≤ ·)) (h : ∀ u ∈ us, 0 < u ∧ u < 2 ^ 31) (x : Nat) :
    (∃ a ∈ userRanges true us, InArg a x) ↔ x ∉ us ∧ ((∃ u ∈ us, x < u) ∨ (x ≤ 99999 ∧ ∀ u ∈ us, u < 99998)) := by
  have h1 := gaps_fst us 0 hs (fun u hu => ⟨(h u hu).1, (h u hu).2, by omega⟩) x
  have h2 := gaps_snd us 0 fun u hu => (h u hu).2
  have hmap : (∃ a ∈ (gaps 0 us).1.map showRange, InArg a x) ↔ ∃ r ∈ (gaps 0 us).1, r.1 ≤ x ∧ x ≤ r.2 := by
    simp only [List.mem_map, exists_exists_and_eq_and]
    constructor
    · rintro ⟨r, hr, hx⟩; exact ⟨r, hr, (inArg_showRange r x).1 hx⟩
    · rintro ⟨r, hr, hx⟩; exact ⟨r, hr, (inArg_showRange r x).2 hx⟩
  have hlast : ((gaps 0 us).2 < 99999 ∧ (gaps 0 us).2 ≤ x) ↔ (∀ u ∈ us, u < 99998) ∧ ∀ u ∈ us, u < x := by
    rw [h2]
    rcases List.eq_nil_or_concat us with rfl | ⟨vs, v, rfl⟩
    · simp
    · have hv : ∀ w ∈ vs.concat v, w ≤ v := by
        intro w hw
        rw [List.concat_eq_append, List.pairwise_append] at hs
        rw [List.concat_eq_append, List.mem_append, List.mem_singleton] at hw
        rcases hw with hw | rfl
        · exact hs.2.2 w hw v (by simp)
        · exact Nat.le_refl _
      have hl : (vs.concat v).getLast? = some v := by simp
      rw [hl]
      simp only [Option.map_some, Option.getD_some]
      constructor
      · rintro ⟨h3, h4⟩
        exact ⟨fun u hu => by have := hv u hu; omega, fun u hu => by have := hv u hu; omega⟩
      · rintro ⟨h3, h4⟩
        have := h3 v (by simp)
        have := h4 v (by simp)
        omega
  have htail : (∃ a ∈ (if (gaps 0 us).2 < 99999 then [showDec (gaps 0 us).2 ++ b!"-99999"] else []), InArg a x) ↔
      (gaps 0 us).2 < 99999 ∧ (gaps 0 us).2 ≤ x ∧ x ≤ 99999 := by
    by_cases hc : (gaps 0 us).2 < 99999
    · rw [if_pos hc]
      simp only [List.mem_singleton, exists_eq_left, hc, true_and]
      rw [show showDec (gaps 0 us).2 ++ b!"-99999" = showDec (gaps 0 us).2 ++ b!"-" ++ showDec 99999 from by
        rw [show showDec 99999 = b!"99999" from by decide +kernel]; simp]
      exact inArg_range _ _ _
    · rw [if_neg hc]; simp [hc]
  unfold userRanges
  simp only [if_true, List.mem_append, or_and_right, exists_or]
  rw [hmap, h1, htail]
  constructor
  · rintro (⟨_, h3, h4⟩ | ⟨h3, h4, h5⟩)
    · exact ⟨h3, .inl h4⟩
    · obtain ⟨h6, h7⟩ := hlast.1 ⟨h3, h4⟩
      exact ⟨fun hx => by have := h7 x hx; omega, .inr ⟨h5, h6⟩⟩
  · rintro ⟨h3, h4⟩
    by_cases h5 : ∃ u ∈ us, x < u
    · exact .inl ⟨Nat.zero_le _, h3, h5⟩
    · rcases h4 with h4 | ⟨h4, h6⟩
      · exact absurd h4 h5
      · right
        have := hlast.2 ⟨h6, fun u hu => by
          have h7 : ¬ x < u := fun hh => h5 ⟨u, hu, hh⟩
          have : u ≠ x := fun hh => h3 (hh ▸ hu)
          omega⟩
        exact ⟨this.1, this.2, h4⟩

theorem included_ranges (us : List Nat) (x : Nat) : (∃ a ∈ userRanges false us, InArg a x) ↔ x ∈ us := by
  unfold userRanges
  simp only [Bool.false_eq_true, if_false, List.mem_map, exists_exists_and_eq_and, inArg_single]
  constructor
  · rintro ⟨u, hu, rfl⟩; exact hu
  · intro h; exact ⟨x, h, rfl⟩

/-! ### Commands -/

theorem batches_ok : ∀ (fuel : Nat) (l : List CStr), l.length < fuel → (batches fuel l).flatten = l ∧ ∀ b ∈ batches fuel l, b.length ≤ 18
  | 0, l, h => by omega
  | fuel + 1, l, h => by
    simp only [batches]
    by_cases hl : l = []
    · rw [if_pos hl]; simp [hl]
    · rw [if_neg hl]
      have : 0 < l.length := List.length_pos_iff.2 hl
      obtain ⟨h1, h2⟩ := batches_ok fuel (l.drop 18) (by simp; omega)
      refine ⟨by rw [List.flatten_cons, h1, List.take_append_drop], ?_⟩
      intro b hb
      rcases List.mem_cons.1 hb with rfl | hb
      · simp
      · exact h2 b hb

theorem showRange_plain (r : Nat × Nat) : showRange r ≠ [] ∧ ∀ c ∈ showRange r, blankSep c = false := by
  have hd : ∀ n : Nat, showDec n ≠ [] ∧ ∀ c ∈ showDec n, blankSep c = false := by
    intro n
    obtain ⟨h1, h2, _⟩ := showDec_isDecimal n
    refine ⟨h1, fun c hc => ?_⟩
    have := digit_plain c (h2 c hc)
    simp [blankSep, this]
  unfold showRange
  split
  · exact hd _
  · refine ⟨by simp, ?_⟩
    intro c hc
    simp only [List.mem_append, List.mem_singleton] at hc
    rcases hc with (hc | hc) | hc
    · exact (hd _).2 c hc
    · subst hc; decide
    · exact (hd _).2 c hc

theorem userRanges_plain (x : Bool) (us : List Nat) : ∀ a ∈ userRanges x us, a ≠ [] ∧ ∀ c ∈ a, blankSep c = false := by
  intro a ha
  unfold userRanges at ha
  by_cases hx : x = true
  · rw [if_pos hx] at ha
    simp only [List.mem_append, List.mem_map] at ha
    rcases ha with ⟨r, _, rfl⟩ | ha
    · exact showRange_plain r
    · by_cases hc : (gaps 0 us).2 < 99999
      · rw [if_pos hc] at ha
        simp only [List.mem_singleton] at ha
        subst ha
        have := showRange_plain ((gaps 0 us).2, 99999)
        unfold showRange at this
        rw [if_neg (by dsimp only; omega), show showDec 99999 = b!"99999" from by decide +kernel] at this
        simpa using this
      · rw [if_neg hc] at ha; simp at ha
  · rw [if_neg hx] at ha
    obtain ⟨u, _, rfl⟩ := List.mem_map.1 ha
    have := showRange_plain (u, u)
    simpa [showRange] using this

theorem words_joined : ∀ (l : List CStr), (∀ a ∈ l, a ≠ [] ∧ ∀ c ∈ a, blankSep c = false) → Words blankSep (joined l) l
  | [], _ => Words.nil (by simp [joined])
  | [a], h => by
    have := Words.cons (sep := blankSep) (g := []) (w := a) (rest := []) (ws := []) (by simp) (h a (by simp)).1 (h a (by simp)).2 (by simp) (Words.nil (by simp))
    simpa [joined] using this
  | a :: b :: l, h => by
    have ih := words_joined (b :: l) fun x hx => h x (by simp [hx])
    have h1 := Quick.words_prepend 32 (by decide) ih
    have := Words.cons (sep := blankSep) (g := []) (w := a) (by simp) (h a (by simp)).1 (h a (by simp)).2 (by simp; decide) h1
    simpa [joined] using this

end WG.Android
