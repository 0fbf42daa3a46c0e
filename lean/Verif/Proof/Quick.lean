import Verif.Model.QuickParse
import Verif.Spec.Quick
import Verif.Proof.ConfigFile
import Verif.Proof.Setconf
import Mathlib.Data.List.TakeWhile
import Mathlib.Data.List.Induction
/-! Lemmas about the wg-quick configuration reader. -/
namespace WG.Quick
open WG.Spec WG.Spec.Quick

theorem dropWhile_blank (p : UInt8 → Bool) (l t : List UInt8) (hl : ∀ c ∈ l, p c = true) :
    (l ++ t).dropWhile p = t.dropWhile p := by
  induction l with
  | nil => rfl
  | cons c l ih =>
    simp only [List.cons_append, List.dropWhile_cons, hl c (by simp), if_true]
    exact ih fun c h => hl c (by simp [h])

theorem dropWhile_head (p : UInt8 → Bool) (t : List UInt8) (h : ∀ c, t.head? = some c → p c = false) :
    t.dropWhile p = t := by
  cases t with
  | nil => rfl
  | cons c t => simp [h c rfl]

theorem dropWhile_head_false (p : UInt8 → Bool) (s : List UInt8) (c : UInt8) (h : (s.dropWhile p).head? = some c) :
    p c = false := by
  induction s with
  | nil => simp at h
  | cons d s ih =>
    rw [List.dropWhile_cons] at h
    split at h
    · exact ih h
    · simp only [List.head?_cons, Option.some.injEq] at h; subst h; exact Bool.eq_false_iff.2 ‹¬ _›

theorem trim_of (p : UInt8 → Bool) {s t : List UInt8} (h : Trimmed p s t) : t = trim p s := by
  obtain ⟨l, r, rfl, hl, hr, hh, ht⟩ := h
  unfold trim
  rw [List.append_assoc, dropWhile_blank p l _ hl]
  by_cases e : t = []
  · subst e
    have : ([] ++ r : List UInt8).dropWhile p = [] := by
      have := dropWhile_blank p r [] hr
      simpa using this
    rw [this]; rfl
  · obtain ⟨c, t', rfl⟩ := List.exists_cons_of_ne_nil e
    rw [List.cons_append, List.dropWhile_cons, hh c rfl]
    simp only [Bool.false_eq_true, if_false]
    rw [← List.cons_append, List.reverse_append, dropWhile_blank p _ _ (by simpa using hr),
      dropWhile_head p _ (by rw [List.head?_reverse]; exact ht), List.reverse_reverse]

theorem of_trim (p : UInt8 → Bool) (s : List UInt8) : Trimmed p s (trim p s) := by
  refine ⟨s.takeWhile p, ((s.dropWhile p).reverse.takeWhile p).reverse, ?_, ?_, ?_, ?_, ?_⟩
  · unfold trim
    rw [List.append_assoc, ← List.reverse_append, List.takeWhile_append_dropWhile, List.reverse_reverse,
      List.takeWhile_append_dropWhile]
  · intro c h; exact List.mem_takeWhile_imp h
  · intro c h; exact List.mem_takeWhile_imp (List.mem_reverse.1 h)
  · intro c h
    unfold trim at h
    have hne : (List.dropWhile p (List.dropWhile p s).reverse).reverse ≠ [] := by intro e; rw [e] at h; simp at h
    have hp : (List.dropWhile p (List.dropWhile p s).reverse).reverse <+: s.dropWhile p := by
      have := List.dropWhile_suffix (l := (s.dropWhile p).reverse) p
      have := List.reverse_prefix.2 this
      rwa [List.reverse_reverse] at this
    obtain ⟨r, hr⟩ := hp
    obtain ⟨d, u, hu⟩ := List.exists_cons_of_ne_nil hne
    rw [hu] at h hr
    simp only [List.head?_cons, Option.some.injEq] at h
    subst h
    exact dropWhile_head_false p s d (by rw [← hr]; rfl)
  · intro c h
    unfold trim at h
    rw [List.getLast?_reverse] at h
    exact dropWhile_head_false p _ c h

theorem trimmed_iff (p : UInt8 → Bool) (s t : List UInt8) : Trimmed p s t ↔ t = trim p s :=
  ⟨trim_of p, fun h => h ▸ of_trim p s⟩

theorem before_iff (c : UInt8) (s p : List UInt8) : Before c s p ↔ p = s.takeWhile (· ≠ c) := by
  constructor
  · rintro ⟨h, rfl | ⟨r, rfl⟩⟩
    · rw [List.takeWhile_eq_self_iff.2]
      intro d hd; simp only [decide_eq_true_eq]; rintro rfl; exact h hd
    · rw [List.takeWhile_append_of_pos]
      · simp
      · intro d hd; simp only [decide_eq_true_eq]; rintro rfl; exact h hd
  · rintro rfl
    constructor
    · intro h
      have := List.mem_takeWhile_imp h
      simp at this
    · rcases e : s.dropWhile (fun x => decide (x ≠ c)) with _ | ⟨d, r⟩
      · left
        have := List.takeWhile_append_dropWhile (p := fun x => decide (x ≠ c)) (l := s)
        rw [e, List.append_nil] at this; exact this.symm
      · right
        have hd := dropWhile_head_false (fun x => decide (x ≠ c)) s d (by rw [e]; rfl)
        simp only [ne_eq, decide_not, Bool.not_eq_false', decide_eq_true_eq] at hd
        subst hd
        refine ⟨r, ?_⟩
        have := List.takeWhile_append_dropWhile (p := fun x => decide (x ≠ d)) (l := s)
        rw [e] at this; exact this.symm

theorem isBlank_eq : isBlank = isSpace := by funext c; exact isspaceLibc_eq c
theorem isIfs_eq : isIfs = spaceTab := by
  funext c; simp only [isIfs, spaceTab, Bool.decide_or]; rfl

theorem hasKey_iff (line k : List UInt8) : HasKey line k ↔ k = keyOf (strippedOf line) := by
  unfold HasKey keyOf strippedOf
  simp only [before_iff, trimmed_iff, isBlank_eq]
  constructor
  · rintro ⟨_, _, rfl, rfl, rfl⟩; rfl
  · rintro rfl; exact ⟨_, _, rfl, rfl, rfl⟩

theorem hasValue_iff (line v : List UInt8) : HasValue line v ↔ v = valueOf (strippedOf line) := by
  unfold HasValue valueOf strippedOf
  simp only [before_iff, trimmed_iff, isBlank_eq]
  generalize List.takeWhile (fun x => decide (x ≠ c!"#")) line = code
  have key : ∀ lhs rhs : List UInt8, c!"=" ∉ lhs →
      ((lhs ++ c!"=" :: rhs).dropWhile (fun x => decide (x ≠ c!"="))).drop 1 = rhs := by
    intro lhs rhs h
    rw [dropWhile_blank _ lhs]
    · simp
    · intro d hd; simp only [decide_eq_true_eq]; rintro rfl; exact h hd
  constructor
  · rintro ⟨_, rfl, ⟨lhs, rhs, rfl, h, rfl⟩ | ⟨h, rfl⟩⟩
    · rw [if_pos (by simp), key _ _ h]
    · rw [if_neg h]
  · rintro rfl
    refine ⟨_, rfl, ?_⟩
    by_cases h : c!"=" ∈ code
    · left
      obtain ⟨l, r, e, hl⟩ := List.append_of_mem h |> fun ⟨l, r, e⟩ => (⟨l, r, e⟩ : ∃ l r, code = l ++ _ :: r) |> fun _ =>
        (show ∃ l r, code = l ++ c!"=" :: r ∧ c!"=" ∉ l from by
          have := (before_iff c!"=" code _).2 rfl
          obtain ⟨h1, h2 | ⟨r, h2⟩⟩ := this
          · rw [h2] at h; exact absurd h h1
          · exact ⟨_, r, h2, h1⟩)
      exact ⟨l, r, e, hl, by rw [if_pos h, e, key _ _ hl]⟩
    · right; exact ⟨h, by rw [if_neg h]⟩

theorem eqNoCase_iface (k : CStr) : strcaseeq k b!"[Interface]" = true ↔ EqNoCase k b!"[interface]" := hdr1 k

theorem inInterface_snoc (pre : List CStr) (l : CStr) (sec : Bool) (h : sec = true ↔ InInterface pre) :
    sectionAfter sec (keyOf (strippedOf l)) = true ↔ InInterface (pre ++ [l]) := by
  unfold sectionAfter
  by_cases h1 : strcaseeq (keyOf (strippedOf l)) b!"[Interface]" = true
  · rw [if_pos h1]
    simp only [true_iff]
    exact ⟨pre, l, [], rfl, ⟨_, (hasKey_iff l _).2 rfl, (eqNoCase_iface _).1 h1⟩, by simp⟩
  · rw [if_neg h1]
    by_cases h2 : (keyOf (strippedOf l)).head? = some c!"["
    · rw [if_pos h2]
      simp only [Bool.false_eq_true, false_iff]
      rintro ⟨p, hd, post, e, ⟨k, hk, hki⟩, hpost⟩
      rcases List.eq_nil_or_concat' post with rfl | ⟨post', l', rfl⟩
      · have e' := List.append_inj_right' e rfl
        simp only [List.cons.injEq, and_true] at e'
        subst e'
        rw [hasKey_iff] at hk; subst hk
        exact h1 ((eqNoCase_iface _).2 hki)
      · rw [show p ++ hd :: (post' ++ [l']) = (p ++ hd :: post') ++ [l'] by simp] at e
        have e' := List.append_inj_right' e rfl
        simp only [List.cons.injEq, and_true] at e'
        subst e'
        exact hpost l (by simp) _ ((hasKey_iff l _).2 rfl) h2
    · rw [if_neg h2, h]
      constructor
      · rintro ⟨p, hd, post, rfl, hk, hpost⟩
        refine ⟨p, hd, post ++ [l], by simp, hk, ?_⟩
        intro l' hl' k hk'
        rw [List.mem_append, List.mem_singleton] at hl'
        rcases hl' with hl' | rfl
        · exact hpost l' hl' k hk'
        · rw [hasKey_iff] at hk'; subst hk'; exact h2
      · rintro ⟨p, hd, post, e, ⟨k, hk, hki⟩, hpost⟩
        rcases List.eq_nil_or_concat' post with rfl | ⟨post', l', rfl⟩
        · have e' := List.append_inj_right' e rfl
          simp only [List.cons.injEq, and_true] at e'
          subst e'
          rw [hasKey_iff] at hk; subst hk
          exact absurd ((eqNoCase_iface _).2 hki) h1
        · rw [show p ++ hd :: (post' ++ [l']) = (p ++ hd :: post') ++ [l'] by simp] at e
          have e2 := List.append_inj_left' e rfl
          subst e2
          exact ⟨p, hd, post', rfl, ⟨k, hk, hki⟩, fun l hl => hpost l (by simp [hl])⟩

/-! ### Own settings -/

theorem ownSetting_congr (o : Opts) (k k' v : CStr) (h : EqNoCase k' k) (hk : k.map lower = k) :
    ownSetting o k' v = ownSetting o k v := by
  have e : ∀ w, strcaseeq k' w = strcaseeq k w := by
    intro w
    rw [Bool.eq_iff_iff, strcaseeq_iff, strcaseeq_iff, hk, h]
  simp only [ownSetting, e]

theorem ownKeys_lower : ∀ k ∈ ownKeys, k.map lower = k := by decide

/-- The keys as they are written in the script. -/
def caseKeys : List CStr :=
  [b!"Address", b!"MTU", b!"DNS", b!"Table", b!"PreUp", b!"PreDown", b!"PostUp", b!"PostDown", b!"SaveConfig"]

theorem caseKeys_lower : caseKeys.map (·.map lower) = ownKeys := by decide

theorem ownSetting_none (o : Opts) (k v : CStr) (h : ∀ w ∈ caseKeys, strcaseeq k w = false) : ownSetting o k v = some none := by
  simp only [caseKeys, List.mem_cons, List.not_mem_nil, or_false, forall_eq_or_imp, forall_eq] at h
  obtain ⟨h1, h2, h3, h4, h5, h6, h7, h8, h9⟩ := h
  simp [ownSetting, h1, h2, h3, h4, h5, h6, h7, h8, h9]

theorem ownSetting_other (o : Opts) (k v : CStr) (h : ∀ w ∈ ownKeys, ¬ EqNoCase k w) : ownSetting o k v = some none := by
  apply ownSetting_none
  intro w hw
  rw [Bool.eq_false_iff]
  intro e
  rw [strcaseeq_iff] at e
  exact h (w.map lower) (by rw [← caseKeys_lower]; exact List.mem_map_of_mem hw) e

/-- The effect of one own setting on the variables other than the kept text; `none` is `die`. -/
def applySet (o : Opts) (k v : CStr) : Option Opts :=
  match ownSetting o k v with
  | none => none
  | some none => some o
  | some (some o') => some o'

def applySets : List (CStr × CStr) → Option Opts
  | l => l.foldlM (fun o p => applySet o p.1 p.2) {}

theorem ownSetting_own (o : Opts) (k v : CStr) (h : k ∈ ownKeys) : ownSetting o k v ≠ some none := by
  simp only [ownKeys, List.mem_cons, List.not_mem_nil, or_false] at h
  rcases h with rfl | rfl | rfl | rfl | rfl | rfl | rfl | rfl | rfl <;>
    simp [ownSetting, strcaseeq, tolowerC] ; split <;> simp

theorem ownSetting_wg (o : Opts) (k v w : CStr) :
    ownSetting { o with wgConfig := w } k v = (ownSetting o k v).map (·.map fun o' => { o' with wgConfig := w }) := by
  unfold ownSetting
  generalize strcaseeq k b!"Address" = xAddress
  generalize strcaseeq k b!"MTU" = xMTU
  generalize strcaseeq k b!"DNS" = xDNS
  generalize strcaseeq k b!"Table" = xTable
  generalize strcaseeq k b!"PreUp" = xPreUp
  generalize strcaseeq k b!"PreDown" = xPreDown
  generalize strcaseeq k b!"PostUp" = xPostUp
  generalize strcaseeq k b!"PostDown" = xPostDown
  generalize strcaseeq k b!"SaveConfig" = xSaveConfig
  cases xAddress
  swap
  · rfl
  cases xMTU
  swap
  · rfl
  cases xDNS
  swap
  · rfl
  cases xTable
  swap
  · rfl
  cases xPreUp
  swap
  · rfl
  cases xPreDown
  swap
  · rfl
  cases xPostUp
  swap
  · rfl
  cases xPostDown
  swap
  · rfl
  cases xSaveConfig
  · rfl
  · cases readBool v <;> rfl

theorem applySet_wg (o : Opts) (k v w : CStr) :
    applySet { o with wgConfig := w } k v = (applySet o k v).map fun o' => { o' with wgConfig := w } := by
  unfold applySet
  rw [ownSetting_wg]
  rcases ownSetting o k v with _ | _ | o' <;> rfl

/-- The loop state after some lines. -/
def parseState (lines : List CStr) : Option (Bool × Opts) :=
  lines.foldlM (fun s l => parseLine s.1 s.2 l) (false, {})

theorem parseLoop_foldlM (sec : Bool) (o : Opts) (lines : List CStr) :
    parseLoop sec o lines = (lines.foldlM (fun s l => parseLine s.1 s.2 l) (sec, o)).map (·.2) := by
  induction lines generalizing sec o with
  | nil => rfl
  | cons l ls ih =>
    simp only [parseLoop, List.foldlM_cons]
    rcases parseLine sec o l with _ | ⟨s, o'⟩
    · rfl
    · exact ih s o'

theorem parseConf_eq (content : List UInt8) : parseConf content = (parseState (bodyLines content)).map (·.2) :=
  parseLoop_foldlM _ _ _

theorem parseState_snoc (lines : List CStr) (l : CStr) :
    parseState (lines ++ [l]) = (parseState lines).bind fun s => parseLine s.1 s.2 l := by
  unfold parseState
  rw [List.foldlM_append]
  cases (lines.foldlM (fun s l => parseLine s.1 s.2 l) (false, ({} : Opts))) with
  | none => rfl
  | some s =>
    simp only [Option.bind_some]
    show ((parseLine s.1 s.2 l).bind fun a => some a) = _
    cases parseLine s.1 s.2 l <;> rfl

theorem applySets_snoc (sets : List (CStr × CStr)) (k v : CStr) :
    applySets (sets ++ [(k, v)]) = (applySets sets).bind fun o => applySet o k v := by
  unfold applySets
  rw [List.foldlM_append]
  cases (sets.foldlM (fun o p => applySet o p.1 p.2) ({} : Opts)) with
  | none => rfl
  | some o =>
    simp only [Option.bind_some]
    show ((applySet o k v).bind fun a => some a) = _
    cases applySet o k v <;> rfl

/-- The loop state is determined by what the lines say. -/
theorem parseState_says {lines kept : List CStr} {sets : List (CStr × CStr)} (h : Says lines kept sets) :
    ∃ sec : Bool, (sec = true ↔ InInterface lines) ∧
      parseState lines = (applySets sets).map fun o => (sec, { o with wgConfig := kept.flatMap (· ++ [10]) }) := by
  induction h with
  | nil =>
    refine ⟨false, ?_, rfl⟩
    simp only [Bool.false_eq_true, false_iff]
    rintro ⟨p, hd, post, e, _⟩
    simp at e
  | @own lines kept sets l k v _ hown ih =>
    obtain ⟨sec, hsec, hst⟩ := ih
    obtain ⟨hin, hk, ⟨k', hk', hkk⟩, hv⟩ := hown
    have hs := (inInterface_snoc lines l sec hsec).2 hin
    refine ⟨true, by simpa using hin, ?_⟩
    rw [parseState_snoc, hst, applySets_snoc]
    rw [hasKey_iff] at hk'; subst hk'
    rw [hasValue_iff] at hv; subst hv
    cases applySets sets with
    | none => rfl
    | some o =>
      simp only [Option.map_some, Option.bind_some, parseLine, hs, if_true]
      rw [ownSetting_congr _ k _ _ hkk (ownKeys_lower k hk), ownSetting_wg]
      have hne := ownSetting_own o k (valueOf (strippedOf l)) hk
      unfold applySet
      rcases e : ownSetting o k (valueOf (strippedOf l)) with _ | _ | o'
      · rfl
      · exact absurd e hne
      · rfl
  | @keep lines kept sets l _ hno ih =>
    obtain ⟨sec, hsec, hst⟩ := ih
    refine ⟨sectionAfter sec (keyOf (strippedOf l)), inInterface_snoc lines l sec hsec, ?_⟩
    rw [parseState_snoc, hst]
    cases applySets sets with
    | none => rfl
    | some o =>
      simp only [Option.map_some, Option.bind_some, parseLine]
      by_cases hs : sectionAfter sec (keyOf (strippedOf l)) = true
      · rw [if_pos hs, hs]
        have : ∀ w ∈ ownKeys, ¬ EqNoCase (keyOf (strippedOf l)) w := by
          intro w hw e
          exact hno w _ ⟨(inInterface_snoc lines l sec hsec).1 hs, hw, ⟨_, (hasKey_iff _ _).2 rfl, e⟩, (hasValue_iff _ _).2 rfl⟩
        rw [ownSetting_other _ _ _ this]
        simp [keepLine]
      · rw [if_neg hs]
        simp [keepLine]

theorem says_exists (lines : List CStr) : ∃ kept sets, Says lines kept sets := by
  induction lines using List.reverseRecOn with
  | nil => exact ⟨[], [], .nil⟩
  | append_singleton ls l ih =>
    obtain ⟨kept, sets, h⟩ := ih
    by_cases e : ∃ k v, OwnLine ls l k v
    · obtain ⟨k, v, e⟩ := e
      exact ⟨kept, _, .own h e⟩
    · push Not at e
      exact ⟨_, sets, .keep h e⟩

theorem ownLine_unique {ls : List CStr} {l k v k' v' : CStr} (h : OwnLine ls l k v) (h' : OwnLine ls l k' v') : k = k' ∧ v = v' := by
  obtain ⟨_, _, ⟨q, hq, e⟩, hv⟩ := h
  obtain ⟨_, _, ⟨q', hq', e'⟩, hv'⟩ := h'
  rw [hasKey_iff] at hq hq'; rw [hasValue_iff] at hv hv'
  subst hq hq' hv hv'
  exact ⟨e.symm.trans e', rfl⟩

theorem says_unique {lines kept kept' : List CStr} {sets sets' : List (CStr × CStr)} (h : Says lines kept sets)
    (h' : Says lines kept' sets') : kept = kept' ∧ sets = sets' := by
  induction h generalizing kept' sets' with
  | nil =>
    generalize hn : ([] : List CStr) = ls at h'
    cases h' with
    | nil => exact ⟨rfl, rfl⟩
    | own => simp at hn
    | keep => simp at hn
  | @own lines kept sets l k v h hown ih =>
    generalize hn : lines ++ [l] = ls at h'
    cases h' with
    | nil => simp at hn
    | own h2 hown2 =>
      have e1 := List.append_inj_left' hn rfl
      have e2 := List.append_inj_right' hn rfl
      simp only [List.cons.injEq, and_true] at e2
      subst e1 e2
      obtain ⟨rfl, rfl⟩ := ih h2
      obtain ⟨rfl, rfl⟩ := ownLine_unique hown hown2
      exact ⟨rfl, rfl⟩
    | keep h2 hno =>
      have e1 := List.append_inj_left' hn rfl
      have e2 := List.append_inj_right' hn rfl
      simp only [List.cons.injEq, and_true] at e2
      subst e1 e2
      exact absurd hown (hno _ _)
  | @keep lines kept sets l h hno ih =>
    generalize hn : lines ++ [l] = ls at h'
    cases h' with
    | nil => simp at hn
    | own h2 hown2 =>
      have e1 := List.append_inj_left' hn rfl
      have e2 := List.append_inj_right' hn rfl
      simp only [List.cons.injEq, and_true] at e2
      subst e1 e2
      exact absurd hown2 (hno _ _)
    | keep h2 hno2 =>
      have e1 := List.append_inj_left' hn rfl
      have e2 := List.append_inj_right' hn rfl
      simp only [List.cons.injEq, and_true] at e2
      subst e1 e2
      obtain ⟨rfl, rfl⟩ := ih h2
      exact ⟨rfl, rfl⟩

/-! ### Lines -/

/-- The terminated lines and the rest. -/
def splitLF : List UInt8 → List (List UInt8) × List UInt8
  | [] => ([], [])
  | c :: t =>
    if c = 10 then ([] :: (splitLF t).1, (splitLF t).2)
    else match splitLF t with
      | ([], last) => ([], c :: last)
      | (s :: ss, last) => ((c :: s) :: ss, last)

theorem splitLF_spec (l : List UInt8) :
    l = (splitLF l).1.flatMap (· ++ [10]) ++ (splitLF l).2 ∧ (∀ s ∈ (splitLF l).1, (10 : UInt8) ∉ s) ∧ (10 : UInt8) ∉ (splitLF l).2 := by
  induction l with
  | nil => simp [splitLF]
  | cons c t ih =>
    obtain ⟨h1, h2, h3⟩ := ih
    unfold splitLF
    by_cases hc : c = 10
    · rw [if_pos hc]
      refine ⟨?_, ?_, h3⟩
      · simp only [List.flatMap_cons, List.nil_append, List.cons_append]
        rw [hc, ← h1]
      · simpa using h2
    · rw [if_neg hc]
      rcases e : splitLF t with ⟨_ | ⟨s, ss⟩, last⟩
      · rw [e] at h1 h3
        simp only [List.flatMap_nil, List.nil_append] at h1 h3
        refine ⟨by simp [h1], by simp, ?_⟩
        simp only [List.mem_cons, not_or]
        exact ⟨Ne.symm hc, h3⟩
      · rw [e] at h1 h2 h3
        simp only [List.flatMap_cons] at h1
        refine ⟨?_, ?_, h3⟩
        · simp only [List.flatMap_cons, List.cons_append]
          rw [h1]
        · intro x hx
          simp only [List.mem_cons] at hx
          rcases hx with rfl | hx
          · simp only [List.mem_cons, not_or]
            exact ⟨Ne.symm hc, h2 s (by simp)⟩
          · exact h2 x (by simp [hx])

theorem splitLF_noLF (s t : List UInt8) (h : (10 : UInt8) ∉ s) : splitLF (s ++ 10 :: t) = (s :: (splitLF t).1, (splitLF t).2) := by
  induction s with
  | nil => simp [splitLF]
  | cons c s ih =>
    simp only [List.mem_cons, not_or] at h
    simp only [List.cons_append, splitLF, if_neg (Ne.symm h.1), ih h.2]

theorem splitLF_last (s : List UInt8) (h : (10 : UInt8) ∉ s) : splitLF s = ([], s) := by
  induction s with
  | nil => rfl
  | cons c s ih =>
    simp only [List.mem_cons, not_or] at h
    simp only [splitLF, if_neg (Ne.symm h.1), ih h.2]

theorem splitLF_of (segs : List (List UInt8)) (last : List UInt8) (h : ∀ s ∈ segs, (10 : UInt8) ∉ s) (hl : (10 : UInt8) ∉ last) :
    splitLF (segs.flatMap (· ++ [10]) ++ last) = (segs, last) := by
  induction segs with
  | nil => simpa using splitLF_last last hl
  | cons s ss ih =>
    have := splitLF_noLF s (ss.flatMap (· ++ [10]) ++ last) (h s (by simp))
    rw [ih fun x hx => h x (by simp [hx])] at this
    simpa using this

theorem getlines_of (segs : List (List UInt8)) (last : List UInt8) (h : ∀ s ∈ segs, (10 : UInt8) ∉ s) (hl : (10 : UInt8) ∉ last) :
    getlines (segs.flatMap (· ++ [10]) ++ last) = segs.map (· ++ [10]) ++ (if last = [] then [] else [last]) := by
  have l1 : ∀ (s t : List UInt8), (10 : UInt8) ∉ s → getlines (s ++ 10 :: t) = (s ++ [10]) :: getlines t := by
    intro s t hs
    induction s with
    | nil => simp [getlines]
    | cons c s ih =>
      simp only [List.mem_cons, not_or] at hs
      simp only [List.cons_append, getlines, if_neg (Ne.symm hs.1), ih hs.2]
  have l2 : ∀ (s : List UInt8), (10 : UInt8) ∉ s → getlines s = if s = [] then [] else [s] := by
    intro s hs
    induction s with
    | nil => rfl
    | cons c s ih =>
      simp only [List.mem_cons, not_or] at hs
      simp only [getlines, if_neg (Ne.symm hs.1), ih hs.2]
      by_cases e : s = []
      · simp [e]
      · simp [e]
  induction segs with
  | nil => simpa using l2 last hl
  | cons s ss ih =>
    have := l1 s (ss.flatMap (· ++ [10]) ++ last) (h s (by simp))
    rw [ih fun x hx => h x (by simp [hx])] at this
    simpa using this

theorem bodyLines_of (segs : List (List UInt8)) (last : List UInt8) (h : ∀ s ∈ segs, (10 : UInt8) ∉ s) (hl : (10 : UInt8) ∉ last) :
    bodyLines (segs.flatMap (· ++ [10]) ++ last) = segs.map readLine ++ (if readLine last = [] then [] else [readLine last]) := by
  unfold bodyLines
  rw [getlines_of segs last h hl, List.filterMap_append]
  congr 1
  · clear h
    induction segs with
    | nil => rfl
    | cons s ss ih =>
      simp only [List.map_cons, List.filterMap_cons, List.getLast?_append, List.getLast?_singleton, List.dropLast_concat]
      simp [ih]
  · by_cases e : last = []
    · subst e; simp [readLine, trim]
    · rw [if_neg e]
      have : last.getLast? ≠ some 10 := fun e => hl (List.mem_of_getLast? e)
      simp only [List.filterMap_cons, if_neg this, List.filterMap_nil]
      by_cases e' : readLine last = []
      · simp [e']
      · simp [e']

theorem scriptLines_iff (content : List UInt8) (lines : List CStr) : ScriptLines content lines ↔ lines = bodyLines content := by
  obtain ⟨hc, hs, hl⟩ := splitLF_spec content
  generalize (splitLF content).1 = segs at *
  generalize (splitLF content).2 = last at *
  have hf : content.filter (· ≠ 0) = (segs.map (·.filter (· ≠ 0))).flatMap (· ++ [10]) ++ last.filter (· ≠ 0) := by
    rw [hc, List.filter_append]
    congr 1
    clear hc hs
    induction segs with
    | nil => rfl
    | cons s ss ih => rw [List.flatMap_cons, List.filter_append, ih]; simp
  have hs' : ∀ s ∈ segs.map (·.filter (· ≠ 0)), (10 : UInt8) ∉ s := by
    intro s h
    obtain ⟨s', h', rfl⟩ := List.mem_map.1 h
    exact fun e => hs s' h' (List.mem_of_mem_filter e)
  have hl' : (10 : UInt8) ∉ last.filter (· ≠ 0) := fun e => hl (List.mem_of_mem_filter e)
  have f2 : ∀ (xs ys : List CStr), List.Forall₂ (Trimmed spaceTab) xs ys ↔ ys = xs.map (trim isIfs) := by
    intro xs
    induction xs with
    | nil => intro ys; simp
    | cons x xs ih =>
      intro ys
      cases ys with
      | nil => simp
      | cons y ys => simp [ih, trimmed_iff, isIfs_eq]
  have hb : bodyLines content = (segs.map (·.filter (· ≠ 0))).map (trim isIfs) ++
      (if trim isIfs (last.filter (· ≠ 0)) = [] then [] else [trim isIfs (last.filter (· ≠ 0))]) := by
    rw [hc, bodyLines_of segs last hs hl]
    simp [readLine, Function.comp_def]
  constructor
  · rintro ⟨segs2, last2, ls, t, e, hs2, hl2, h1, h2, rfl⟩
    have e2 := congrArg splitLF (e.symm.trans hf)
    rw [splitLF_of _ _ hs2 hl2, splitLF_of _ _ hs' hl'] at e2
    simp only [Prod.mk.injEq] at e2
    obtain ⟨rfl, rfl⟩ := e2
    rw [f2] at h1; rw [trimmed_iff] at h2
    rw [hb, ← isIfs_eq] at *
    subst h1 h2
    split <;> simp_all
  · rintro rfl
    refine ⟨_, _, _, _, hf, hs', hl', (f2 _ _).2 rfl, (trimmed_iff _ _ _).2 rfl, ?_⟩
    rw [hb, isIfs_eq]
    split <;> simp_all

end WG.Quick
