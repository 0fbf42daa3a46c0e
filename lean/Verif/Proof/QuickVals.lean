import Verif.Proof.Quick
/-! Own settings, words and names of wg-quick. -/
namespace WG.Quick
open WG.Spec WG.Spec.Quick

/-! ### Words -/

theorem words_prepend {sep : UInt8 → Bool} {s : List UInt8} {ws : List (List UInt8)} (c : UInt8) (hc : sep c = true)
    (h : Words sep s ws) : Words sep (c :: s) ws := by
  cases h with
  | nil hg => exact .nil (by intro d hd; rcases List.mem_cons.1 hd with rfl | hd; exacts [hc, hg d hd])
  | @cons g w rest ws hg hw hn hr hrest =>
    have := Words.cons (g := c :: g) (w := w) (rest := rest) (by
      intro d hd; rcases List.mem_cons.1 hd with rfl | hd; exacts [hc, hg d hd]) hw hn hr hrest
    simpa using this

theorem words_aux (s cur : List UInt8) (hcur : ∀ c ∈ cur, listSep c = false) :
    Words listSep (cur ++ s) (wordsAux cur (s.map fun c => if c = c!"," then c!" " else c)) := by
  induction s generalizing cur with
  | nil =>
    simp only [List.map_nil, List.append_nil, wordsAux]
    by_cases e : cur = []
    · rw [if_pos e, e]; exact .nil (by simp)
    · rw [if_neg e]
      have := Words.cons (sep := listSep) (g := []) (w := cur) (rest := []) (ws := []) (by simp) e hcur (by simp) (.nil (by simp))
      simpa using this
  | cons c t ih =>
    simp only [List.map_cons, wordsAux]
    have hsep : ((if c = c!"," then c!" " else c) = 32 ∨ (if c = c!"," then c!" " else c) = 9 ∨ (if c = c!"," then c!" " else c) = 10)
        ↔ listSep c = true := by
      unfold listSep
      by_cases e : c = c!","
      · simp [e]
      · simp [e]
    by_cases h : listSep c = true
    · rw [if_pos (hsep.2 h)]
      have hr := words_prepend c h (ih [] (by simp))
      by_cases e : cur = []
      · rw [if_pos e, e]; exact hr
      · rw [if_neg e]
        have := Words.cons (sep := listSep) (g := []) (w := cur) (rest := c :: t) (by simp) e hcur (by simp [h]) hr
        simpa using this
    · rw [if_neg (fun e => h (hsep.1 e))]
      have hne : c ≠ c!"," := by rintro rfl; exact h (by decide)
      have := ih (cur ++ [c]) (by
        intro d hd
        rw [List.mem_append, List.mem_singleton] at hd
        rcases hd with hd | rfl
        · exact hcur d hd
        · exact Bool.eq_false_iff.2 h)
      rw [if_neg hne]
      simpa using this

theorem commaWords_words (v : CStr) : Words listSep v (commaWords v) := by
  have := words_aux v [] (by simp)
  simpa [commaWords] using this

theorem words_unique {sep : UInt8 → Bool} {s : List UInt8} {ws ws' : List (List UInt8)} (h : Words sep s ws)
    (h' : Words sep s ws') : ws = ws' := by
  induction h generalizing ws' with
  | nil hg =>
    cases h' with
    | nil => rfl
    | @cons g w rest ws hg' hw hn hr hrest =>
      exfalso
      obtain ⟨c, w', rfl⟩ := List.exists_cons_of_ne_nil hw
      have h1 := hg c (by simp)
      have h2 := hn c (by simp)
      rw [h1] at h2; cases h2
  | @cons g w rest ws hg hw hn hr hrest ih =>
    generalize hs : g ++ w ++ rest = s at h'
    cases h' with
    | nil hg' =>
      exfalso
      obtain ⟨c, w', rfl⟩ := List.exists_cons_of_ne_nil hw
      have h1 := hg' c (by rw [← hs]; simp)
      have h2 := hn c (by simp)
      rw [h1] at h2; cases h2
    | @cons g' w' rest' ws' hg' hw' hn' hr' hrest' =>
      have d1 : (g ++ w ++ rest).dropWhile sep = w ++ rest := by
        rw [List.append_assoc, dropWhile_blank sep g _ hg]
        obtain ⟨c, u, rfl⟩ := List.exists_cons_of_ne_nil hw
        simp [hn c (by simp)]
      have d2 : (g' ++ w' ++ rest').dropWhile sep = w' ++ rest' := by
        rw [List.append_assoc, dropWhile_blank sep g' _ hg']
        obtain ⟨c, u, rfl⟩ := List.exists_cons_of_ne_nil hw'
        simp [hn' c (by simp)]
      rw [hs, d2] at d1
      have tk : ∀ (w rest : List UInt8), (∀ c ∈ w, sep c = false) → (∀ c, rest.head? = some c → sep c = true) →
          (w ++ rest).takeWhile (fun c => !sep c) = w := by
        intro w rest hn hr
        rw [List.takeWhile_append_of_pos (by intro c hc; simp [hn c hc])]
        cases rest with
        | nil => simp
        | cons c r => simp [hr c rfl]
      have e1 := tk w rest hn hr
      have e2 := tk w' rest' hn' hr'
      rw [d1, e1] at e2
      subst e2
      have := List.append_cancel_left d1
      subst this
      rw [ih hrest']

theorem words_iff (v : CStr) (ws : List CStr) : Words listSep v ws ↔ ws = commaWords v :=
  ⟨fun h => words_unique h (commaWords_words v), fun h => h ▸ commaWords_words v⟩

theorem wordsOf_iff (k : CStr) (sets : List (CStr × CStr)) (ws : List CStr) :
    WordsOf k sets ws ↔ ws = (valuesOf k sets).flatMap commaWords := by
  have f2 : ∀ (xs : List CStr) (ys : List (List CStr)), List.Forall₂ (Words listSep) xs ys ↔ ys = xs.map commaWords := by
    intro xs
    induction xs with
    | nil => intro ys; simp
    | cons x xs ih =>
      intro ys
      cases ys with
      | nil => simp
      | cons y ys => simp [ih, words_iff]
  constructor
  · rintro ⟨wss, h, rfl⟩
    rw [f2] at h; subst h
    rw [List.flatMap_def]
  · rintro rfl
    exact ⟨_, (f2 _ _).2 rfl, by rw [List.flatMap_def]⟩

theorem isNameserver_iff (v : CStr) : isNameserver v = true ↔ IsNameserver v := by
  have d : ∀ c : UInt8, ((48 ≤ c && c ≤ 57) || c == c!".") = true ↔ (isDigit c = true ∨ c = c!".") := by
    intro c; simp [isDigit]
  unfold isNameserver IsNameserver
  simp only [Bool.or_eq_true, Bool.and_eq_true, decide_eq_true_eq, List.all_eq_true, ne_eq, d]

/-! ### Values -/

theorem valuesOf_snoc (k k' v : CStr) (sets : List (CStr × CStr)) :
    valuesOf k (sets ++ [(k', v)]) = valuesOf k sets ++ if k' = k then [v] else [] := by
  unfold valuesOf
  rw [List.filter_append, List.map_append]
  congr 1
  by_cases h : k' = k <;> simp [h]

/-- The variables as determined by the own settings. -/
def optsOf (sets : List (CStr × CStr)) : Opts where
  addresses := (valuesOf b!"address" sets).flatMap commaWords
  mtu := (valuesOf b!"mtu" sets).getLast?.getD []
  dns := ((valuesOf b!"dns" sets).flatMap commaWords).filter isNameserver
  dnsSearch := ((valuesOf b!"dns" sets).flatMap commaWords).filter fun v => !isNameserver v
  table := (valuesOf b!"table" sets).getLast?.getD []
  preUp := valuesOf b!"preup" sets
  postUp := valuesOf b!"postup" sets
  preDown := valuesOf b!"predown" sets
  postDown := valuesOf b!"postdown" sets
  saveConfig := ((valuesOf b!"saveconfig" sets).getLast?.map fun v => strcaseeq v b!"true").getD false

theorem readBool_some (v : CStr) (h : EqNoCase v b!"true" ∨ EqNoCase v b!"false") : readBool v = some (strcaseeq v b!"true") := by
  have e1 : strcaseeq v b!"true" = true ↔ EqNoCase v b!"true" := strcaseeq_iff v _
  have e2 : strcaseeq v b!"false" = true ↔ EqNoCase v b!"false" := strcaseeq_iff v _
  unfold readBool
  by_cases ht : strcaseeq v b!"true" = true
  · rw [if_pos ht, ht]
  · rw [if_neg ht]
    rcases h with h | h
    · exact absurd (e1.2 h) ht
    · rw [if_pos (e2.2 h), Bool.eq_false_iff.2 ht]

theorem readBool_none (v : CStr) (h : ¬ (EqNoCase v b!"true" ∨ EqNoCase v b!"false")) : readBool v = none := by
  have e1 : strcaseeq v b!"true" = true ↔ EqNoCase v b!"true" := strcaseeq_iff v _
  have e2 : strcaseeq v b!"false" = true ↔ EqNoCase v b!"false" := strcaseeq_iff v _
  push Not at h
  unfold readBool
  rw [if_neg (fun e => h.1 (e1.1 e)), if_neg (fun e => h.2 (e2.1 e))]

/-- All `SaveConfig` values are true or false. -/
def SaveOk (sets : List (CStr × CStr)) : Prop :=
  ∀ v ∈ valuesOf b!"saveconfig" sets, EqNoCase v b!"true" ∨ EqNoCase v b!"false"

theorem applySets_ok (sets : List (CStr × CStr)) (hk : ∀ p ∈ sets, p.1 ∈ ownKeys) (h : SaveOk sets) :
    applySets sets = some (optsOf sets) := by
  induction sets using List.reverseRecOn with
  | nil => rfl
  | append_singleton ls l ih =>
    obtain ⟨k, v⟩ := l
    have hls : SaveOk ls := by
      intro w hw
      exact h w (by rw [valuesOf_snoc]; simp [hw])
    rw [applySets_snoc, ih (fun p hp => hk p (by simp [hp])) hls]
    simp only [Option.bind_some]
    have hk' := hk (k, v) (by simp)
    simp only [ownKeys, List.mem_cons, List.not_mem_nil, or_false] at hk'
    unfold optsOf
    simp only [valuesOf_snoc]
    rcases hk' with rfl | rfl | rfl | rfl | rfl | rfl | rfl | rfl | rfl
    all_goals first
      | (simp [applySet, ownSetting, strcaseeq, tolowerC]; done)
      | skip
    have hv := h v (by rw [valuesOf_snoc]; simp)
    simp [applySet, ownSetting, readBool_some v hv]
    simp [strcaseeq, tolowerC]

theorem applySets_bad (sets : List (CStr × CStr)) (hk : ∀ p ∈ sets, p.1 ∈ ownKeys) (h : ¬ SaveOk sets) :
    applySets sets = none := by
  induction sets using List.reverseRecOn with
  | nil => exact absurd (by intro v hv; simp [valuesOf] at hv) h
  | append_singleton ls l ih =>
    obtain ⟨k, v⟩ := l
    rw [applySets_snoc]
    by_cases hls : SaveOk ls
    · rw [applySets_ok ls (fun p hp => hk p (by simp [hp])) hls]
      have : k = b!"saveconfig" ∧ ¬ (EqNoCase v b!"true" ∨ EqNoCase v b!"false") := by
        by_contra hc
        apply h
        intro w hw
        rw [valuesOf_snoc] at hw
        rcases List.mem_append.1 hw with hw | hw
        · exact hls w hw
        · by_cases e : k = b!"saveconfig"
          · rw [if_pos e, List.mem_singleton] at hw
            subst hw
            by_contra hw
            exact hc ⟨e, hw⟩
          · rw [if_neg e] at hw; simp at hw
      obtain ⟨rfl, hv⟩ := this
      simp only [Option.bind_some]
      simp [applySet, ownSetting, readBool_none v hv]
      simp [strcaseeq, tolowerC]
    · rw [ih (fun p hp => hk p (by simp [hp])) hls]; rfl

theorem says_keys {lines kept : List CStr} {sets : List (CStr × CStr)} (h : Says lines kept sets) : ∀ p ∈ sets, p.1 ∈ ownKeys := by
  induction h with
  | nil => simp
  | own _ hown ih =>
    intro p hp
    rw [List.mem_append, List.mem_singleton] at hp
    rcases hp with hp | rfl
    · exact ih p hp
    · exact hown.2.1
  | keep _ _ ih => exact ih

/-- The result of reading a file, from what its lines say. -/
theorem parseConf_says {content : List UInt8} {lines kept : List CStr} {sets : List (CStr × CStr)}
    (hl : ScriptLines content lines) (h : Says lines kept sets) :
    (SaveOk sets → parseConf content = some { optsOf sets with wgConfig := kept.flatMap (· ++ [10]) }) ∧
    (¬ SaveOk sets → parseConf content = none) := by
  rw [scriptLines_iff] at hl; subst hl
  obtain ⟨sec, _, hst⟩ := parseState_says h
  rw [parseConf_eq, hst]
  constructor
  · intro hs; rw [applySets_ok sets (says_keys h) hs]; rfl
  · intro hs; rw [applySets_bad sets (says_keys h) hs]; rfl

/-! ### Interface names -/

theorem isNameByte_iff : ∀ c : UInt8, isNameByte c = true ↔ (isAlpha c = true ∨ isDigit c = true ∨ c ∈ b!"_=+.-") := by
  apply forall_u8; decide +kernel

theorem isName_iff (s : CStr) : isName s = true ↔ IsIfaceName s := by
  unfold isName IsIfaceName
  simp only [Bool.and_eq_true, List.all_eq_true, decide_eq_true_eq, isNameByte_iff]
  constructor
  · rintro ⟨⟨a, b⟩, c⟩; exact ⟨b, c, a⟩
  · rintro ⟨b, c, a⟩; exact ⟨⟨a, b⟩, c⟩

/-- `n.conf` is the last component of `path`. -/
def ConfName (path n : CStr) : Prop := path = n ++ b!".conf" ∨ ∃ dir, path = dir ++ c!"/" :: (n ++ b!".conf")

theorem mem_splits (s : CStr) (p : CStr × CStr) : p ∈ splits s ↔ s = p.1 ++ p.2 := by
  obtain ⟨a, b⟩ := p
  induction s generalizing a b with
  | nil =>
    simp only [splits, List.mem_singleton, Prod.mk.injEq]
    constructor
    · rintro ⟨rfl, rfl⟩; rfl
    · intro h; simpa [eq_comm] using h
  | cons c t ih =>
    simp only [splits, List.mem_cons, List.mem_map, Prod.mk.injEq]
    constructor
    · rintro (⟨rfl, rfl⟩ | ⟨⟨a', b'⟩, h, rfl, rfl⟩)
      · rfl
      · rw [ih] at h; simp [h]
    · intro h
      cases a with
      | nil => left; exact ⟨rfl, h.symm⟩
      | cons d a =>
        right
        simp only [List.cons_append, List.cons.injEq] at h
        obtain ⟨rfl, h⟩ := h
        exact ⟨(a, b), (ih a b).2 h, rfl, rfl⟩

theorem take_conf (n r : CStr) : (b!".conf" <:+ r ∧ r.take (r.length - 5) = n) ↔ r = n ++ b!".conf" := by
  constructor
  · rintro ⟨⟨p, rfl⟩, h⟩
    rw [show (p ++ b!".conf").length - 5 = p.length by simp, List.take_left] at h
    rw [h]
  · rintro rfl
    refine ⟨⟨n, rfl⟩, ?_⟩
    rw [show (n ++ b!".conf").length - 5 = n.length by simp, List.take_left]

theorem nameAt_iff (start : Bool) (rest n : CStr) :
    nameAt start rest = some n → IsIfaceName n ∧ ((start = true ∧ rest = n ++ b!".conf") ∨ rest = c!"/" :: (n ++ b!".conf")) := by
  have key : ∀ r : CStr, (if b!".conf" <:+ r ∧ isName (r.take (r.length - 5)) = true then some (r.take (r.length - 5)) else none) = some n →
      IsIfaceName n ∧ r = n ++ b!".conf" := by
    intro r h
    split at h
    · rename_i hc
      simp only [Option.some.injEq] at h
      refine ⟨?_, (take_conf n r).1 ⟨hc.1, h⟩⟩
      rw [← isName_iff, ← h]; exact hc.2
    · cases h
  unfold nameAt
  intro h
  dsimp only at h
  cases start with
  | true =>
    simp only [if_true] at h
    split at h
    · rename_i m hm
      simp only [Option.some.injEq] at h
      subst h
      obtain ⟨h1, h2⟩ := key _ hm
      exact ⟨h1, .inl ⟨rfl, h2⟩⟩
    · split at h
      · rename_i c t
        split at h
        · rename_i hc
          obtain ⟨h1, h2⟩ := key _ h
          exact ⟨h1, .inr (by rw [hc, h2])⟩
        · cases h
      · cases h
  | false =>
    simp only [Bool.false_eq_true, if_false] at h
    split at h
    · rename_i c t
      split at h
      · rename_i hc
        obtain ⟨h1, h2⟩ := key _ h
        exact ⟨h1, .inr (by rw [hc, h2])⟩
      · cases h
    · cases h

theorem noSlash {n : CStr} (h : IsIfaceName n) : c!"/" ∉ n ++ b!".conf" := by
  rw [List.mem_append, not_or]
  refine ⟨fun e => ?_, by decide⟩
  have := h.2.2 _ e
  revert this; decide

theorem confName_unique {path n n' : CStr} (hn : IsIfaceName n) (hn' : IsIfaceName n') (h : ConfName path n) (h' : ConfName path n') :
    n = n' := by
  have key : ∀ {n : CStr}, IsIfaceName n → ConfName path n → (path.reverse.takeWhile (· ≠ c!"/")).reverse = n ++ b!".conf" := by
    intro n hn h
    have hs := noSlash hn
    have hs' : ∀ c ∈ (n ++ b!".conf").reverse, decide (c ≠ c!"/") = true := by
      intro c hc; simp only [decide_eq_true_eq]; rintro rfl; exact hs (List.mem_reverse.1 hc)
    rcases h with rfl | ⟨dir, rfl⟩
    · rw [List.takeWhile_eq_self_iff.2 hs', List.reverse_reverse]
    · rw [List.reverse_append, List.reverse_cons, List.append_assoc, List.takeWhile_append_of_pos hs']
      simp
  have := (key hn h).symm.trans (key hn' h')
  exact List.append_cancel_right this

theorem ifaceOf_iff (path n : CStr) : ifaceOf path = some n ↔ IsIfaceName n ∧ ConfName path n := by
  have fwd : ∀ n, ifaceOf path = some n → IsIfaceName n ∧ ConfName path n := by
    intro n h
    unfold ifaceOf at h
    obtain ⟨p, hp, hn⟩ := List.exists_of_findSome?_eq_some h
    rw [mem_splits] at hp
    obtain ⟨h1, h2⟩ := nameAt_iff _ _ _ hn
    refine ⟨h1, ?_⟩
    rcases h2 with ⟨hs, h2⟩ | h2
    · left
      simp only [decide_eq_true_eq] at hs
      rw [hp, hs, h2]; rfl
    · right; exact ⟨p.1, by rw [hp, h2]⟩
  constructor
  · exact fwd n
  · rintro ⟨hn, hc⟩
    have hex : (ifaceOf path).isSome := by
      unfold ifaceOf
      rw [List.findSome?_isSome_iff]
      have ok : ∀ r, r = n ++ b!".conf" → b!".conf" <:+ r ∧ isName (r.take (r.length - 5)) = true := by
        intro r hr
        obtain ⟨a, b⟩ := (take_conf n r).2 hr
        exact ⟨a, by rw [b, isName_iff]; exact hn⟩
      rcases hc with hc | ⟨dir, hc⟩
      · refine ⟨([], path), (mem_splits _ _).2 rfl, ?_⟩
        unfold nameAt
        dsimp only
        rw [if_pos (ok path hc)]
        simp
      · refine ⟨(dir, c!"/" :: (n ++ b!".conf")), (mem_splits _ _).2 hc, ?_⟩
        unfold nameAt
        dsimp only
        rw [if_pos rfl, if_pos (ok _ rfl)]
        split <;> simp
    obtain ⟨m, hm⟩ := Option.isSome_iff_exists.1 hex
    obtain ⟨h1, h2⟩ := fwd m hm
    rw [hm, confName_unique h1 hn h2 hc]

end WG.Quick
