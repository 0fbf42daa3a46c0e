import Verif.Proof.QuickSaved
import Verif.Proof.QuickWg
import Mathlib.Data.List.Chain
/-! Reading a saved configuration again. -/
namespace WG.Quick
open WG.Spec WG.Spec.Quick

/-! ### Lines -/

theorem bodyLines_cons (s t : List UInt8) (h : (10 : UInt8) ∉ s) : bodyLines (s ++ 10 :: t) = readLine s :: bodyLines t := by
  obtain ⟨hc, hs, hl⟩ := splitLF_spec t
  generalize (splitLF t).1 = segs at *
  generalize (splitLF t).2 = last at *
  subst hc
  have e : s ++ 10 :: (segs.flatMap (· ++ [10]) ++ last) = (s :: segs).flatMap (· ++ [10]) ++ last := by simp
  rw [e, bodyLines_of _ _ (by simpa using ⟨h, hs⟩) hl, bodyLines_of _ _ hs hl]
  rfl

/-- A value as the reader yields it. -/
def GoodVal (v : CStr) : Prop := trim isBlank v = v ∧ c!"#" ∉ v ∧ (10 : UInt8) ∉ v ∧ (0 : UInt8) ∉ v

/-- The line as read that gives the setting `p`. -/
def setLine (p : CStr × CStr) : CStr := p.1 ++ b!" =" ++ (if p.2 = [] then [] else b!" " ++ p.2)

/-- A key as it is written. -/
def GoodKey (k : CStr) : Prop := k ≠ [] ∧ (∀ c ∈ k, isSpace c = false) ∧ c!"=" ∉ k ∧ c!"#" ∉ k ∧ c!"[" ∉ k ∧ (0 : UInt8) ∉ k

theorem trim_mem {p : UInt8 → Bool} {s : CStr} {c : UInt8} (h : c ∈ trim p s) : c ∈ s := by
  unfold trim at h
  rw [List.mem_reverse] at h
  have h := (List.dropWhile_sublist _).subset h
  rw [List.mem_reverse] at h
  exact (List.dropWhile_sublist _).subset h

theorem good_ends {v : CStr} (h : trim isBlank v = v) :
    (∀ c, v.head? = some c → isSpace c = false) ∧ (∀ c, v.getLast? = some c → isSpace c = false) := by
  rw [isBlank_eq] at h
  obtain ⟨l, r, e, _, _, h1, h2⟩ := of_trim isSpace v
  rw [h] at h1 h2
  exact ⟨h1, h2⟩

theorem spaceTab_isSpace {c : UInt8} (h : isSpace c = false) : spaceTab c = false := by
  cases hs : spaceTab c with
  | false => rfl
  | true => rw [← isIfs_eq] at hs; rw [ifs_isSpace c hs] at h; cases h

theorem goodKey_noLF {k : CStr} (h : GoodKey k) : (10 : UInt8) ∉ k := fun hm => absurd (h.2.1 _ hm) (by decide)

theorem readLine_set {p : CStr × CStr} (hk : GoodKey p.1) (hv : GoodVal p.2) :
    (10 : UInt8) ∉ p.1 ++ b!" = " ++ p.2 ∧ readLine (p.1 ++ b!" = " ++ p.2) = setLine p := by
  obtain ⟨k, v⟩ := p
  have hk10 := goodKey_noLF hk
  dsimp only at hk hv ⊢
  constructor
  · simp only [List.mem_append, not_or]
    exact ⟨⟨hk10, by decide⟩, hv.2.2.1⟩
  unfold readLine setLine
  dsimp only
  have hf : (k ++ b!" = " ++ v).filter (· ≠ 0) = k ++ b!" = " ++ v := by
    rw [List.filter_eq_self]
    intro c hc
    simp only [decide_eq_true_eq]
    rintro rfl
    simp only [List.mem_append] at hc
    rcases hc with (hc | hc) | hc
    · exact hk.2.2.2.2.2 hc
    · revert hc; decide
    · exact hv.2.2.2 hc
  rw [hf, isIfs_eq]
  symm
  apply trim_of
  have hhead : ∀ rest c, (k ++ rest).head? = some c → spaceTab c = false := by
    intro rest c hc
    cases k with
    | nil => exact absurd rfl hk.1
    | cons x k =>
      simp only [List.cons_append, List.head?_cons, Option.some.injEq] at hc
      subst hc
      exact spaceTab_isSpace (hk.2.1 _ (List.mem_cons_self ..))
  by_cases e : v = []
  · subst e
    refine ⟨[], b!" ", by simp, by simp, by decide, ?_, ?_⟩
    · intro c hc; rw [if_pos rfl, List.append_nil] at hc; exact hhead _ c hc
    · intro c hc
      simp only [if_true, List.append_nil] at hc
      rw [List.getLast?_append] at hc
      simp at hc
      subst hc; decide
  · rw [if_neg e]
    refine ⟨[], [], by simp, by simp, by simp, ?_, ?_⟩
    · intro c hc; rw [List.append_assoc] at hc; exact hhead _ c hc
    · intro c hc
      apply spaceTab_isSpace
      apply (good_ends hv.1).2 c
      rw [← hc, ← List.append_assoc]
      rw [List.getLast?_append_of_ne_nil _ e]

theorem setLine_key {p : CStr × CStr} (hk : GoodKey p.1) (hv : GoodVal p.2) : HasKey (setLine p) p.1 := by
  obtain ⟨k, v⟩ := p
  dsimp only at hk hv ⊢
  refine ⟨setLine (k, v), k ++ b!" ", ⟨?_, .inl rfl⟩, ⟨?_, .inr ⟨if v = [] then [] else b!" " ++ v, by simp [setLine]⟩⟩, [], b!" ", by simp, by simp, by decide, ?_, ?_⟩
  · unfold setLine
    simp only [List.mem_append, not_or]
    refine ⟨⟨hk.2.2.2.1, by decide⟩, ?_⟩
    split
    · simp
    · simp only [List.mem_append, not_or]
      exact ⟨by decide, hv.2.1⟩
  · simp only [List.mem_append, not_or]
    exact ⟨hk.2.2.1, by decide⟩
  · intro c hc; exact hk.2.1 c (List.mem_of_mem_head? hc)
  · intro c hc; exact hk.2.1 c (List.mem_of_getLast? hc)

theorem setLine_value {p : CStr × CStr} (hk : GoodKey p.1) (hv : GoodVal p.2) : HasValue (setLine p) p.2 := by
  obtain ⟨k, v⟩ := p
  dsimp only at hk hv ⊢
  refine ⟨setLine (k, v), ⟨?_, .inl rfl⟩, .inl ⟨k ++ b!" ", if v = [] then [] else b!" " ++ v, by simp [setLine], ?_, ?_⟩⟩
  · unfold setLine
    simp only [List.mem_append, not_or]
    refine ⟨⟨hk.2.2.2.1, by decide⟩, ?_⟩
    split
    · simp
    · simp only [List.mem_append, not_or]
      exact ⟨by decide, hv.2.1⟩
  · simp only [List.mem_append, not_or]
    exact ⟨hk.2.2.1, by decide⟩
  · by_cases e : v = []
    · subst e; exact ⟨[], [], rfl, by simp, by simp, by simp, by simp⟩
    · rw [if_neg e]
      exact ⟨b!" ", [], by simp, by decide, by simp, (good_ends hv.1).1, (good_ends hv.1).2⟩

/-! ### Sections -/

def secOf (lines : List CStr) : Bool := lines.foldl (fun b l => sectionAfter b (keyOf (strippedOf l))) false

theorem inInterface_iff (lines : List CStr) : secOf lines = true ↔ InInterface lines := by
  induction lines using List.reverseRecOn with
  | nil =>
    simp only [secOf, List.foldl_nil, Bool.false_eq_true, false_iff]
    rintro ⟨p, hd, post, e, _⟩
    simp at e
  | append_singleton ls l ih =>
    unfold secOf
    rw [List.foldl_append]
    exact inInterface_snoc ls l (secOf ls) ih

theorem secOf_stay (S : List CStr) (h : ∀ l ∈ S, ∀ k, HasKey l k → k.head? ≠ some c!"[") :
    S.foldl (fun b l => sectionAfter b (keyOf (strippedOf l))) true = true := by
  induction S with
  | nil => rfl
  | cons l S ih =>
    rw [List.foldl_cons]
    have : sectionAfter true (keyOf (strippedOf l)) = true := by
      unfold sectionAfter
      split
      · rfl
      · rw [if_neg (h l (List.mem_cons_self ..) _ ((hasKey_iff _ _).2 rfl))]
    rw [this]
    exact ih fun l' hl' => h l' (List.mem_cons_of_mem _ hl')

theorem inInterface_insert (S t : List CStr) (h : ∀ l ∈ S, ∀ k, HasKey l k → k.head? ≠ some c!"[") :
    InInterface (b!"[Interface]" :: (S ++ t)) ↔ InInterface (b!"[Interface]" :: t) := by
  rw [← inInterface_iff, ← inInterface_iff]
  unfold secOf
  rw [List.foldl_cons, List.foldl_cons, List.foldl_append]
  rw [show sectionAfter false (keyOf (strippedOf b!"[Interface]")) = true from by decide +kernel, secOf_stay S h]

/-- Settings as they are written. -/
def GoodSet (p : CStr × CStr) : Prop := GoodKey p.1 ∧ GoodVal p.2 ∧ p.1.map lower ∈ ownKeys

theorem setLine_noHeader {p : CStr × CStr} (h : GoodSet p) : ∀ k, HasKey (setLine p) k → k.head? ≠ some c!"[" := by
  intro k hk
  have := (hasKey_iff _ _).1 (setLine_key h.1 h.2.1)
  rw [(hasKey_iff _ _).1 hk, ← this]
  exact fun e => h.1.2.2.2.2.1 (List.mem_of_mem_head? e)

theorem says_block (sets : List (CStr × CStr)) (h : ∀ p ∈ sets, GoodSet p) :
    Says (b!"[Interface]" :: sets.map setLine) [b!"[Interface]"] (sets.map fun p => (p.1.map lower, p.2)) := by
  induction sets using List.reverseRecOn with
  | nil =>
    have := Says.keep (l := b!"[Interface]") Says.nil (by
      rintro k v ⟨_, hk, ⟨k', hk', e⟩, _⟩
      rw [hasKey_iff] at hk'
      subst hk'
      revert k
      unfold EqNoCase
      decide +kernel)
    exact this
  | append_singleton ss p ih =>
    have ih := ih fun q hq => h q (List.mem_append_left _ hq)
    have hp := h p (by simp)
    have := Says.own (l := setLine p) (k := p.1.map lower) (v := p.2) ih ⟨?_, hp.2.2, ⟨p.1, setLine_key hp.1 hp.2.1, ?_⟩, setLine_value hp.1 hp.2.1⟩
    · rw [List.map_append, List.map_append]
      exact this
    · have := (inInterface_insert (ss.map setLine ++ [setLine p]) [] (by
        intro l hl k hk
        rw [List.mem_append, List.mem_singleton, List.mem_map] at hl
        rcases hl with ⟨q, hq, rfl⟩ | rfl
        · exact setLine_noHeader (h q (List.mem_append_left _ hq)) k hk
        · exact setLine_noHeader hp k hk)).2 ((inInterface_iff _).1 (by decide +kernel))
      rwa [List.append_nil] at this
    · unfold EqNoCase
      rfl

/-- Nothing of wg-quick's own among the lines. -/
def NoOwn (lines : List CStr) : Prop := ∀ a l b, lines = a ++ l :: b → ∀ k v, ¬ OwnLine a l k v

theorem says_tail (S t : List CStr) {sets : List (CStr × CStr)} (hS : ∀ l ∈ S, ∀ k, HasKey l k → k.head? ≠ some c!"[")
    (h : Says (b!"[Interface]" :: S) [b!"[Interface]"] sets) (ht : NoOwn (b!"[Interface]" :: t)) :
    Says (b!"[Interface]" :: (S ++ t)) (b!"[Interface]" :: t) sets := by
  induction t using List.reverseRecOn with
  | nil => rwa [List.append_nil]
  | append_singleton t l ih =>
    have h1 : NoOwn (b!"[Interface]" :: t) := by
      intro a x b e
      exact ht a x (b ++ [l]) (by rw [← List.cons_append, e]; simp)
    have := Says.keep (l := l) (ih h1) ?_
    · simpa using this
    · intro k v ho
      refine ht (b!"[Interface]" :: t) l [] (by simp) k v ⟨?_, ho.2⟩
      have := ho.1
      have e : (b!"[Interface]" :: (S ++ t) ++ [l]) = b!"[Interface]" :: (S ++ (t ++ [l])) := by simp
      rw [e, inInterface_insert _ _ hS] at this
      simpa using this

theorem noOwn_says {lines : List CStr} (h : NoOwn lines) : Says lines lines [] := by
  induction lines using List.reverseRecOn with
  | nil => exact .nil
  | append_singleton t l ih =>
    exact .keep (ih fun a x b e => h a x (b ++ [l]) (by rw [e]; simp)) (h t l [] rfl)

/-- What `wg` accepts has nothing of wg-quick's own. -/
theorem accepted_noOwn {env : Env} {ctx ctx' : Ctx} {lines : List CStr} (h : readLines env ctx lines = .ok ctx') : NoOwn lines := by
  intro a l b e k v ho
  subst e
  have key : ∀ ctx, readLines env ctx (a ++ l :: b) ≠ .ok ctx' := by
    have hl : ∀ ctx, configReadLine env ctx l = .fail := fun ctx => own_refused env ctx ho
    generalize a = a'
    induction a' with
    | nil => intro ctx; simp only [List.nil_append, readLines, hl]; exact fun h => nomatch h
    | cons x a ih =>
      intro ctx
      simp only [List.cons_append, readLines]
      cases configReadLine env ctx x with
      | ok c => exact ih c
      | _ => exact fun h => nomatch h
  exact key ctx h

/-! ### Values -/

theorem value_good {l : CStr} {v : CStr} (h1 : (10 : UInt8) ∉ l ∧ (0 : UInt8) ∉ l) (hv : HasValue l v) : GoodVal v := by
  have hv' := hv
  obtain ⟨code, ⟨hh, hc⟩, h⟩ := hv
  have hsub : ∀ c ∈ code, c ∈ l := by
    rcases hc with rfl | ⟨r, rfl⟩
    · exact fun c hc => hc
    · exact fun c hc => List.mem_append_left _ hc
  have key : ∀ s, (∀ c ∈ s, c ∈ code) → Trimmed isSpace s v → GoodVal v := by
    rintro s hs ⟨a, b, rfl, _, _, h3, h4⟩
    have hm : ∀ c ∈ v, c ∈ code := fun c hc => hs c (by simp [hc])
    refine ⟨?_, fun hc => hh (hm _ hc), fun hc => h1.1 (hsub _ (hm _ hc)), fun hc => h1.2 (hsub _ (hm _ hc))⟩
    rw [isBlank_eq]
    exact (trim_of isSpace ⟨[], [], by simp, by simp, by simp, h3, h4⟩).symm
  rcases h with ⟨lhs, rhs, rfl, _, ht⟩ | ⟨_, ht⟩
  · exact key rhs (fun c hc => by simp [hc]) ht
  · exact key code (fun c hc => hc) ht

theorem says_values {lines kept : List CStr} {sets : List (CStr × CStr)} (h : Says lines kept sets)
    (hb : ∀ l ∈ lines, (10 : UInt8) ∉ l ∧ (0 : UInt8) ∉ l) : ∀ p ∈ sets, GoodVal p.2 := by
  induction h with
  | nil => simp
  | own _ hown ih =>
    intro p hp
    rw [List.mem_append, List.mem_singleton] at hp
    rcases hp with hp | rfl
    · exact ih (fun l hl => hb l (List.mem_append_left _ hl)) p hp
    · exact value_good (hb _ (by simp)) hown.2.2.2
  | keep _ _ ih => exact ih fun l hl => hb l (List.mem_append_left _ hl)

theorem goodVal_nil : GoodVal [] := ⟨rfl, by simp, by simp, by simp⟩

/-- The settings read from a file that are saved as configured. -/
theorem opts_good {content : List UInt8} {o : Opts} (h : parseConf content = some o) :
    GoodVal o.table ∧ (∀ v ∈ o.preUp, GoodVal v) ∧ (∀ v ∈ o.postUp, GoodVal v) ∧ (∀ v ∈ o.preDown, GoodVal v) ∧ (∀ v ∈ o.postDown, GoodVal v) := by
  obtain ⟨kept, sets, hs⟩ := says_exists (bodyLines content)
  obtain ⟨h1, h2⟩ := parseConf_says ((scriptLines_iff _ _).2 rfl) hs
  by_cases hok : SaveOk sets
  swap
  · rw [h2 hok] at h; cases h
  rw [h1 hok] at h
  cases h
  have hg := says_values hs (bodyLines_bytes content)
  have hv : ∀ k, ∀ v ∈ valuesOf k sets, GoodVal v := by
    intro k v hv
    obtain ⟨p, hp, rfl⟩ := List.mem_map.1 hv
    exact hg p (List.mem_of_mem_filter hp)
  refine ⟨?_, hv _, hv _, hv _, hv _⟩
  show GoodVal ((valuesOf b!"table" sets).getLast?.getD [])
  cases e : (valuesOf b!"table" sets).getLast? with
  | none => exact goodVal_nil
  | some v => exact hv _ v (List.mem_of_getLast? e)

/-- A word of bytes that are no blanks, separators or comments. -/
def PlainWord (w : CStr) : Prop := w ≠ [] ∧ ∀ c ∈ w, isSpace c = false ∧ c ≠ c!"#" ∧ c ≠ c!"," ∧ c ≠ 0

theorem PlainWord.good {w : CStr} (h : PlainWord w) : GoodVal w := by
  refine ⟨?_, fun hc => (h.2 _ hc).2.1 rfl, fun hc => absurd (h.2 _ hc).1 (by decide), fun hc => (h.2 _ hc).2.2.2 rfl⟩
  rw [isBlank_eq]
  exact (trim_of isSpace ⟨[], [], by simp, by simp, by simp, fun c hc => (h.2 c (List.mem_of_mem_head? hc)).1, fun c hc => (h.2 c (List.mem_of_getLast? hc)).1⟩).symm

theorem listSep_plain : ∀ c : UInt8, isSpace c = false → c ≠ c!"," → listSep c = false := by apply forall_u8; decide +kernel

theorem PlainWord.words {w : CStr} (h : PlainWord w) : commaWords w = [w] := by
  have := Words.cons (sep := listSep) (g := []) (w := w) (rest := []) (ws := []) (by simp) h.1
    (fun c hc => listSep_plain c (h.2 c hc).1 (h.2 c hc).2.2.1) (by simp) (.nil (by simp))
  rw [List.nil_append, List.append_nil] at this
  exact ((words_iff _ _).1 this).symm

theorem plainWords_words {ws : List CStr} (h : ∀ w ∈ ws, PlainWord w) : ws.flatMap commaWords = ws := by
  induction ws with
  | nil => rfl
  | cons w ws ih =>
    rw [List.flatMap_cons, (h w (List.mem_cons_self ..)).words, ih fun x hx => h x (List.mem_cons_of_mem _ hx)]
    rfl

theorem addr_plain : ∀ c : UInt8, (hexAddrByte c = true ∨ c = c!"/") → isSpace c = false ∧ c ≠ c!"#" ∧ c ≠ c!"," ∧ c ≠ 0 ∧ c ≠ c!"&" ∧ c ≠ 92 := by
  apply forall_u8; decide +kernel
theorem ns_plain : ∀ c : UInt8, (isAlpha c = true ∨ isDigit c = true ∨ c ∈ b!"_=+:%.-") → isSpace c = false ∧ c ≠ c!"#" ∧ c ≠ c!"," ∧ c ≠ 0 ∧ c ≠ c!"&" ∧ c ≠ 92 := by
  apply forall_u8; decide +kernel
theorem digit_plain : ∀ c : UInt8, isDigit c = true → isSpace c = false ∧ c ≠ c!"#" ∧ c ≠ c!"," ∧ c ≠ 0 ∧ c ≠ c!"&" ∧ c ≠ 92 := by
  apply forall_u8; decide +kernel

def savedKeys : List CStr := [b!"Address", b!"DNS", b!"MTU", b!"Table", b!"SaveConfig", b!"PreUp", b!"PostUp", b!"PreDown", b!"PostDown"]

theorem savedKeys_good : ∀ k ∈ savedKeys, GoodKey k ∧ k.map lower ∈ ownKeys := by
  intro k hk
  simp only [savedKeys, List.mem_cons, List.not_mem_nil, or_false] at hk
  rcases hk with rfl | rfl | rfl | rfl | rfl | rfl | rfl | rfl | rfl <;> exact ⟨by unfold GoodKey; decide +kernel, by decide +kernel⟩

/-- Keys and values of the saved settings. -/
theorem mem_saved {o : Opts} {as ns : List CStr} {m : Option CStr} {p : CStr × CStr} (h : p ∈ savedSettings o as ns m) :
    p.1 ∈ savedKeys ∧ (p.2 ∈ as ∨ p.2 ∈ ns ∨ some p.2 = m ∨ p.2 = o.table ∨ p.2 = b!"true" ∨ p.2 ∈ o.preUp ∨ p.2 ∈ o.postUp ∨ p.2 ∈ o.preDown ∨ p.2 ∈ o.postDown) := by
  unfold savedSettings at h
  simp only [List.mem_append, List.mem_map] at h
  rcases h with (((((((⟨v, hv, rfl⟩ | ⟨v, hv, rfl⟩) | ⟨v, hv, rfl⟩) | h) | h) | ⟨v, hv, rfl⟩) | ⟨v, hv, rfl⟩) | ⟨v, hv, rfl⟩) | ⟨v, hv, rfl⟩
  · exact ⟨by simp [savedKeys], .inl hv⟩
  · exact ⟨by simp [savedKeys], .inr (.inl hv)⟩
  · exact ⟨by simp [savedKeys], .inr (.inr (.inl (by simpa [eq_comm] using hv)))⟩
  · split at h
    · simp at h
    · rw [List.mem_singleton] at h; subst h; exact ⟨by simp [savedKeys], by simp⟩
  · split at h
    · rw [List.mem_singleton] at h; subst h; exact ⟨by simp [savedKeys], by simp⟩
    · simp at h
  · exact ⟨by simp [savedKeys], by simp [hv]⟩
  · exact ⟨by simp [savedKeys], by simp [hv]⟩
  · exact ⟨by simp [savedKeys], by simp [hv]⟩
  · exact ⟨by simp [savedKeys], by simp [hv]⟩

theorem valuesOf_append (k : CStr) (a b : List (CStr × CStr)) : valuesOf k (a ++ b) = valuesOf k a ++ valuesOf k b := by
  simp [valuesOf]

theorem valuesOf_map (k k' : CStr) (vs : List CStr) : valuesOf k (vs.map (k', ·)) = if k' = k then vs else [] := by
  unfold valuesOf
  by_cases e : k' = k
  · rw [if_pos e]
    subst e
    rw [List.filter_eq_self.2 (by simp)]
    simp [Function.comp_def]
  · rw [if_neg e]
    simp [e]

/-- The settings as the reader names them. -/
theorem saved_lower (o : Opts) (as ns : List CStr) (m : Option CStr) :
    (savedSettings o as ns m).map (fun p => (p.1.map lower, p.2)) =
      as.map (b!"address", ·) ++ ns.map (b!"dns", ·) ++ m.toList.map (b!"mtu", ·) ++
      (if o.table = [] then [] else [o.table]).map (b!"table", ·) ++ (if o.saveConfig then [b!"true"] else []).map (b!"saveconfig", ·) ++
      o.preUp.map (b!"preup", ·) ++ o.postUp.map (b!"postup", ·) ++ o.preDown.map (b!"predown", ·) ++ o.postDown.map (b!"postdown", ·) := by
  unfold savedSettings
  simp only [List.map_append, List.map_map, Function.comp_def]
  congr 5
  · split <;> rfl
  · split <;> rfl

theorem saved_opts (o : Opts) (as ns : List CStr) (m : Option CStr) (ha : ∀ w ∈ as, PlainWord w) (hn : ∀ w ∈ ns, PlainWord w) :
    SaveOk ((savedSettings o as ns m).map fun p => (p.1.map lower, p.2)) ∧
    optsOf ((savedSettings o as ns m).map fun p => (p.1.map lower, p.2)) =
      { addresses := as, mtu := m.getD [], dns := ns.filter isNameserver, dnsSearch := ns.filter (fun v => !isNameserver v), table := o.table,
        preUp := o.preUp, postUp := o.postUp, preDown := o.preDown, postDown := o.postDown, saveConfig := o.saveConfig } := by
  rw [saved_lower]
  have v1 : ∀ k, valuesOf k (as.map (b!"address", ·) ++ ns.map (b!"dns", ·) ++ m.toList.map (b!"mtu", ·) ++
      (if o.table = [] then [] else [o.table]).map (b!"table", ·) ++ (if o.saveConfig then [b!"true"] else []).map (b!"saveconfig", ·) ++
      o.preUp.map (b!"preup", ·) ++ o.postUp.map (b!"postup", ·) ++ o.preDown.map (b!"predown", ·) ++ o.postDown.map (b!"postdown", ·)) =
      (if b!"address" = k then as else []) ++ (if b!"dns" = k then ns else []) ++ (if b!"mtu" = k then m.toList else []) ++
      (if b!"table" = k then (if o.table = [] then [] else [o.table]) else []) ++ (if b!"saveconfig" = k then (if o.saveConfig then [b!"true"] else []) else []) ++
      (if b!"preup" = k then o.preUp else []) ++ (if b!"postup" = k then o.postUp else []) ++ (if b!"predown" = k then o.preDown else []) ++
      (if b!"postdown" = k then o.postDown else []) := by
    intro k
    simp only [valuesOf_append, valuesOf_map]
  constructor
  · unfold SaveOk
    intro v hv
    rw [v1] at hv
    simp only [if_true, List.append_nil, List.nil_append, List.cons.injEq, reduceCtorEq, and_false, if_false] at hv
    have : v = b!"true" := by
      cases hsc : o.saveConfig <;> simp_all
    subst this
    exact .inl rfl
  · unfold optsOf
    simp only [v1]
    have e1 : as.flatMap commaWords = as := plainWords_words ha
    have e2 : ns.flatMap commaWords = ns := plainWords_words hn
    simp [e1, e2]
    refine ⟨by cases m <;> rfl, ?_, ?_⟩
    · split
      · rename_i h; rw [h]; rfl
      · rfl
    · cases o.saveConfig
      · rfl
      · decide +kernel

/-! ### Replacement texts -/

def OneSlash (a b : UInt8) : Prop := ¬ (a = 92 ∧ b = 92)

theorem oneSlash_of {s : CStr} (h : ¬ Occurs [92, 92] s) : s.IsChain OneSlash := by
  induction s with
  | nil => exact .nil
  | cons a s ih =>
    have h1 : ¬ Occurs [92, 92] s := fun ⟨x, y, e⟩ => h ⟨a :: x, y, by rw [e]; rfl⟩
    cases s with
    | nil => exact .singleton _
    | cons b s =>
      refine .cons_cons ?_ (ih h1)
      rintro ⟨rfl, rfl⟩
      exact h ⟨[], s, rfl⟩

theorem ampText_plain {m s t : CStr} (h : AmpText m s t) (h1 : c!"&" ∉ s) (h2 : s.IsChain OneSlash) : t = s := by
  induction h with
  | nil => rfl
  | amp => simp at h1
  | @esc x s t hx _ _ =>
    exfalso
    rcases hx with rfl | rfl
    · simp at h1
    · rw [List.isChain_cons_cons] at h2
      exact h2.1 ⟨rfl, rfl⟩
  | other _ _ _ ih =>
    rw [ih (fun h => h1 (List.mem_cons_of_mem _ h)) h2.of_cons]

theorem section_plain {sets : List (CStr × CStr)} (h : ∀ p ∈ sets, p.1 ∈ savedKeys ∧ c!"&" ∉ p.2 ∧ ¬ Occurs [92, 92] p.2) :
    c!"&" ∉ ownSection sets ∧ (ownSection sets).IsChain OneSlash := by
  have hk : ∀ k ∈ savedKeys, c!"&" ∉ k ∧ 92 ∉ k := by decide
  have hline : ∀ p ∈ sets, c!"&" ∉ p.1 ++ b!" = " ++ p.2 ++ b!"\n" ∧ (p.1 ++ b!" = " ++ p.2 ++ b!"\n").IsChain OneSlash := by
    intro p hp
    obtain ⟨h1, h2, h3⟩ := h p hp
    obtain ⟨h4, h5⟩ := hk _ h1
    constructor
    · simp only [List.mem_append, not_or]
      exact ⟨⟨⟨h4, by decide⟩, h2⟩, by decide⟩
    · refine List.IsChain.append (List.IsChain.append (oneSlash_of ?_) (oneSlash_of h3) ?_) (.singleton _) ?_
      · rintro ⟨a, b, e⟩
        have : (92 : UInt8) ∈ p.1 ++ b!" = " := by rw [e]; simp
        rw [List.mem_append] at this
        rcases this with h | h
        · exact h5 h
        · revert h; decide
      · intro x hx y hy
        rw [List.getLast?_append] at hx
        simp at hx
        subst hx
        rintro ⟨e, _⟩
        revert e; decide
      · intro x hx y hy
        simp only [List.head?_cons, Option.mem_def, Option.some.injEq] at hy
        subst hy
        rintro ⟨_, e⟩
        revert e; decide
  unfold ownSection
  have hall : c!"&" ∉ sets.flatMap (fun p => p.1 ++ b!" = " ++ p.2 ++ b!"\n") ∧ (sets.flatMap fun p => p.1 ++ b!" = " ++ p.2 ++ b!"\n").IsChain OneSlash := by
    clear h
    induction sets with
    | nil => exact ⟨by simp, .nil⟩
    | cons p sets ih =>
      have ih := ih fun q hq => hline q (List.mem_cons_of_mem _ hq)
      have hp := hline p (List.mem_cons_self ..)
      rw [List.flatMap_cons]
      refine ⟨by rw [List.mem_append, not_or]; exact ⟨hp.1, ih.1⟩, hp.2.append ih.2 ?_⟩
      intro x hx y _
      rw [List.getLast?_append] at hx
      simp at hx
      subst hx
      rintro ⟨e, _⟩
      revert e; decide
  refine ⟨by rw [List.mem_append, not_or]; exact ⟨by decide, hall.1⟩, List.IsChain.append (oneSlash_of ?_) hall.2 ?_⟩
  · rintro ⟨a, b, e⟩
    have : (92 : UInt8) ∈ b!"[Interface]\n" := by rw [e]; simp
    revert this; decide
  · intro x hx y _
    simp at hx
    subst hx
    rintro ⟨e, _⟩
    revert e; decide

/-! ### The whole file -/

theorem replaced_head {pat new rest t : CStr} (h : Replaced pat new (pat ++ rest) t) : t = new ++ rest := by
  rcases h with ⟨a, b, h1, rfl, h3⟩ | ⟨h, _⟩
  · have := h3 [] rest (by simp)
    simp only [List.length_nil, Nat.le_zero, List.length_eq_zero_iff] at this
    subst this
    simp only [List.nil_append, List.append_cancel_left_eq] at h1
    rw [h1]; simp
  · exact absurd ⟨[], rest, by simp⟩ h

theorem bodyLines_section {sets : List (CStr × CStr)} (h : ∀ p ∈ sets, GoodSet p) (t : List UInt8) :
    bodyLines (ownSection sets ++ t) = b!"[Interface]" :: (sets.map setLine ++ bodyLines t) := by
  have hall : bodyLines ((sets.flatMap fun p => p.1 ++ b!" = " ++ p.2 ++ b!"\n") ++ t) = sets.map setLine ++ bodyLines t := by
    induction sets with
    | nil => rfl
    | cons p sets ih =>
      have hp := h p (List.mem_cons_self ..)
      obtain ⟨h1, h2⟩ := readLine_set hp.1 hp.2.1
      rw [List.flatMap_cons]
      have e : p.1 ++ b!" = " ++ p.2 ++ b!"\n" ++ (sets.flatMap fun p => p.1 ++ b!" = " ++ p.2 ++ b!"\n") ++ t =
          (p.1 ++ b!" = " ++ p.2) ++ 10 :: ((sets.flatMap fun p => p.1 ++ b!" = " ++ p.2 ++ b!"\n") ++ t) := by simp
      rw [e, bodyLines_cons _ _ h1, h2, ih fun q hq => h q (List.mem_cons_of_mem _ hq)]
      rfl
  unfold ownSection
  have e : b!"[Interface]\n" ++ (sets.flatMap fun p => p.1 ++ b!" = " ++ p.2 ++ b!"\n") ++ t =
      b!"[Interface]" ++ 10 :: ((sets.flatMap fun p => p.1 ++ b!" = " ++ p.2 ++ b!"\n") ++ t) := by simp
  rw [e, bodyLines_cons _ _ (by decide), hall]
  rfl

/-- A saved file is read as the shown configuration and the saved settings. -/
theorem reload {o : Opts} {content rest : List UInt8} {as ns : List CStr} {m : Option CStr} (ho : parseConf content = some o)
    (ha : ∀ w ∈ as, PlainWord w) (hn : ∀ w ∈ ns, PlainWord w) (hm : ∀ v, m = some v → GoodVal v)
    (hr : NoOwn (bodyLines (b!"[Interface]\n" ++ rest))) :
    parseConf (ownSection (savedSettings o as ns m) ++ rest) =
      some { o with wgConfig := (bodyLines (b!"[Interface]\n" ++ rest)).flatMap (· ++ [10]), addresses := as, mtu := m.getD [],
                    dns := ns.filter isNameserver, dnsSearch := ns.filter (fun v => !isNameserver v) } := by
  obtain ⟨g1, g2, g3, g4, g5⟩ := opts_good ho
  have hgood : ∀ p ∈ savedSettings o as ns m, GoodSet p := by
    intro p hp
    obtain ⟨h1, h2⟩ := mem_saved hp
    obtain ⟨h3, h4⟩ := savedKeys_good _ h1
    refine ⟨h3, ?_, h4⟩
    rcases h2 with h | h | h | h | h | h | h | h | h
    · exact (ha _ h).good
    · exact (hn _ h).good
    · exact hm _ h.symm
    · rw [h]; exact g1
    · rw [h]; unfold GoodVal; decide +kernel
    · exact g2 _ h
    · exact g3 _ h
    · exact g4 _ h
    · exact g5 _ h
  have e1 : bodyLines (b!"[Interface]\n" ++ rest) = b!"[Interface]" :: bodyLines rest := by
    have := bodyLines_cons b!"[Interface]" rest (by decide)
    exact this
  rw [e1] at hr ⊢
  have hS : ∀ l ∈ (savedSettings o as ns m).map setLine, ∀ k, HasKey l k → k.head? ≠ some c!"[" := by
    intro l hl k hk
    obtain ⟨p, hp, rfl⟩ := List.mem_map.1 hl
    exact setLine_noHeader (hgood p hp) k hk
  have hs := says_tail _ (bodyLines rest) hS (says_block _ hgood) hr
  obtain ⟨h1, h2⟩ := saved_opts o as ns m ha hn
  have := (parseConf_says ((scriptLines_iff _ _).2 (bodyLines_section hgood rest).symm) hs).1 h1
  rw [this, h2]

/-- Line feeds at the end do not matter to `wg`. -/
theorem cleanLines_chomp (out : List UInt8) (h0 : (0 : UInt8) ∉ out) :
    cleanLines ((getlines (captured out ++ [10])).map cstr) = cleanLines ((getlines out).map cstr) := by
  have hf : out.filter (· ≠ 0) = out := by
    rw [List.filter_eq_self]; intro c hc; simp only [decide_eq_true_eq]; rintro rfl; exact h0 hc
  unfold captured
  rw [hf]
  have hx := List.rdropWhile_append_rtakeWhile (p := fun c : UInt8 => decide (c = 10)) (l := out)
  obtain ⟨n, hn⟩ : ∃ n, out.rtakeWhile (fun c => decide (c = 10)) = List.replicate n 10 := by
    refine ⟨_, List.eq_replicate_of_mem fun b hb => ?_⟩
    simpa using List.mem_rtakeWhile_imp hb
  have h0u : (0 : UInt8) ∉ out.rdropWhile fun c => decide (c = 10) := fun h => h0 (by rw [← hx]; exact List.mem_append_left _ h)
  rw [hn] at hx
  generalize out.rdropWhile (fun c => decide (c = 10)) = u at *
  subst hx
  obtain ⟨hc, hs, hl⟩ := splitLF_spec u
  generalize (splitLF u).1 = segs at *
  generalize (splitLF u).2 = last at *
  have h0l : (0 : UInt8) ∉ last := fun h => h0u (by rw [hc]; exact List.mem_append_right _ h)
  have e1 : u ++ [10] = (segs ++ [last]).flatMap (· ++ [10]) ++ [] := by rw [hc]; simp
  have hclean : cleaned (cstr (last ++ [10])) = cleaned (cstr last) := by
    rw [cstr_self _ (by simp [h0l]), cstr_self _ h0l]
    exact cleaned_append_blank last [10] (by decide)
  rw [e1, getlines_of _ _ (by intro s h; rw [List.mem_append, List.mem_singleton] at h; rcases h with h | rfl; exacts [hs s h, hl]) (by simp)]
  unfold cleanLines
  cases n with
  | zero =>
    rw [List.replicate_zero, List.append_nil, hc, getlines_of _ _ hs hl]
    simp only [List.map_append, List.map_map, List.filter_append, List.map_cons, List.map_nil, if_true, List.append_nil]
    congr 1
    by_cases e : last = []
    · subst e; decide
    · rw [if_neg e]
      simp only [List.map_cons, List.map_nil, hclean, Function.comp]
  | succ n =>
    have e2 : u ++ List.replicate (n + 1) 10 = (segs ++ [last] ++ List.replicate n []).flatMap (· ++ [10]) ++ [] := by
      rw [hc, List.replicate_succ]
      have : ∀ n, (List.replicate n ([] : List UInt8)).flatMap (· ++ [10]) = List.replicate n 10 := by
        intro n
        induction n with
        | zero => rfl
        | succ n ih => rw [List.replicate_succ, List.flatMap_cons, ih]; rfl
      simp [this]
    rw [e2, getlines_of _ _ (by
      intro s h
      simp only [List.mem_append, List.mem_singleton, List.mem_replicate] at h
      rcases h with (h | rfl) | ⟨_, rfl⟩
      · exact hs s h
      · exact hl
      · simp) (by simp)]
    simp only [List.map_append, List.map_map, List.filter_append, if_true, List.append_nil]
    have : ((List.replicate n ([] : List UInt8)).map ((cleaned ∘ cstr) ∘ fun x => x ++ [10])).filter (· ≠ []) = [] := by
      rw [List.filter_eq_nil_iff]
      intro x hx
      simp only [List.mem_map, List.mem_replicate] at hx
      obtain ⟨y, ⟨_, rfl⟩, rfl⟩ := hx
      decide
    simpa using this

end WG.Quick
