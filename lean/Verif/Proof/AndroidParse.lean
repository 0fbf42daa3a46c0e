import Verif.Model.AndroidParse
import Verif.Spec.Android
import Verif.Proof.Quick
import Verif.Proof.Setconf
import Verif.Proof.QuickVals
/-! Lemmas on the model of `parse_options` of android.c. -/
namespace WG.Android
open WG.Spec WG.Spec.Quick WG.Spec.Android
open WG.Quick (isNameByte isName)

theorem isspace_eq (c : UInt8) : isspaceLibc c = isSpace c := by
  revert c; apply forall_u8; decide +kernel

theorem cleanOf_eq (l : CStr) : cleanOf l = squeeze l := by
  unfold cleanOf squeeze
  congr 1; funext c; rw [isspace_eq]

theorem strncaseeq_iff (a k : CStr) (n : Nat) (hn : k.length = n) : strncaseeq a k n = true ↔ ∃ k' r, a = k' ++ r ∧ k'.map lower = k.map lower := by
  unfold strncaseeq
  have hl : tolowerC = lower := by funext c; revert c; apply forall_u8; decide +kernel
  rw [hl, beq_iff_eq, List.take_of_length_le (l := k) (by omega)]
  constructor
  · intro h; exact ⟨_, _, (List.take_append_drop n a).symm, h⟩
  · rintro ⟨k', r, rfl, h⟩
    have : k'.length = n := by rw [← hn, ← List.length_map (f := lower), h, List.length_map]
    rw [← this, List.take_left, h]

theorem inInterface_snoc (pre : List CStr) (l : CStr) (sec : Bool) (h : sec = true ↔ Spec.Android.InInterface pre) :
    sectionAfter sec (cleanOf l) = true ↔ Spec.Android.InInterface (pre ++ [l]) := by
  rw [cleanOf_eq]
  have hif : strcaseeq (squeeze l) b!"[Interface]" = true ↔ EqNoCase (squeeze l) b!"[interface]" := WG.Quick.eqNoCase_iface _
  unfold sectionAfter
  by_cases h1 : strcaseeq (squeeze l) b!"[Interface]" = true
  · rw [if_pos h1]
    simp only [true_iff]
    exact ⟨pre, l, [], rfl, hif.1 h1, by simp⟩
  · rw [if_neg h1]
    by_cases h2 : (squeeze l).head? = some c!"["
    · rw [if_pos h2]
      simp only [Bool.false_eq_true, false_iff]
      rintro ⟨p, hd, post, e, hk, hpost⟩
      rcases List.eq_nil_or_concat' post with rfl | ⟨post', l', rfl⟩
      · have e' := List.append_inj_right' e rfl
        simp only [List.cons.injEq, and_true] at e'
        subst e'; exact h1 (hif.2 hk)
      · rw [← List.cons_append, ← List.append_assoc] at e
        have e' := List.append_inj_right' e rfl
        simp only [List.cons.injEq, and_true] at e'
        subst e'; exact hpost l (by simp) h2
    · rw [if_neg h2, h]
      constructor
      · rintro ⟨p, hd, post, rfl, hk, hpost⟩
        refine ⟨p, hd, post ++ [l], by simp, hk, ?_⟩
        intro x hx
        rcases List.mem_append.1 hx with hx | hx
        · exact hpost x hx
        · simp only [List.mem_singleton] at hx; subst hx; exact h2
      · rintro ⟨p, hd, post, e, hk, hpost⟩
        rcases List.eq_nil_or_concat' post with rfl | ⟨post', l', rfl⟩
        · have e' := List.append_inj_right' e rfl
          simp only [List.cons.injEq, and_true] at e'
          subst e'; exact absurd (hif.2 hk) h1
        · rw [← List.cons_append, ← List.append_assoc] at e
          have e' := List.append_inj_left' e rfl
          exact ⟨p, hd, post', e', hk, fun x hx => hpost x (by simp [hx])⟩

/-- The settings, in order. -/
def applySet (c : Conf) (s : CStr × CStr) : Conf :=
  if s.1 = b!"address" then { c with addrs := concatAndFree c.addrs b!"," s.2 }
  else if s.1 = b!"dns" then { c with dnses := concatAndFree c.dnses b!"," s.2 }
  else if s.1 = b!"excludedapplications" then { c with excluded := concatAndFree c.excluded b!"," s.2 }
  else if s.1 = b!"includedapplications" then { c with included := concatAndFree c.included b!"," s.2 }
  else { c with mtu := toUnsigned (atoi s.2) }

/-- `KEY=`, for a line of a key. -/
theorem keyed {cl k' v K : CStr} {n : Nat} (hn : (K ++ b!"=").length = n) (hk : k'.map lower = K.map lower) (e : cl = k' ++ b!"=" ++ v) :
    strncaseeq cl (K ++ b!"=") n = true ∧ cl.drop n = v ∧ cl.length = n + v.length := by
  have hl : (k' ++ b!"=").length = n := by
    rw [← hn, List.length_append, List.length_append, ← List.length_map (f := lower), hk, List.length_map]
  refine ⟨(strncaseeq_iff _ _ _ hn).2 ⟨k' ++ b!"=", v, e, ?_⟩, ?_, ?_⟩
  · rw [List.map_append, List.map_append, hk]
  · rw [e, ← hl, List.drop_left]
  · rw [e, List.length_append, hl]

theorem lower_equals : ∀ x : UInt8, lower x = lower 61 → x = 61 := by apply forall_u8; decide +kernel

theorem keyed_inv {cl K : CStr} {n : Nat} (hn : (K ++ b!"=").length = n) (h : strncaseeq cl (K ++ b!"=") n = true) :
    ∃ k', k'.map lower = K.map lower ∧ cl = k' ++ b!"=" ++ cl.drop n := by
  obtain ⟨k', r, e, h⟩ := (strncaseeq_iff _ _ _ hn).1 h
  rw [List.map_append] at h
  have h1 : k'.length = K.length + 1 := by
    have := congrArg List.length h
    simpa using this
  obtain ⟨a, x, rfl⟩ : ∃ a x, k' = a ++ [x] := by
    rcases List.eq_nil_or_concat' k' with rfl | ⟨a, x, rfl⟩
    · simp at h1
    · exact ⟨a, x, rfl⟩
  rw [List.map_append] at h
  have h2 := List.append_inj h (by simpa using h1)
  refine ⟨a, h2.1, ?_⟩
  have hx : x = c!"=" := by
    have h3 := h2.2
    simp only [List.map_cons, List.map_nil, List.cons.injEq, and_true] at h3
    exact lower_equals x h3
  have hl : (a ++ [x]).length = n := by rw [h1, ← hn]; simp
  have : cl.drop n = r := by rw [e, ← hl, List.drop_left]
  rw [this, e, hx]

theorem no_equals {k' k : CStr} (h : k'.map lower = k) (hk : c!"=" ∉ k) : c!"=" ∉ k' := by
  intro hm
  apply hk
  rw [← h]
  exact List.mem_map.2 ⟨_, hm, by decide⟩

theorem key_unique {a b v r : CStr} (ha : c!"=" ∉ a) (hb : c!"=" ∉ b) (e : a ++ b!"=" ++ v = b ++ b!"=" ++ r) : a = b ∧ v = r := by
  induction a generalizing b with
  | nil => cases b with
    | nil => simpa using e
    | cons c b => simp at e; simp [← e.1] at hb
  | cons c a ih => cases b with
    | nil => simp at e; simp [e.1] at ha
    | cons d b =>
      simp at e ha hb
      obtain ⟨h1, h2⟩ := ih (b := b) ha.2 hb.2 (by simpa using e.2)
      exact ⟨by rw [e.1, h1], h2⟩

theorem key_differs {cl k k' v K : CStr} (hk : k'.map lower = k) (e : cl = k' ++ b!"=" ++ v) (h1 : c!"=" ∉ k) {n : Nat} (hn : (K ++ b!"=").length = n) (h2 : c!"=" ∉ K.map lower)
    (hne : k ≠ K.map lower) : strncaseeq cl (K ++ b!"=") n = false := by
  rw [Bool.eq_false_iff]
  intro h
  obtain ⟨k2, hk2, e2⟩ := keyed_inv hn h
  rw [e] at e2
  have := (key_unique (no_equals hk h1) (no_equals hk2 h2) e2).1
  exact hne (by rw [← hk, ← hk2, this])

/-- A line that is a setting. -/
theorem ownSetting_own (c : Conf) {cl k k' v : CStr} (hk : k ∈ Spec.Android.ownKeys) (he : EqNoCase k' k) (e : cl = k' ++ b!"=" ++ v)
    (hv : v ≠ [] ∨ k = b!"excludedapplications" ∨ k = b!"includedapplications") : ownSetting c cl = some (applySet c (k, v)) := by
  have hpos : v ≠ [] → 0 < v.length := List.length_pos_iff.2
  simp only [Spec.Android.ownKeys, List.mem_cons, List.not_mem_nil, or_false] at hk
  unfold ownSetting applySet
  rcases hk with rfl | rfl | rfl | rfl | rfl
  · have hv : v ≠ [] := by simpa using hv
    obtain ⟨a1, a2, a3⟩ := keyed (K := b!"Address") (n := 8) rfl he e
    have := hpos hv
    rw [if_pos (by rw [show b!"Address=" = b!"Address" ++ b!"=" from rfl, a1]; simp; omega), if_pos rfl, a2]
  · have hv : v ≠ [] := by simpa using hv
    have n1 := key_differs (K := b!"Address") (n := 8) he e (by decide) rfl (by decide) (by decide)
    obtain ⟨a1, a2, a3⟩ := keyed (K := b!"DNS") (n := 4) rfl he e
    have := hpos hv
    rw [if_neg (by rw [show b!"Address=" = b!"Address" ++ b!"=" from rfl, n1]; simp), if_pos (by rw [show b!"DNS=" = b!"DNS" ++ b!"=" from rfl, a1]; simp; omega),
      if_neg (by dsimp only; decide), if_pos rfl, a2]
  · have n1 := key_differs (K := b!"Address") (n := 8) he e (by decide) rfl (by decide) (by decide)
    have n2 := key_differs (K := b!"DNS") (n := 4) he e (by decide) rfl (by decide) (by decide)
    obtain ⟨a1, a2, a3⟩ := keyed (K := b!"ExcludedApplications") (n := 21) rfl he e
    rw [if_neg (by rw [show b!"Address=" = b!"Address" ++ b!"=" from rfl, n1]; simp), if_neg (by rw [show b!"DNS=" = b!"DNS" ++ b!"=" from rfl, n2]; simp),
      if_pos (by rw [show b!"ExcludedApplications=" = b!"ExcludedApplications" ++ b!"=" from rfl, a1]; simp; omega),
      if_neg (by dsimp only; decide), if_neg (by dsimp only; decide), if_pos rfl, a2]
  · have n1 := key_differs (K := b!"Address") (n := 8) he e (by decide) rfl (by decide) (by decide)
    have n2 := key_differs (K := b!"DNS") (n := 4) he e (by decide) rfl (by decide) (by decide)
    have n3 := key_differs (K := b!"ExcludedApplications") (n := 21) he e (by decide) rfl (by decide) (by decide)
    obtain ⟨a1, a2, a3⟩ := keyed (K := b!"IncludedApplications") (n := 21) rfl he e
    rw [if_neg (by rw [show b!"Address=" = b!"Address" ++ b!"=" from rfl, n1]; simp), if_neg (by rw [show b!"DNS=" = b!"DNS" ++ b!"=" from rfl, n2]; simp),
      if_neg (by rw [show b!"ExcludedApplications=" = b!"ExcludedApplications" ++ b!"=" from rfl, n3]; simp),
      if_pos (by rw [show b!"IncludedApplications=" = b!"IncludedApplications" ++ b!"=" from rfl, a1]; simp; omega),
      if_neg (by dsimp only; decide), if_neg (by dsimp only; decide), if_neg (by dsimp only; decide), if_pos rfl, a2]
  · have hv : v ≠ [] := by simpa using hv
    have n1 := key_differs (K := b!"Address") (n := 8) he e (by decide) rfl (by decide) (by decide)
    have n2 := key_differs (K := b!"DNS") (n := 4) he e (by decide) rfl (by decide) (by decide)
    have n3 := key_differs (K := b!"ExcludedApplications") (n := 21) he e (by decide) rfl (by decide) (by decide)
    have n4 := key_differs (K := b!"IncludedApplications") (n := 21) he e (by decide) rfl (by decide) (by decide)
    obtain ⟨a1, a2, a3⟩ := keyed (K := b!"MTU") (n := 4) rfl he e
    have := hpos hv
    rw [if_neg (by rw [show b!"Address=" = b!"Address" ++ b!"=" from rfl, n1]; simp), if_neg (by rw [show b!"DNS=" = b!"DNS" ++ b!"=" from rfl, n2]; simp),
      if_neg (by rw [show b!"ExcludedApplications=" = b!"ExcludedApplications" ++ b!"=" from rfl, n3]; simp),
      if_neg (by rw [show b!"IncludedApplications=" = b!"IncludedApplications" ++ b!"=" from rfl, n4]; simp),
      if_pos (by rw [show b!"MTU=" = b!"MTU" ++ b!"=" from rfl, a1]; simp; omega),
      if_neg (by dsimp only; decide), if_neg (by dsimp only; decide), if_neg (by dsimp only; decide), if_neg (by dsimp only; decide), a2]

/-- Any other line. -/
theorem ownSetting_other (c : Conf) {cl : CStr} (h : ∀ k k' v, k ∈ Spec.Android.ownKeys → EqNoCase k' k → cl = k' ++ b!"=" ++ v →
    ¬ (v ≠ [] ∨ k = b!"excludedapplications" ∨ k = b!"includedapplications")) : ownSetting c cl = none := by
  have hkey : ∀ (K : CStr) (n : Nat), (K ++ b!"=").length = n → K.map lower ∈ Spec.Android.ownKeys → strncaseeq cl (K ++ b!"=") n = true →
      cl.length = n ∧ K.map lower ≠ b!"excludedapplications" ∧ K.map lower ≠ b!"includedapplications" := by
    intro K n hn hm he
    obtain ⟨k', e1, e2⟩ := keyed_inv hn he
    have := h _ k' _ hm e1 e2
    simp only [not_or, not_not] at this
    refine ⟨?_, this.2⟩
    rw [e2, List.length_append, this.1, ← hn, List.length_append, ← List.length_map (f := lower), e1, List.length_map]
    simp
  unfold ownSetting
  have f : ∀ (K : CStr) (n : Nat), (K ++ b!"=").length = n → K.map lower ∈ Spec.Android.ownKeys → ¬ ((strncaseeq cl (K ++ b!"=") n && decide (cl.length > n)) = true) := by
    intro K n hn hm he
    rw [Bool.and_eq_true, decide_eq_true_eq] at he
    have := (hkey K n hn hm he.1).1
    omega
  have g : ∀ (K : CStr) (n : Nat), (K ++ b!"=").length = n → (K.map lower = b!"excludedapplications" ∨ K.map lower = b!"includedapplications") →
      ¬ ((strncaseeq cl (K ++ b!"=") n && decide (cl.length > 4)) = true) := by
    intro K n hn hm he
    rw [Bool.and_eq_true] at he
    have := hkey K n hn (by rcases hm with hm | hm <;> rw [hm] <;> decide) he.1
    rcases hm with hm | hm
    · exact this.2.1 hm
    · exact this.2.2 hm
  have f1 := f b!"Address" 8 rfl (by decide)
  have f2 := f b!"DNS" 4 rfl (by decide)
  have f3 := g b!"ExcludedApplications" 21 rfl (by decide)
  have f4 := g b!"IncludedApplications" 21 rfl (by decide)
  have f5 := f b!"MTU" 4 rfl (by decide)
  simp only [List.cons_append, List.nil_append] at f1 f2 f3 f4 f5
  rw [if_neg f1, if_neg f2, if_neg f3, if_neg f4, if_neg f5]

/-- The loop without an end. -/
def parseState (iface : CStr) (lines : List CStr) : Bool × Conf := lines.foldl (fun s l => parseLine s.1 s.2 l) (false, { iface := iface })

theorem parseLoop_eq (lines : List CStr) (h : ∀ l ∈ lines, l.length ≤ 65536) (sec : Bool) (c : Conf) :
    parseLoop sec c lines = orEmpty (lines.foldl (fun s l => parseLine s.1 s.2 l) (sec, c)).2 := by
  induction lines generalizing sec c with
  | nil => rfl
  | cons l ls ih =>
    have := h l (by simp)
    rw [parseLoop, if_neg (by omega), List.foldl_cons, ih fun x hx => h x (by simp [hx])]

/-- The lines for `wg`, without a copy if there are none. -/
def keptText (kept : List CStr) : Option CStr := if kept = [] then none else some kept.flatten

theorem keptText_snoc (kept : List CStr) (l : CStr) : concatAndFree (keptText kept) [] l = keptText (kept ++ [l]) := by
  unfold keptText
  rw [if_neg (c := kept ++ [l] = []) (by simp)]
  by_cases h : kept = []
  · subst h; simp [concatAndFree]
  · rw [if_neg h]; simp [concatAndFree]

theorem applySet_config (c : Conf) (s : CStr × CStr) (t : Option CStr) : applySet { c with config := t } s = { applySet c s with config := t } := by
  unfold applySet
  repeat' split
  all_goals rfl

theorem parseState_says {iface : CStr} {lines kept : List CStr} {sets : List (CStr × CStr)} (h : Spec.Android.Says lines kept sets) :
    ∃ sec : Bool, (sec = true ↔ Spec.Android.InInterface lines) ∧
      parseState iface lines = (sec, { sets.foldl applySet { iface := iface } with config := keptText kept }) := by
  induction h with
  | nil =>
    refine ⟨false, ?_, rfl⟩
    simp only [Bool.false_eq_true, false_iff]
    rintro ⟨p, hd, post, e, _⟩
    simp at e
  | @own lines kept sets l k v _ hown ih =>
    obtain ⟨sec, hsec, hst⟩ := ih
    obtain ⟨hin, hk, ⟨k', hk', he⟩, hv⟩ := hown
    have hs := (inInterface_snoc lines l sec hsec).2 hin
    refine ⟨true, by simpa using hin, ?_⟩
    unfold parseState at hst ⊢
    rw [List.foldl_append, hst, List.foldl_cons, List.foldl_nil]
    unfold parseLine
    dsimp only
    rw [hs, if_pos rfl, ownSetting_own _ hk hk' ((cleanOf_eq l).trans he) hv]
    dsimp only
    rw [List.foldl_append, List.foldl_cons, List.foldl_nil, applySet_config]
  | @keep lines kept sets l _ hno ih =>
    obtain ⟨sec, hsec, hst⟩ := ih
    refine ⟨sectionAfter sec (cleanOf l), inInterface_snoc lines l sec hsec, ?_⟩
    unfold parseState at hst ⊢
    rw [List.foldl_append, hst, List.foldl_cons, List.foldl_nil]
    have : (if sectionAfter sec (cleanOf l) = true then ownSetting { sets.foldl applySet { iface := iface } with config := keptText kept } (cleanOf l) else none) = none := by
      by_cases hs : sectionAfter sec (cleanOf l) = true
      · rw [if_pos hs]
        refine ownSetting_other _ fun k k' v hk he e hv => ?_
        exact hno k v ⟨(inInterface_snoc lines l sec hsec).1 hs, hk, ⟨k', he, (cleanOf_eq l).symm.trans e⟩, hv⟩
      · rw [if_neg hs]
    unfold parseLine
    dsimp only
    rw [this]
    dsimp only
    rw [keptText_snoc]

theorem says_exists (lines : List CStr) : ∃ kept sets, Spec.Android.Says lines kept sets := by
  induction lines using List.reverseRecOn with
  | nil => exact ⟨[], [], .nil⟩
  | append_singleton ls l ih =>
    obtain ⟨kept, sets, h⟩ := ih
    by_cases e : ∃ k v, Spec.Android.OwnLine ls l k v
    · obtain ⟨k, v, e⟩ := e
      exact ⟨kept, _, .own h e⟩
    · push Not at e
      exact ⟨_, sets, .keep h e⟩

/-! The values of the settings. -/

theorem listOf_snoc (k : CStr) (sets : List (CStr × CStr)) (s : CStr × CStr) :
    listOf k (sets ++ [s]) = if s.1 = k then concatAndFree (listOf k sets) b!"," s.2 else listOf k sets := by
  have hv : valuesOf k (sets ++ [s]) = valuesOf k sets ++ (if s.1 = k then [s.2] else []) := by
    unfold valuesOf
    rw [List.filter_append, List.map_append]
    by_cases h : s.1 = k <;> simp [h]
  have hj : ∀ (l : List CStr) (x : CStr), l ≠ [] → joinWith b!"," (l ++ [x]) = joinWith b!"," l ++ b!"," ++ x := by
    intro l x hl
    induction l with
    | nil => exact absurd rfl hl
    | cons a t ih =>
      cases t with
      | nil => rfl
      | cons b t =>
        have := ih (by simp)
        simp only [List.cons_append, joinWith] at this ⊢
        rw [this]; simp
  unfold listOf
  rw [hv]
  by_cases h : s.1 = k
  · rw [if_pos h, if_pos h, if_neg (by simp)]
    by_cases hn : valuesOf k sets = []
    · rw [if_pos hn, hn]; rfl
    · rw [if_neg hn, hj _ _ hn]; rfl
  · rw [if_neg h, if_neg h, List.append_nil]

theorem applied (iface : CStr) (sets : List (CStr × CStr)) (hk : ∀ s ∈ sets, s.1 ∈ Spec.Android.ownKeys) :
    let c := sets.foldl applySet { iface := iface }
    c.iface = iface ∧ c.addrs = listOf b!"address" sets ∧ c.dnses = listOf b!"dns" sets ∧ c.excluded = listOf b!"excludedapplications" sets ∧
    c.included = listOf b!"includedapplications" sets ∧ c.mtu = ((valuesOf b!"mtu" sets).getLast?.map fun v => toUnsigned (atoi v)).getD 0 := by
  induction sets using List.reverseRecOn with
  | nil => exact ⟨rfl, rfl, rfl, rfl, rfl, rfl⟩
  | append_singleton sets s ih =>
    obtain ⟨i0, i1, i2, i3, i4, i5⟩ := ih fun x hx => hk x (by simp [hx])
    have hs := hk s (by simp)
    have hm : valuesOf b!"mtu" (sets ++ [s]) = valuesOf b!"mtu" sets ++ (if s.1 = b!"mtu" then [s.2] else []) := by
      unfold valuesOf
      rw [List.filter_append, List.map_append]
      by_cases h : s.1 = b!"mtu" <;> simp [h]
    intro c
    have hc : c = applySet (sets.foldl applySet { iface := iface }) s := by simp [c]
    rw [hc, listOf_snoc, listOf_snoc, listOf_snoc, listOf_snoc, hm]
    obtain ⟨k, v⟩ := s
    simp only [Spec.Android.ownKeys, List.mem_cons, List.not_mem_nil, or_false] at hs
    rcases hs with rfl | rfl | rfl | rfl | rfl <;> simp [applySet, i0, i1, i2, i3, i4, i5]

theorem says_keys {lines kept : List CStr} {sets : List (CStr × CStr)} (h : Spec.Android.Says lines kept sets) : ∀ s ∈ sets, s.1 ∈ Spec.Android.ownKeys := by
  induction h with
  | nil => simp
  | own _ ho ih =>
    intro s hs
    rcases List.mem_append.1 hs with hs | hs
    · exact ih s hs
    · simp only [List.mem_singleton] at hs; subst hs; exact ho.2.1
  | keep _ _ ih => exact ih

/-! The name and the file. -/

theorem nameByte_iff (c : UInt8) : isNameByte c = true ↔ IsIfaceName [c] := by
  rw [← WG.Quick.isName_iff]; simp [isName]

theorem takeWhile_rev {p : UInt8 → Bool} (l : List UInt8) : ∃ pre, l = pre ++ (l.reverse.takeWhile p).reverse ∧ ∀ c, pre.getLast? = some c → p c = false := by
  refine ⟨(l.reverse.dropWhile p).reverse, ?_, ?_⟩
  · rw [← List.reverse_append, List.takeWhile_append_dropWhile, List.reverse_reverse]
  · intro c hc
    rw [List.getLast?_reverse] at hc
    have := List.head?_dropWhile_not p l.reverse
    rw [hc] at this
    simpa using this

theorem ifaceOf_iff (path n : CStr) : ifaceOf path = some n ↔ NameFrom path n := by
  unfold ifaceOf
  constructor
  · intro h
    split at h
    case isFalse => cases h
    case isTrue hc =>
    obtain ⟨base, rfl⟩ := hc
    rw [show (base ++ b!".conf").length - 5 = base.length from by simp, List.take_left] at h
    obtain ⟨pre, e, hl⟩ := takeWhile_rev (p := isNameByte) base
    generalize hr : base.reverse.takeWhile isNameByte = r at *
    have hall : ∀ c ∈ r, isNameByte c = true := by
      intro c hc; rw [← hr] at hc
      have := List.all_takeWhile (p := isNameByte) (l := base.reverse)
      exact (List.all_eq_true.1 this) c hc
    dsimp only at h
    split at h
    case isTrue => cases h
    case isFalse hne =>
    cases h
    have hx : r.reverse = (r.drop 15).reverse ++ (r.take 15).reverse := by rw [← List.reverse_append, List.take_append_drop]
    refine ⟨pre ++ (r.drop 15).reverse, ?_, ?_, ?_⟩
    · rw [List.append_assoc pre, ← hx, ← e]
    · refine ⟨?_, ?_, ?_⟩
      · exact List.length_pos_iff.2 hne
      · simp; omega
      · intro c hc
        have : c ∈ r := List.mem_of_mem_take (List.mem_reverse.1 hc)
        exact (WG.Quick.isNameByte_iff c).1 (hall c this)
    · by_cases h15 : 15 ≤ r.length
      · left; simp; omega
      · right
        rw [List.drop_eq_nil_of_le (by omega)]
        simp only [List.reverse_nil, List.append_nil]
        intro c hc
        rw [← nameByte_iff, hl c hc]; simp
  · rintro ⟨pre, rfl, hn, hl⟩
    rw [if_pos (List.suffix_append ..)]
    rw [show (pre ++ n ++ b!".conf").length - 5 = (pre ++ n).length from by simp; omega, List.take_left]
    have hall : ∀ c ∈ n.reverse, isNameByte c = true := fun c hc => (WG.Quick.isNameByte_iff c).2 (hn.2.2 c (List.mem_reverse.1 hc))
    rw [List.reverse_append, List.takeWhile_append_of_pos hall]
    have : ((n.reverse ++ pre.reverse.takeWhile isNameByte).take 15).reverse = n := by
      rcases hl with hl | hl
      · rw [List.take_append_of_le_length (by simp; omega), List.take_of_length_le (by simp; omega), List.reverse_reverse]
      · have : pre.reverse.takeWhile isNameByte = [] := by
          rcases List.eq_nil_or_concat' pre with rfl | ⟨a, x, rfl⟩
          · rfl
          · have := hl x (by simp)
            rw [← nameByte_iff] at this
            simp [this]
        rw [this, List.append_nil, List.take_of_length_le (by have := hn.2.1; simp; omega), List.reverse_reverse]
    dsimp only
    rw [this, if_neg]
    intro e; subst e; exact absurd hn.1 (by simp)

/-- `fopen` as a relation. -/
def Opens (files : Files) (p c : List UInt8) : Prop := files p = .ok c

theorem searchLoop_iff (files : Files) (arg : CStr) (ds : List CStr) (e : Nat) (path content : CStr) :
    searchLoop files arg e ds = .ok (path, content) ↔ Opens files path content ∧ ∃ before dir after, ds = before ++ dir :: after ∧ path = dir ++ b!"/" ++ arg ++ b!".conf" ∧
      ∀ d ∈ before, ∀ c, ¬ Opens files (d ++ b!"/" ++ arg ++ b!".conf") c := by
  induction ds generalizing e with
  | nil => simp [searchLoop]
  | cons d ds ih =>
    unfold searchLoop
    cases hf : files (d ++ b!"/" ++ arg ++ b!".conf") with
    | ok c =>
      dsimp only
      constructor
      · intro h
        cases h
        exact ⟨hf, [], d, ds, rfl, rfl, by simp⟩
      · rintro ⟨h1, before, dir, after, h2, rfl, h3⟩
        cases before with
        | nil =>
          simp only [List.nil_append, List.cons.injEq] at h2
          obtain ⟨rfl, rfl⟩ := h2
          unfold Opens at h1
          rw [hf] at h1; cases h1; rfl
        | cons b bs =>
          simp only [List.cons_append, List.cons.injEq] at h2
          obtain ⟨rfl, rfl⟩ := h2
          exact absurd hf (h3 d (by simp) c)
    | error e' =>
      dsimp only
      rw [ih]
      constructor
      · rintro ⟨h1, before, dir, after, rfl, h2, h3⟩
        refine ⟨h1, d :: before, dir, after, rfl, h2, ?_⟩
        intro x hx
        rcases List.mem_cons.1 hx with rfl | hx
        · intro c hc; unfold Opens at hc; rw [hf] at hc; cases hc
        · exact h3 x hx
      · rintro ⟨h1, before, dir, after, h2, rfl, h3⟩
        cases before with
        | nil =>
          simp only [List.nil_append, List.cons.injEq] at h2
          obtain ⟨rfl, rfl⟩ := h2
          unfold Opens at h1; rw [hf] at h1; cases h1
        | cons b bs =>
          simp only [List.cons_append, List.cons.injEq] at h2
          obtain ⟨rfl, rfl⟩ := h2
          exact ⟨h1, bs, dir, after, rfl, rfl, fun x hx => h3 x (by simp [hx])⟩

theorem openConf_iff (files : Files) (arg path content : CStr) : openConf files arg = .ok (path, content) ↔ FileOf (Opens files) arg path content := by
  unfold openConf FileOf
  rw [← WG.Quick.isName_iff]
  by_cases h : isName arg = true
  · rw [if_pos h, searchLoop_iff]
    simp [h, searchPaths, confDirs]
  · rw [if_neg h]
    have hx : (Opens files path content ∧ (isName arg = true → ∃ before dir after, confDirs = before ++ dir :: after ∧ path = dir ++ b!"/" ++ arg ++ b!".conf" ∧
        ∀ d ∈ before, ∀ c, ¬ Opens files (d ++ b!"/" ++ arg ++ b!".conf") c) ∧ (¬ isName arg = true → path = arg)) ↔ (Opens files path content ∧ path = arg) :=
      ⟨fun k => ⟨k.1, k.2.2 h⟩, fun k => ⟨k.1, fun h' => absurd h' h, fun _ => k.2⟩⟩
    rw [hx]
    unfold Opens
    cases hf : files arg with
    | ok c =>
      dsimp only
      constructor
      · intro e; cases e; exact ⟨hf, rfl⟩
      · rintro ⟨e, rfl⟩; rw [hf] at e; cases e; rfl
    | error e =>
      dsimp only
      constructor
      · intro e; cases e
      · rintro ⟨e, rfl⟩; rw [hf] at e; cases e

theorem parseOptions_iff (files : Files) (arg : CStr) (c : Conf) : parseOptions files arg = .conf c ↔
    ∃ path content iface, FileOf (Opens files) arg path content ∧ NameFrom path iface ∧ c = parseLoop false { iface := iface } ((fileLines content).map beforeNul) := by
  have hc : ∀ l : List UInt8, cstr l = beforeNul l := fun l => rfl
  have hg : ∀ l : List UInt8, (getlines l).map cstr = (fileLines l).map beforeNul := fun l => by rw [getlines_eq]; rfl
  unfold parseOptions
  constructor
  · intro h
    cases ho : openConf files arg with
    | error e => rw [ho] at h; cases h
    | ok p =>
      obtain ⟨path, content⟩ := p
      rw [ho] at h
      dsimp only at h
      cases hi : ifaceOf path with
      | none => rw [hi] at h; cases h
      | some iface =>
        rw [hi] at h
        cases h
        exact ⟨path, content, iface, (openConf_iff _ _ _ _).1 ho, (ifaceOf_iff _ _).1 hi, by rw [hg]⟩
  · rintro ⟨path, content, iface, h1, h2, rfl⟩
    rw [(openConf_iff _ _ _ _).2 h1]
    dsimp only
    rw [(ifaceOf_iff _ _).2 h2]
    dsimp only
    rw [hg]

/-- `atoi` of a small decimal number. -/
theorem atoi_decimal {s : CStr} {n : Nat} (h : IsDecimal s n) (hn : n < 2 ^ 31) : toUnsigned (atoi s) = n := by
  obtain ⟨h1, h2, h3⟩ := h
  obtain ⟨d, t, rfl⟩ := List.exists_cons_of_ne_nil h1
  have hd := h2 d (by simp)
  have e1 : (d :: t).dropWhile isspaceLibc = d :: t := by simp [digit_not_space d hd]
  obtain ⟨n1, n2⟩ := digit_not_sign d hd
  have e2 : strtoulSign (d :: t) = (false, d :: t) := by
    unfold strtoulSign; split <;> simp_all
  have e3 : (d :: t).takeWhile (isDigitOf 10) = d :: t := takeWhile_all _ _ (by intro a ha; rw [isDigitOf10]; exact h2 a ha)
  unfold atoi toUnsigned
  rw [e1, e2]
  dsimp only
  rw [e3, digitsVal10 _ h2, ← h3, if_neg (by simp)]
  omega

end WG.Android
