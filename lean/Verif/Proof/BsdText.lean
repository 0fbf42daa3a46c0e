import Verif.Spec.BsdRoutes
import Verif.Proof.BsdLogic
import Verif.Proof.QuickText
import Verif.Proof.QuickVals
import Verif.Proof.QuickDown
/-! What the BSD scripts read from the output of other commands. -/
namespace WG.Bsd
open WG.Quick (Call Reply Ev World Out chomp readLoopLines afterFirst hasInfix endpointHost joinSpace wordsAux endedLines_iff remainders_sound
  collected_filterMap endpointHost_iff blankWords words_unique hasInfix_iff)
open WG.Spec.Quick WG.Spec.Bsd

/-- A word: not empty and without spaces. -/
def Plain (x : CStr) : Prop := x ≠ [] ∧ (32 : UInt8) ∉ x

/-- The words, each followed by a space. -/
def padded (l : List CStr) : CStr := l.flatMap (· ++ [32])

theorem joinSpace_padded (l : List CStr) (h : l ≠ []) : joinSpace l ++ [32] = padded l := by
  induction l with
  | nil => exact absurd rfl h
  | cons x t ih =>
    cases t with
    | nil => simp [joinSpace, padded]
    | cons y t =>
      have := ih (by simp)
      simp only [joinSpace, padded, List.flatMap_cons] at this ⊢
      rw [List.append_assoc, this, List.append_assoc]

theorem split_at_space {x y r s : CStr} (hx : (32 : UInt8) ∉ x) (hy : (32 : UInt8) ∉ y) (h : x ++ 32 :: r = y ++ 32 :: s) : x = y ∧ r = s := by
  induction x generalizing y with
  | nil =>
    cases y with
    | nil => simpa using h
    | cons b y => simp only [List.nil_append, List.cons_append, List.cons.injEq] at h; exact absurd (by rw [← h.1]; exact List.mem_cons_self ..) hy
  | cons a x ih =>
    cases y with
    | nil => simp only [List.nil_append, List.cons_append, List.cons.injEq] at h; exact absurd (by rw [h.1]; exact List.mem_cons_self ..) hx
    | cons b y =>
      simp only [List.cons_append, List.cons.injEq] at h
      obtain ⟨h1, h2⟩ := ih (fun h => hx (List.mem_cons_of_mem _ h)) (fun h => hy (List.mem_cons_of_mem _ h)) h.2
      exact ⟨by rw [h.1, h1], h2⟩

theorem occurs_padded (x : CStr) (hx : Plain x) (l : List CStr) (hl : ∀ y ∈ l, Plain y) :
    Occurs (b!" " ++ x ++ b!" ") ([32] ++ padded l) ↔ x ∈ l := by
  induction l with
  | nil =>
    refine iff_of_false ?_ (by simp)
    rintro ⟨a, b, h⟩
    have := congrArg List.length h
    have h1 : x.length ≠ 0 := by simpa using hx.1
    simp [padded] at this
    omega
  | cons y t ih =>
    have ih := ih fun z hz => hl z (List.mem_cons_of_mem _ hz)
    have hy := hl y (List.mem_cons_self ..)
    have he : [32] ++ padded (y :: t) = 32 :: (y ++ ([32] ++ padded t)) := by simp [padded]
    rw [he, List.mem_cons]
    constructor
    · rintro ⟨a, b, h⟩
      cases a with
      | nil =>
        simp only [List.nil_append, List.cons_append, List.append_assoc, List.cons.injEq, true_and] at h
        have : y ++ 32 :: padded t = x ++ 32 :: b := by simpa using h
        exact .inl (split_at_space hy.2 hx.2 this).1.symm
      | cons c a =>
        simp only [List.cons_append, List.cons.injEq] at h
        refine .inr (ih.1 ?_)
        -- the space that begins the match is not within `y`
        have h2 : y ++ ([32] ++ padded t) = a ++ (b!" " ++ x ++ b!" " ++ b) := by simpa using h.2
        rcases List.append_eq_append_iff.1 h2 with ⟨d, hd1, hd2⟩ | ⟨d, hd1, hd2⟩
        · exact ⟨d, b, by rw [hd2]; simp⟩
        · cases d with
          | nil => refine ⟨[], b, ?_⟩; simp only [List.nil_append] at hd2 ⊢; exact hd2.symm
          | cons e d =>
            exfalso
            have he : e = 32 := by simp at hd2; exact hd2.1.symm
            exact hy.2 (by rw [hd1, he]; simp)
    · rintro (rfl | h)
      · exact ⟨[], padded t, by simp⟩
      · obtain ⟨a, b, hab⟩ := ih.2 h
        exact ⟨32 :: (y ++ a), b, by rw [hab]; simp⟩

theorem listed_iff (x : CStr) (hx : Plain x) (l : List CStr) (hl : ∀ y ∈ l, Plain y) : listed x l = true ↔ x ∈ l := by
  unfold listed
  rw [hasInfix_iff]
  cases l with
  | nil =>
    refine iff_of_false ?_ (by simp)
    rintro ⟨a, b, h⟩
    have := congrArg List.length h
    have h1 : x.length ≠ 0 := by simpa using hx.1
    simp [joinSpace] at this
    omega
  | cons y t =>
    rw [show b!" " ++ joinSpace (y :: t) ++ b!" " = [32] ++ padded (y :: t) by
      rw [List.append_assoc]; exact congrArg _ (joinSpace_padded _ (by simp))]
    exact occurs_padded x hx _ hl

theorem host_plain {e h : CStr} (he : endpointHost e = some h) : Plain h := by
  obtain ⟨o, cl, port, _, _, _, h1, h2, _⟩ := (endpointHost_iff e h).1 he
  refine ⟨h1, fun h3 => ?_⟩
  have := h2 32 h3
  revert this; decide

theorem hostsIn_plain (out : List UInt8) : ∀ h ∈ hostsIn out, Plain h := by
  intro h hh
  unfold hostsIn at hh
  obtain ⟨l, _, hl⟩ := List.mem_filterMap.1 hh
  exact host_plain hl

theorem hostsIn_eq (out : List UInt8) : hostsIn out = ((readLoopLines out).map afterFirst).filterMap endpointHost := by
  unfold hostsIn
  rw [List.filterMap_map]; rfl

theorem hostsShown (out : List UInt8) : HostsShown out (hostsIn out) :=
  ⟨_, remainders_sound out, by rw [hostsIn_eq]; exact collected_filterMap endpointHost_iff _⟩

theorem wordAt_of {l : CStr} {ws : List CStr} (h : Words blankSep l ws) (k : Nat) : wordAt k l = ws[k]?.getD [] := by
  unfold wordAt
  rw [words_unique (blankWords l) h]

theorem gatewayShown (p : Plat) (out : List UInt8) : GatewayShown p out (gatewayIn p out) := by
  refine ⟨readLoopLines out, (endedLines_iff _ _).2 rfl, ?_⟩
  intro IsDefault
  have hd : ∀ l g, IsDefault l g ↔ ((wordAt 0 l = b!"default" ∧ ¬ (p = .darwin ∧ b!"link#".isPrefixOf (wordAt 1 l) = true)) ∧ g = wordAt 1 l) := by
    intro l g
    constructor
    · rintro ⟨ws, h1, h2, rfl, h3⟩
      rw [wordAt_of h1, wordAt_of h1]
      have e1 : ws[1]?.getD [] = (ws.drop 1).head?.getD [] := by simp
      rw [e1]
      refine ⟨⟨?_, fun h => h3 ⟨h.1, List.isPrefixOf_iff_prefix.1 h.2⟩⟩, rfl⟩
      rw [List.head?_eq_getElem?] at h2
      rw [h2]; rfl
    · rintro ⟨⟨h1, h2⟩, rfl⟩
      refine ⟨wordsAux [] l, blankWords l, ?_, ?_, fun h => h2 ⟨h.1, List.isPrefixOf_iff_prefix.2 h.2⟩⟩
      · unfold wordAt at h1
        rw [List.head?_eq_getElem?]
        cases h3 : (wordsAux [] l)[0]? with
        | none => rw [h3] at h1; simp at h1
        | some x => rw [h3] at h1; simp only [Option.getD_some] at h1; rw [h1]
      · unfold wordAt
        simp
  unfold gatewayIn
  cases hf : (readLoopLines out).find? fun l => decide (wordAt 0 l = b!"default" ∧ ¬ (p = .darwin ∧ b!"link#".isPrefixOf (wordAt 1 l) = true)) with
  | none =>
    refine .inr ⟨fun x hx g hg => ?_, by simp⟩
    have := List.find?_eq_none.1 hf x hx
    simp only [decide_eq_true_eq] at this
    exact this ((hd x g).1 hg).1
  | some l =>
    obtain ⟨h1, a, b, h2, h3⟩ := List.find?_eq_some_iff_append.1 hf
    refine .inl ⟨a, l, b, h2, fun x hx g hg => ?_, ?_⟩
    · have := h3 x hx
      simp only [Bool.not_eq_true', decide_eq_false_iff_not] at this
      exact this ((hd x g).1 hg).1
    · simp only [Option.map_some, Option.getD_some]
      exact (hd l _).2 ⟨of_decide_eq_true h1, rfl⟩

end WG.Bsd
