import Verif.Spec.QuickKernel
import Verif.Proof.QuickDown
/-! Routing rules: what the listing shows, and what the loops of `del_if` leave. -/
namespace WG.Quick
open WG.Spec WG.Spec.Quick

theorem occurs_nl {pat l r : List UInt8} (hp : (10 : UInt8) ∉ pat) (h : Occurs pat (l ++ 10 :: r)) : Occurs pat l ∨ Occurs pat r := by
  obtain ⟨a, b, h⟩ := h
  rcases List.append_eq_append_iff.1 h with ⟨t, h1, h2⟩ | ⟨t, rfl, h2⟩
  · -- a ++ pat = l ++ t
    cases t with
    | nil => rw [List.append_nil] at h1; exact .inl ⟨a, [], by rw [h1]; simp⟩
    | cons x t =>
      simp only [List.cons_append, List.cons.injEq] at h2
      obtain ⟨rfl, rfl⟩ := h2
      rcases List.append_eq_append_iff.1 h1 with ⟨u, rfl, h3⟩ | ⟨u, rfl, h3⟩
      · exact absurd (by rw [h3]; simp) hp
      · cases u with
        | nil => rw [List.nil_append] at h3; exact absurd (by rw [← h3]; simp) hp
        | cons y u =>
          simp only [List.cons_append, List.cons.injEq] at h3
          obtain ⟨_, rfl⟩ := h3
          exact .inr ⟨u, b, rfl⟩
  · exact .inl ⟨a, t, rfl⟩

theorem occurs_unlines {pat : List UInt8} (hp : (10 : UInt8) ∉ pat) (hne : pat ≠ []) {ls : List (List UInt8)} :
    Occurs pat (unlines ls) ↔ ∃ l ∈ ls, Occurs pat l := by
  constructor
  · intro h
    induction ls with
    | nil =>
      obtain ⟨a, b, h⟩ := h
      simp [unlines] at h
      exact absurd h.2.1 hne
    | cons l ls ih =>
      have : unlines (l :: ls) = l ++ 10 :: unlines ls := by simp [unlines]
      rw [this] at h
      rcases occurs_nl hp h with h | h
      · exact ⟨l, by simp, h⟩
      · obtain ⟨x, hx, h⟩ := ih h
        exact ⟨x, by simp [hx], h⟩
  · rintro ⟨l, hl, a, b, rfl⟩
    obtain ⟨s, t, rfl⟩ := List.append_of_mem hl
    exact ⟨unlines s ++ a, b ++ 10 :: unlines t, by simp [unlines]⟩

theorem captured_clean {x : List UInt8} (h0 : (0 : UInt8) ∉ x) : ∃ k, x = captured x ++ List.replicate k 10 := by
  unfold captured
  have e : x.filter (· ≠ 0) = x := by
    rw [List.filter_eq_self]; intro c hc; simp only [ne_eq, decide_eq_true_eq]; rintro rfl; exact h0 hc
  rw [e]
  clear e h0
  induction x using List.reverseRecOn with
  | nil => exact ⟨0, rfl⟩
  | append_singleton x c ih =>
    by_cases hc : c = 10
    · subst hc
      obtain ⟨k, hk⟩ := ih
      rw [List.rdropWhile_concat_pos _ _ _ (by decide)]
      refine ⟨k + 1, ?_⟩
      conv => lhs; rw [hk]
      rw [List.replicate_succ', List.append_assoc]
    · rw [List.rdropWhile_concat_neg _ _ _ (by simpa using hc)]
      exact ⟨0, by simp⟩

theorem occurs_captured {pat x : List UInt8} (hp : (10 : UInt8) ∉ pat) (hne : pat ≠ []) (h0 : (0 : UInt8) ∉ x) :
    Occurs pat (captured x) ↔ Occurs pat x := by
  obtain ⟨k, hk⟩ := captured_clean h0
  constructor
  · rintro ⟨a, b, h⟩
    exact ⟨a, b ++ List.replicate k 10, by rw [hk, h]; simp⟩
  · intro h
    rw [hk] at h
    generalize captured x = y at h
    clear hk h0
    induction k generalizing y with
    | zero => simpa using h
    | succ k ih =>
      rw [List.replicate_succ] at h
      rcases occurs_nl hp h with h | h
      · exact h
      · exfalso
        obtain ⟨a, b, h⟩ := h
        cases pat with
        | nil => exact hne rfl
        | cons c pat =>
          have : c ∈ List.replicate k (10 : UInt8) := by rw [h]; simp
          rw [List.mem_replicate] at this
          exact hp (by rw [this.2]; simp)

/-- What `ip rule show` prints contains a text in one line. -/
theorem occurs_listing {pat : List UInt8} (hp : (10 : UInt8) ∉ pat) (hne : pat ≠ []) {rs : List IpRule} (hw : ∀ r ∈ rs, r.WF) {out : List UInt8}
    (ho : out = ruleListing rs) : Occurs pat (captured out) ↔ ∃ r ∈ rs, Occurs pat r.line := by
  subst ho
  rw [occurs_captured hp hne]
  · unfold ruleListing
    rw [occurs_unlines hp hne]
    simp
  · unfold ruleListing unlines
    simp only [List.mem_flatMap, List.mem_append, List.mem_map, not_exists, not_and, not_or]
    rintro l ⟨r, hr, rfl⟩
    exact ⟨fun h => ((hw r hr).clean 0 h).2 rfl, by decide⟩

theorem prefix_word {t t' r : List UInt8} (ht : ∀ c ∈ t, c ≠ 32) (hr : r = [] ∨ r.head? = some 32) (h : t <+: t' ++ r) : t <+: t' := by
  obtain ⟨s, h⟩ := h
  rcases List.append_eq_append_iff.1 h with ⟨u, rfl, h2⟩ | ⟨u, rfl, h2⟩
  · exact List.prefix_append _ _
  · cases u with
    | nil => simp
    | cons x u =>
      rcases hr with rfl | hr
      · simp at h2
      · rw [h2] at hr
        simp only [List.cons_append, List.head?_cons, Option.some.injEq] at hr
        exact absurd hr (ht x (by simp))

theorem lookup_after {r : IpRule} (hw : r.WF) {a b : List UInt8} (h : r.line = a ++ b!"lookup " ++ b) :
    ∃ t, r.table = some t ∧ a = r.sel ∧ b = t ++ r.rest := by
  obtain ⟨h1, rfl⟩ := hw.once a b h
  cases ht : r.table with
  | none => exact absurd ht h1
  | some t =>
    unfold IpRule.line at h
    rw [ht] at h
    refine ⟨t, rfl, rfl, ?_⟩
    simp only [List.append_assoc] at h
    have := List.append_cancel_left (List.append_cancel_left h)
    exact this.symm

/-- `lookup t` is shown for the tables that begin with `t`. -/
theorem lookup_shown {r : IpRule} (hw : r.WF) {t : List UInt8} (ht : ∀ c ∈ t, c ≠ 32) :
    Occurs (b!"lookup " ++ t) r.line ↔ ∃ t', r.table = some t' ∧ t <+: t' := by
  constructor
  · rintro ⟨a, b, h⟩
    obtain ⟨t', h1, _, h2⟩ := lookup_after hw (a := a) (b := t ++ b) (by rw [h]; simp)
    exact ⟨t', h1, prefix_word ht hw.rest ⟨b, h2⟩⟩
  · rintro ⟨_, h1, b, rfl⟩
    refine ⟨r.sel, b ++ r.rest, ?_⟩
    unfold IpRule.line
    rw [h1]; simp

/-- The other pattern is shown for the rules without selector that suppress default routes. -/
theorem suppress_shown {r : IpRule} (hw : r.WF) :
    Occurs b!"from all lookup main suppress_prefixlength 0" r.line ↔ r.Suppress ∧ b!"from all " <:+ r.sel := by
  constructor
  · rintro ⟨a, b, h⟩
    obtain ⟨t, h1, h2, h3⟩ := lookup_after hw (a := a ++ b!"from all ") (b := b!"main suppress_prefixlength 0" ++ b) (by rw [h]; simp)
    have hm : b!"main" <+: t := by
      refine prefix_word (by decide) hw.rest ⟨b!" suppress_prefixlength 0" ++ b, ?_⟩
      rw [← h3]; simp
    obtain ⟨u, rfl⟩ := hm
    have h4 : b!" suppress_prefixlength 0" ++ b = u ++ r.rest := by
      have : b!"main" ++ (b!" suppress_prefixlength 0" ++ b) = b!"main" ++ (u ++ r.rest) := by
        rw [← List.append_assoc b!"main" u, ← h3]; simp
      exact List.append_cancel_left this
    have hu : u = [] := by
      cases u with
      | nil => rfl
      | cons x u =>
        simp only [List.cons_append, List.cons.injEq] at h4
        exact absurd h4.1.symm (hw.table _ h1 x (by simp))
    subst hu
    exact ⟨⟨by simpa using h1, b, by simpa using h4⟩, a, h2⟩
  · rintro ⟨⟨h1, b, h2⟩, a, h3⟩
    refine ⟨a, b, ?_⟩
    unfold IpRule.line
    rw [h1, ← h2, ← h3]; simp

/-! ### The rules in a history -/

theorem RulesRun_append {R : IpRules} {h1 h2 : List Ev} {R' : IpRules} (h : RulesRun R (h1 ++ h2) R') : ∃ R1, RulesRun R h1 R1 ∧ RulesRun R1 h2 R' := by
  induction h1 generalizing R with
  | nil => exact ⟨R, .nil, h⟩
  | cons e h1 ih =>
    cases h with
    | listed a b => obtain ⟨R1, x, y⟩ := ih b; exact ⟨R1, .listed a x, y⟩
    | deleted a b c d e => obtain ⟨R1, x, y⟩ := ih e; exact ⟨R1, .deleted a b c d x, y⟩
    | missing a b c => obtain ⟨R1, x, y⟩ := ih c; exact ⟨R1, .missing a b x, y⟩
    | added a b c d e => obtain ⟨R1, x, y⟩ := ih e; exact ⟨R1, .added a b c d x, y⟩
    | rejected a b => obtain ⟨R1, x, y⟩ := ih b; exact ⟨R1, .rejected a x, y⟩
    | other a b => obtain ⟨R1, x, y⟩ := ih b; exact ⟨R1, .other a x, y⟩

/-- All rules are well-formed. -/
def AllWF (R : IpRules) : Prop := ∀ f, ∀ r ∈ R f, r.WF

theorem _root_.WG.Spec.Quick.RulesRun.wf {R : IpRules} {h : List Ev} {R' : IpRules} (h : RulesRun R h R') (hw : AllWF R) : AllWF R' := by
  induction h with
  | nil => exact hw
  | listed _ _ ih => exact ih hw
  | @deleted R fam args a x b r h R' e _ _ _ _ ih =>
    refine ih fun f r hr => ?_
    by_cases hf : f = fam
    · subst hf
      rw [Function.update_self] at hr
      refine hw f r ?_
      rw [e]
      simp only [List.mem_append, List.mem_cons] at hr ⊢
      tauto
    · rw [Function.update_of_ne hf] at hr
      exact hw f r hr
  | missing _ _ _ ih => exact ih hw
  | @added R fam args a x b r h R' e _ hx _ _ ih =>
    refine ih fun f r hr => ?_
    by_cases hf : f = fam
    · subst hf
      rw [Function.update_self] at hr
      simp only [List.mem_append, List.mem_cons] at hr
      rcases hr with hr | rfl | hr
      · exact hw f r (by rw [e]; simp [hr])
      · exact hx
      · exact hw f r (by rw [e]; simp [hr])
    · rw [Function.update_of_ne hf] at hr
      exact hw f r hr
  | rejected _ _ ih => exact ih hw
  | other _ _ ih => exact ih hw

/-- The commands on rules are deletions of rules outside `K`, or additions of such rules. -/
def Spares (K : IpRule → Prop) (h : List Ev) : Prop :=
  ∀ e ∈ h, ∀ fam args, (e.1 = cmd ([b!"ip", fam, b!"rule", b!"delete"] ++ args) → ∀ r, Selected args r → ¬ K r) ∧
    (e.1 = cmd ([b!"ip", fam, b!"rule", b!"add"] ++ args) → ∀ r, Made args r → ¬ K r)

/-- Rules that are spared stay, in their order. -/
theorem spared {K : IpRule → Prop} [DecidablePred K] {R : IpRules} {h : List Ev} {R' : IpRules} (hr : RulesRun R h R') (hs : Spares K h) :
    ∀ f, (R' f).filter (fun r => decide (K r)) = (R f).filter (fun r => decide (K r)) := by
  induction hr with
  | nil => intro f; rfl
  | listed _ _ ih => exact ih fun e he => hs e (List.mem_cons_of_mem _ he)
  | @deleted R fam args a x b r h R' e h1 h2 h3 _ ih =>
    intro f
    rw [ih (fun e he => hs e (List.mem_cons_of_mem _ he)) f]
    by_cases hf : f = fam
    · subst hf
      have := (hs _ (List.mem_cons_self ..) f args).1 rfl x h2
      rw [Function.update_self, e, List.filter_append, List.filter_append, List.filter_cons_of_neg (by simpa using this)]
    · rw [Function.update_of_ne hf]
  | missing _ _ _ ih => exact ih fun e he => hs e (List.mem_cons_of_mem _ he)
  | @added R fam args a x b r h R' e hm hx _ _ ih =>
    intro f
    rw [ih (fun e he => hs e (List.mem_cons_of_mem _ he)) f]
    by_cases hf : f = fam
    · subst hf
      have := (hs _ (List.mem_cons_self ..) f args).2 rfl x hm
      rw [Function.update_self, e, List.filter_append, List.filter_append, List.filter_cons_of_neg (by simpa using this)]
    · rw [Function.update_of_ne hf]
  | rejected _ _ ih => exact ih fun e he => hs e (List.mem_cons_of_mem _ he)
  | other _ _ ih => exact ih fun e he => hs e (List.mem_cons_of_mem _ he)

/-- No rules are added. -/
def NoAdds (h : List Ev) : Prop := ∀ e ∈ h, ∀ fam args, e.1 ≠ cmd ([b!"ip", fam, b!"rule", b!"add"] ++ args)

theorem no_adds {R : IpRules} {h : List Ev} {R' : IpRules} (hr : RulesRun R h R') (hs : NoAdds h) : ∀ f, (R' f).Sublist (R f) := by
  induction hr with
  | nil => intro f; exact List.Sublist.refl _
  | listed _ _ ih => exact ih fun e he => hs e (List.mem_cons_of_mem _ he)
  | @deleted R fam args a x b r h R' e h1 h2 h3 _ ih =>
    intro f
    refine (ih (fun e he => hs e (List.mem_cons_of_mem _ he)) f).trans ?_
    by_cases hf : f = fam
    · subst hf
      rw [Function.update_self, e]
      exact List.Sublist.append_left (List.sublist_cons_self ..) _
    · rw [Function.update_of_ne hf]
  | missing _ _ _ ih => exact ih fun e he => hs e (List.mem_cons_of_mem _ he)
  | @added R fam args a x b r h R' e hm hx _ _ ih => exact absurd rfl (hs _ (List.mem_cons_self ..) fam args)
  | rejected _ _ ih => exact ih fun e he => hs e (List.mem_cons_of_mem _ he)
  | other _ _ ih => exact ih fun e he => hs e (List.mem_cons_of_mem _ he)

/-- A history without commands on rules leaves them. -/
theorem no_rules {R : IpRules} {h : List Ev} {R' : IpRules} (hr : RulesRun R h R') (hs : ∀ e ∈ h, isAct e.1 = true → ¬ IsRuleCall e.1) : R' = R := by
  induction hr with
  | nil => rfl
  | listed _ _ ih => exact ih fun e he => hs e (List.mem_cons_of_mem _ he)
  | deleted => exact absurd ⟨_, _, .inl ⟨_, rfl⟩⟩ (hs _ (List.mem_cons_self ..) rfl)
  | missing => exact absurd ⟨_, _, .inl ⟨_, rfl⟩⟩ (hs _ (List.mem_cons_self ..) rfl)
  | added => exact absurd ⟨_, _, .inl ⟨_, rfl⟩⟩ (hs _ (List.mem_cons_self ..) rfl)
  | rejected => exact absurd ⟨_, _, .inl ⟨_, rfl⟩⟩ (hs _ (List.mem_cons_self ..) rfl)
  | other _ _ ih => exact ih fun e he => hs e (List.mem_cons_of_mem _ he)

theorem listed_inv {R R' : IpRules} {fam : List UInt8} {r : Reply} {h : List Ev} (hr : RulesRun R ((.query [b!"ip", fam, b!"rule", b!"show"], r) :: h) R') :
    r.out = ruleListing (R fam) ∧ RulesRun R h R' := by
  generalize he : ((Call.query [b!"ip", fam, b!"rule", b!"show"], r) :: h) = hh at hr
  cases hr with
  | nil => cases he
  | listed a b =>
    simp only [List.cons.injEq, Prod.mk.injEq, Call.query.injEq] at he
    obtain ⟨⟨⟨-, rfl, -⟩, rfl⟩, rfl⟩ := he
    exact ⟨a, b⟩
  | deleted => simp [cmd] at he
  | missing => simp [cmd] at he
  | added => simp [cmd] at he
  | rejected => simp [cmd] at he
  | other a b =>
    simp only [List.cons.injEq] at he
    obtain ⟨rfl, rfl⟩ := he
    exact absurd ⟨_, _, .inr rfl⟩ a

/-- A loop ends without rules for which the pattern is shown, and touches the rules of one family only. -/
theorem loop_done {fam pat : List UInt8} {args : List (List UInt8)} {h : List Ev} (hl : RuleRemoval fam pat args h) (hp : (10 : UInt8) ∉ pat)
    (hne : pat ≠ []) {R R' : IpRules} (hr : RulesRun R h R') (hw : AllWF R) : (∀ r ∈ R' fam, ¬ Occurs pat r.line) ∧ ∀ f, f ≠ fam → R' f = R f := by
  induction hl generalizing R with
  | done hd =>
    obtain ⟨h1, h2⟩ := listed_inv hr
    cases h2
    refine ⟨?_, fun _ _ => rfl⟩
    intro r hr ho
    exact hd ((occurs_listing hp hne (hw fam) h1).2 ⟨r, hr, ho⟩)
  | @again r d l ho _ ih =>
    obtain ⟨h1, h2⟩ := listed_inv hr
    generalize he : (cmd ([b!"ip", fam, b!"rule", b!"delete", b!"table"] ++ args), d) :: l = hh at h2
    have hinj : ∀ {x y z}, cmd ([b!"ip", fam, b!"rule", b!"delete", b!"table"] ++ args) = cmd ([b!"ip", x, b!"rule", y] ++ z) → fam = x ∧ y = b!"delete" := by
      intro x y z h
      simp only [cmd, List.cons_append, Call.act.injEq, List.cons.injEq] at h
      exact ⟨h.1.2.1, h.1.2.2.2.1.symm⟩
    cases h2 with
    | nil => cases he
    | listed a b => simp [cmd] at he
    | @deleted R fam' args' a x b r h R' e1 e2 e3 e4 e5 =>
      simp only [List.cons.injEq, Prod.mk.injEq] at he
      obtain ⟨⟨he, -⟩, rfl⟩ := he
      obtain ⟨rfl, -⟩ := hinj he
      have hw' : AllWF (Function.update R fam (a ++ b)) := by
        intro f r hr
        by_cases hf : f = fam
        · subst hf
          rw [Function.update_self] at hr
          refine hw f r ?_
          rw [e1]
          simp only [List.mem_append, List.mem_cons] at hr ⊢
          tauto
        · rw [Function.update_of_ne hf] at hr
          exact hw f r hr
      obtain ⟨k1, k2⟩ := ih e5 hw'
      refine ⟨k1, fun f hf => ?_⟩
      rw [k2 f hf, Function.update_of_ne hf]
    | missing e1 e2 e3 =>
      simp only [List.cons.injEq, Prod.mk.injEq] at he
      obtain ⟨⟨he, -⟩, rfl⟩ := he
      exact ih e3 hw
    | added =>
      simp only [List.cons.injEq, Prod.mk.injEq] at he
      exact absurd (hinj he.1.1).2 (by decide)
    | rejected =>
      simp only [List.cons.injEq, Prod.mk.injEq] at he
      exact absurd (hinj he.1.1).2 (by decide)
    | other a b =>
      simp only [List.cons.injEq] at he
      obtain ⟨rfl, rfl⟩ := he
      exact absurd ⟨_, _, .inl ⟨_, rfl⟩⟩ a

theorem loop_noAdds {fam pat : List UInt8} {args : List (List UInt8)} {h : List Ev} (hl : RuleRemoval fam pat args h) : NoAdds h := by
  induction hl with
  | done _ =>
    intro e he f a h
    rw [List.mem_singleton] at he; subst he
    cases h
  | again _ _ ih =>
    intro e he f a h
    simp only [List.mem_cons] at he
    rcases he with rfl | rfl | he
    · cases h
    · simp [cmd] at h
    · exact ih e he f a h

end WG.Quick
