import Verif.Proof.BsdText
/-! The routes to the endpoints: what `set_endpoint_direct_route` and the monitor leave. -/
namespace WG.Bsd
open WG.Quick (Call Reply Ev World Out calm endpointHost_iff)
open WG.Spec.Quick WG.Spec.Bsd

variable {α β : Type}

/-- The route to `d` in the state. -/
def R (f : Family) (d : CStr) (v0 : Option Via) (s : St) : Option Via := routeAfter f.flag d v0 s.hist

/-- `AUTO_ROUTE4` or `AUTO_ROUTE6` -/
def St.auto (s : St) : Family → Bool
  | .v4 => s.auto4
  | .v6 => s.auto6

/-- `GATEWAY4` or `GATEWAY6` -/
def St.gw (s : St) : Family → CStr
  | .v4 => s.gw4
  | .v6 => s.gw6

/-- A call that is no change of this route. -/
def Off (f : Family) (d : CStr) (c : Call) : Prop := c ≠ deleteCmd f.flag d ∧ ∀ via, c ≠ addCmd f.flag d via

section
variable {f : Family} {d : CStr} {v0 : Option Via}

theorem R_push (s : St) (c : Call) (r : Reply) : R f d v0 (push s c r) = routeStep f.flag d (R f d v0 s) (c, r) := by
  unfold R routeAfter push
  simp

theorem step_off {c : Call} (h : Off f d c) (v : Option Via) (r : Reply) : routeStep f.flag d v (c, r) = v := by
  unfold routeStep
  dsimp only
  by_cases hs : r.status ≠ 0
  · rw [if_pos hs]
  · rw [if_neg hs, if_neg h.1]
    cases c with
    | query a => rfl
    | hook a => rfl
    | act argv i =>
      cases i with
      | cons b i => rfl
      | nil =>
        dsimp only
        rw [if_neg]
        intro h2
        refine h.2 (argv.drop 6) ?_
        unfold addCmd cmd
        rw [← h2, List.take_append_drop]

theorem R_off {s : St} {c : Call} (h : Off f d c) (r : Reply) : R f d v0 (push s c r) = R f d v0 s := by
  rw [R_push, step_off h]

theorem off_query (a : List CStr) : Off f d (.query a) := ⟨by simp [deleteCmd, cmd], fun v => by simp [addCmd, cmd]⟩
theorem off_hook (a : CStr) : Off f d (.hook a) := ⟨by simp [deleteCmd, cmd], fun v => by simp [addCmd, cmd]⟩
/-- Not a `route` command. -/
theorem off_act {a : List CStr} {i : List UInt8} (h : a.head? ≠ some b!"route") : Off f d (.act a i) := by
  constructor
  · intro h2
    unfold deleteCmd cmd at h2
    simp only [Call.act.injEq] at h2
    exact h (by rw [h2.1]; rfl)
  · intro v h2
    unfold addCmd cmd at h2
    simp only [Call.act.injEq] at h2
    exact h (by rw [h2.1]; rfl)

theorem off_delete {fam e : CStr} (h : ¬ (fam = f.flag ∧ e = d)) : Off f d (routeDelete fam e) := by
  constructor
  · intro h2
    unfold routeDelete deleteCmd act cmd at h2
    simp only [Call.act.injEq, List.cons.injEq, and_true, true_and] at h2
    exact h h2
  · intro v h2
    unfold routeDelete addCmd act cmd at h2
    simp only [Call.act.injEq, List.cons.injEq, List.cons_append, and_true, true_and] at h2
    exact absurd h2.1 (by decide)

theorem off_add {fam e : CStr} {via : List CStr} (h : ¬ (fam = f.flag ∧ e = d)) : Off f d (routeAdd fam e via) := by
  constructor
  · intro h2
    unfold routeAdd deleteCmd act cmd at h2
    simp only [Call.act.injEq, List.cons.injEq, List.cons_append, and_true, true_and] at h2
    exact absurd h2.1 (by decide)
  · intro v h2
    unfold routeAdd addCmd act cmd at h2
    simp only [Call.act.injEq, List.cons.injEq, List.cons_append, and_true, true_and] at h2
    exact h ⟨h2.1, h2.2.1⟩

/-- After a deletion there is no route, whether it succeeded or there was none. -/
theorem R_delete {w : World} (hk : KeepsRoute f.flag d v0 w) (s : St) :
    R f d v0 (push s (routeDelete f.flag d) (w s.hist (routeDelete f.flag d))) = none := by
  rw [R_push]
  have h := (hk s.hist).1
  change (w s.hist (routeDelete f.flag d)).status = 0 ↔ R f d v0 s ≠ none at h
  unfold routeStep
  dsimp only
  by_cases hs : (w s.hist (routeDelete f.flag d)).status = 0
  · rw [if_neg (by simpa using hs), if_pos (show routeDelete f.flag d = deleteCmd f.flag d from rfl)]
  · rw [if_pos hs]
    by_contra h2
    exact hs (h.2 h2)

/-- After an addition there is the new route if there was none. -/
theorem R_add {w : World} (hk : KeepsRoute f.flag d v0 w) (s : St) (via : List CStr) :
    R f d v0 (push s (routeAdd f.flag d via) (w s.hist (routeAdd f.flag d via))) = if R f d v0 s = none then some via else R f d v0 s := by
  rw [R_push]
  have h := (hk s.hist).2 via
  change (w s.hist (routeAdd f.flag d via)).status = 0 ↔ R f d v0 s = none at h
  unfold routeStep
  dsimp only
  by_cases hs : (w s.hist (routeAdd f.flag d via)).status = 0
  · rw [if_neg (by simpa using hs), if_neg (by unfold routeAdd deleteCmd act cmd; intro h2; simp at h2)]
    rw [if_pos (h.1 hs)]
    unfold routeAdd act
    dsimp only
    rw [if_pos (by simp)]
    simp
  · rw [if_pos hs, if_neg (fun h2 => hs (h.2 h2))]

theorem has_iff (hf : f.Has d) : isV6 d = true ↔ f = .v6 := by
  unfold isV6
  rw [decide_eq_true_eq]
  exact hf.symm

theorem famOf_eq (hf : f.Has d) : famOf d = f.flag := by
  unfold famOf
  by_cases h : isV6 d = true
  · rw [if_pos h, (has_iff hf).1 h]; rfl
  · rw [if_neg h]
    cases f with
    | v4 => rfl
    | v6 => exact absurd ((has_iff hf).2 rfl) h

/-- An endpoint is dealt with under its own family only if there is a default route of this family. -/
theorem directFam_eq (hf : f.Has d) (s : St) : directFam s d = some f.flag ↔ s.auto f = true := by
  unfold directFam
  by_cases h : isV6 d = true
  · obtain rfl := (has_iff hf).1 h
    simp only [h, true_and, St.auto]
    by_cases h6 : s.auto6 = true
    · rw [if_pos h6]; simp [h6, Family.flag]
    · rw [if_neg h6]
      refine iff_of_false ?_ h6
      by_cases h4 : s.auto4 = true
      · rw [if_pos h4]; simp [Family.flag]
      · rw [if_neg h4]; simp
  · have : f = .v4 := by cases f with | v4 => rfl | v6 => exact absurd ((has_iff hf).2 rfl) h
    subst this
    rw [if_neg (by simp [h])]
    simp only [St.auto]
    by_cases h4 : s.auto4 = true
    · rw [if_pos h4]; simp [h4, Family.flag]
    · rw [if_neg h4]; simp [h4]

theorem directVia_eq (s : St) : directVia s f.flag = directRoute f (s.gw f) := by
  cases f with
  | v4 =>
    change directVia s b!"-inet" = directRoute .v4 s.gw4
    unfold directVia directRoute
    rw [if_neg (by decide)]
    by_cases h : s.gw4 = []
    · rw [if_neg (by simpa using h), if_pos h]; simp
    · rw [if_pos h, if_neg h]
  | v6 =>
    change directVia s b!"-inet6" = directRoute .v6 s.gw6
    unfold directVia directRoute
    rw [if_pos (by decide)]
    by_cases h : s.gw6 = []
    · rw [if_neg (by simpa using h), if_pos h]; simp
    · rw [if_pos h, if_neg h]

/-- Nothing about the endpoints changes, and neither does the route. -/
def Still (f : Family) (d : CStr) (v0 : Option Via) (s s' : St) : Prop :=
  s'.real = s.real ∧ s'.auto4 = s.auto4 ∧ s'.auto6 = s.auto6 ∧ s'.gw4 = s.gw4 ∧ s'.gw6 = s.gw6 ∧ s'.endpoints = s.endpoints ∧
    R f d v0 s' = R f d v0 s

theorem Still.refl (s : St) : Still f d v0 s s := ⟨rfl, rfl, rfl, rfl, rfl, rfl, rfl⟩
theorem Still.trans {a b c : St} (h1 : Still f d v0 a b) (h2 : Still f d v0 b c) : Still f d v0 a c := by
  obtain ⟨a1, a2, a3, a4, a5, a6, a7⟩ := h1
  obtain ⟨b1, b2, b3, b4, b5, b6, b7⟩ := h2
  exact ⟨b1.trans a1, b2.trans a2, b3.trans a3, b4.trans a4, b5.trans a5, b6.trans a6, b7.trans a7⟩

/-- Whatever happens. -/
def Quiet (f : Family) (d : CStr) (v0 : Option Via) (m : Sh α) : Prop := ∀ w s, Still f d v0 s (m w s).2

theorem quiet_pure (a : α) : Quiet f d v0 (Sh.pure a) := fun _ _ => Still.refl _
theorem quiet_exit (n : Nat) : Quiet f d v0 (exitWith n : Sh α) := fun _ _ => Still.refl _
theorem quiet_giveUp : Quiet f d v0 (giveUp : Sh α) := fun _ _ => Still.refl _
theorem quiet_get : Quiet f d v0 get := fun _ _ => Still.refl _
theorem still_push {s : St} {c : Call} (h : Off f d c) (r : Reply) : Still f d v0 s (push s c r) :=
  ⟨rfl, rfl, rfl, rfl, rfl, rfl, R_off h r⟩
theorem quiet_call {c : Call} (h : Off f d c) : Quiet f d v0 (call c) := by
  intro w s; rw [call_eq]; exact still_push h _
theorem quiet_run {e : Bool} {c : Call} (h : Off f d c) : Quiet f d v0 (run e c) := by
  intro w s; rw [run_eq]; exact still_push h _
theorem quiet_bind {m : Sh α} {g : α → Sh β} (hm : Quiet f d v0 m) (hg : ∀ a, Quiet f d v0 (g a)) : Quiet f d v0 (m.bind g) := by
  intro w s
  rcases e : (m.bind g) w s with ⟨o, s'⟩
  have h := hm w s
  rcases bind_inv e with ⟨a, s1, h1, h2⟩ | ⟨o1, h1, _⟩
  · rw [h1] at h
    have h3 := hg a w s1
    rw [h2] at h3
    exact h.trans h3
  · rw [h1] at h; exact h
theorem quiet_forEach {γ : Type} {g : γ → Sh Unit} (hg : ∀ x, Quiet f d v0 (g x)) (xs : List γ) : Quiet f d v0 (forEach g xs) := by
  induction xs with
  | nil => exact quiet_pure _
  | cons x xs ih => exact quiet_bind (hg x) fun _ => ih
theorem quiet_ite {p : Prop} [Decidable p] {a b : Sh α} (ha : p → Quiet f d v0 a) (hb : ¬ p → Quiet f d v0 b) :
    Quiet f d v0 (if p then a else b) := by
  by_cases h : p
  · rw [if_pos h]; exact ha h
  · rw [if_neg h]; exact hb h
theorem quiet_modify {g : St → St} (h : ∀ s, Still f d v0 s (g s)) : Quiet f d v0 (modify g) := fun _ s => h s

/-- All routes to the endpoints that there should be, and no others; `Plain` since they come from the listing. -/
structure Good (f : Family) (d : CStr) (v0 : Option Via) (s : St) : Prop where
  plain : ∀ e ∈ s.endpoints, Plain e
  routed : ∀ e ∈ s.endpoints, directFam s e ≠ none
  fresh : d ∈ s.endpoints → v0 = none
  route : R f d v0 s = if d ∈ s.endpoints ∧ s.auto f = true then some (directRoute f (s.gw f)) else v0

theorem directFam_same {s s' : St} (h4 : s'.auto4 = s.auto4) (h6 : s'.auto6 = s.auto6) (e : CStr) : directFam s' e = directFam s e := by
  unfold directFam
  rw [h4, h6]

theorem auto_same {s s' : St} (h4 : s'.auto4 = s.auto4) (h6 : s'.auto6 = s.auto6) : s'.auto f = s.auto f := by
  cases f with
  | v4 => exact h4
  | v6 => exact h6

theorem gw_same {s s' : St} (h4 : s'.gw4 = s.gw4) (h6 : s'.gw6 = s.gw6) : s'.gw f = s.gw f := by
  cases f with
  | v4 => exact h4
  | v6 => exact h6

theorem Good.still {s s' : St} (h : Good f d v0 s) (h2 : Still f d v0 s s') : Good f d v0 s' := by
  obtain ⟨_, a2, a3, a4, a5, a6, a7⟩ := h2
  refine ⟨by rw [a6]; exact h.plain, by rw [a6]; intro e he; rw [directFam_same a2 a3]; exact h.routed e he, by rw [a6]; exact h.fresh, ?_⟩
  rw [a7, a6, auto_same a2 a3, gw_same a4 a5]
  exact h.route

theorem addMissing_mem (old es : List CStr) (ho : ∀ e ∈ old, Plain e) (he : ∀ e ∈ es, Plain e) :
    (∀ e ∈ addMissing old es, Plain e) ∧ ∀ x, x ∈ addMissing old es ↔ x ∈ old ∨ x ∈ es := by
  induction es generalizing old with
  | nil => exact ⟨ho, fun x => by simp [addMissing]⟩
  | cons e es ih =>
    have h1 := he e (List.mem_cons_self ..)
    have h2 : ∀ x ∈ es, Plain x := fun x hx => he x (List.mem_cons_of_mem _ hx)
    unfold addMissing
    by_cases hl : listed e old = true
    · rw [if_pos hl]
      obtain ⟨a, b⟩ := ih old ho h2
      refine ⟨a, fun x => ?_⟩
      rw [b, List.mem_cons]
      have := (listed_iff e h1 old ho).1 hl
      constructor
      · rintro (h | h)
        · exact .inl h
        · exact .inr (.inr h)
      · rintro (h | rfl | h)
        · exact .inl h
        · exact .inl this
        · exact .inr h
    · rw [if_neg hl]
      obtain ⟨a, b⟩ := ih (old ++ [e]) (by intro x hx; rcases List.mem_append.1 hx with h | h; exact ho x h; rw [List.mem_singleton.1 h]; exact h1) h2
      refine ⟨a, fun x => ?_⟩
      rw [b]
      simp only [List.mem_append, List.mem_cons, List.not_mem_nil, or_false, or_assoc]

/-- The loop that removes routes, when it is not interrupted. -/
theorem drop_ok {w : World} (hk : KeepsRoute f.flag d v0 w) (hf : f.Has d) (hd : Plain d) (all : Bool) (old : List CStr) (s s' : St) (u : Unit)
    (hp : ∀ e ∈ s.endpoints, Plain e) (h : forEach (dropDirect all) old w s = (.ok u, s')) :
    Same s s' ∧ R f d v0 s' = if d ∈ old ∧ s.auto f = true ∧ (all = true ∨ d ∉ s.endpoints) then none else R f d v0 s := by
  induction old generalizing s with
  | nil =>
    obtain ⟨_, rfl⟩ := pure_inv h
    exact ⟨Same.refl _, by simp⟩
  | cons e es ih =>
    obtain ⟨_, s1, h1, h2⟩ := bind_ok h
    unfold dropDirect at h1
    rw [get_bind] at h1
    -- the state after one endpoint
    have hstep : Same s s1 ∧ R f d v0 s1 = if e = d ∧ s.auto f = true ∧ (all = true ∨ d ∉ s.endpoints) then none else R f d v0 s := by
      by_cases hc : all = false ∧ listed e s.endpoints = true
      · rw [if_pos hc] at h1
        obtain ⟨_, rfl⟩ := pure_inv h1
        refine ⟨Same.refl _, ?_⟩
        rw [if_neg]
        rintro ⟨rfl, _, h3⟩
        rcases h3 with h3 | h3
        · rw [hc.1] at h3; exact absurd h3 (by decide)
        · exact h3 ((listed_iff e hd _ hp).1 hc.2)
      · rw [if_neg hc] at h1
        cases hm : directFam s e with
        | none =>
          rw [hm] at h1
          obtain ⟨_, rfl⟩ := pure_inv h1
          refine ⟨Same.refl _, ?_⟩
          rw [if_neg]
          rintro ⟨h9, h3, _⟩
          rw [h9, (directFam_eq hf s1).2 h3] at hm
          simp at hm
        | some fam =>
          rw [hm] at h1
          obtain ⟨_, _, rfl⟩ := run_ok h1
          refine ⟨Same.push _ _ _, ?_⟩
          by_cases he : fam = f.flag ∧ e = d
          · obtain ⟨rfl, rfl⟩ := he
            rw [R_delete hk s, if_pos]
            refine ⟨rfl, (directFam_eq hf s).1 hm, ?_⟩
            by_cases ha : all = true
            · exact .inl ha
            · refine .inr fun h4 => hc ⟨by simpa using ha, (listed_iff e hd _ hp).2 h4⟩
          · rw [R_off (off_delete he), if_neg]
            rintro ⟨rfl, h3, _⟩
            rw [(directFam_eq hf s).2 h3] at hm
            exact he ⟨(Option.some.inj hm).symm, rfl⟩
    obtain ⟨hs1, hr1⟩ := hstep
    have ha : s1.auto4 = s.auto4 := by rw [hs1]
    have hb : s1.auto6 = s.auto6 := by rw [hs1]
    have hc : s1.endpoints = s.endpoints := by rw [hs1]
    obtain ⟨hs2, hr2⟩ := ih s1 (by rw [hc]; exact hp) h2
    refine ⟨hs1.trans hs2, ?_⟩
    rw [hr2, hc, auto_same ha hb, hr1]
    have hm : d ∈ e :: es ↔ d = e ∨ d ∈ es := List.mem_cons
    by_cases h3 : s.auto f = true ∧ (all = true ∨ d ∉ s.endpoints)
    · by_cases h4 : d ∈ es
      · rw [if_pos ⟨h4, h3⟩, if_pos ⟨hm.2 (.inr h4), h3⟩]
      · rw [if_neg (fun h => h4 h.1)]
        by_cases h5 : e = d
        · rw [if_pos ⟨h5, h3⟩, if_pos ⟨hm.2 (.inl h5.symm), h3⟩]
        · rw [if_neg (fun h => h5 h.1), if_neg (fun h => (hm.1 h.1).elim (fun h => h5 h.symm) h4)]
    · rw [if_neg (fun h => h3 h.2), if_neg (fun h => h3 h.2), if_neg (fun h => h3 h.2)]

/-- The loop that adds routes, when it is not interrupted. -/
theorem add_ok {w : World} (hk : KeepsRoute f.flag d v0 w) (hf : f.Has d) (hd : Plain d) (all : Bool) (old : List CStr) (hp : ∀ e ∈ old, Plain e)
    (es added : List CStr) (he : ∀ e ∈ es, Plain e) (s s' : St) (res : List CStr) (h : addDirect all old added es w s = (.ok res, s')) :
    Same s s' ∧ (∀ x, x ∈ res ↔ x ∈ added ∨ (x ∈ es ∧ ((all = false ∧ x ∈ old) ∨ directFam s x ≠ none))) ∧
    R f d v0 s' = if d ∈ es ∧ s.auto f = true ∧ (all = true ∨ d ∉ old) ∧ R f d v0 s = none then some (directRoute f (s.gw f)) else R f d v0 s := by
  induction es generalizing s added with
  | nil =>
    obtain ⟨rfl, rfl⟩ := pure_inv h
    exact ⟨Same.refl _, by simp, by simp⟩
  | cons e es ih =>
    have he1 := he e (List.mem_cons_self ..)
    have he2 : ∀ x ∈ es, Plain x := fun x hx => he x (List.mem_cons_of_mem _ hx)
    unfold addDirect at h
    by_cases hc : all = false ∧ listed e old = true
    · rw [if_pos hc] at h
      have ho := (listed_iff e he1 old hp).1 hc.2
      obtain ⟨h1, h2, h3⟩ := ih (added ++ [e]) he2 s h
      refine ⟨h1, fun x => ?_, ?_⟩
      · rw [h2]
        simp only [List.mem_append, List.mem_cons, List.not_mem_nil, or_false]
        constructor
        · rintro ((h | rfl) | ⟨h, h'⟩)
          · exact .inl h
          · exact .inr ⟨.inl rfl, .inl ⟨hc.1, ho⟩⟩
          · exact .inr ⟨.inr h, h'⟩
        · rintro (h | ⟨rfl | h, h'⟩)
          · exact .inl (.inl h)
          · exact .inl (.inr rfl)
          · exact .inr ⟨h, h'⟩
      · rw [h3]
        have hne : (all = true ∨ d ∉ old) → d ≠ e := by
          rintro (h9 | h9) h8
          · rw [hc.1] at h9; exact absurd h9 (by decide)
          · exact h9 (h8 ▸ ho)
        by_cases h4 : d ∈ es ∧ s.auto f = true ∧ (all = true ∨ d ∉ old) ∧ R f d v0 s = none
        · rw [if_pos h4, if_pos ⟨List.mem_cons_of_mem _ h4.1, h4.2⟩]
        · rw [if_neg h4, if_neg]
          rintro ⟨h5, h6⟩; rcases List.mem_cons.1 h5 with h5 | h5
          · exact hne h6.2.1 h5
          · exact h4 ⟨h5, h6⟩
    · rw [if_neg hc, get_bind] at h
      have hno : ¬ (all = false ∧ e ∈ old) := fun h => hc ⟨h.1, (listed_iff e he1 old hp).2 h.2⟩
      cases hm : directFam s e with
      | none =>
        rw [hm] at h
        obtain ⟨h1, h2, h3⟩ := ih added he2 s h
        refine ⟨h1, fun x => ?_, ?_⟩
        · rw [h2, List.mem_cons]
          constructor
          · rintro (h | ⟨h, h'⟩)
            · exact .inl h
            · exact .inr ⟨.inr h, h'⟩
          · rintro (h | ⟨rfl | h, h'⟩)
            · exact .inl h
            · rcases h' with h' | h'
              · exact absurd h' hno
              · exact absurd hm h'
            · exact .inr ⟨h, h'⟩
        · rw [h3]
          have hne : s.auto f = true → d ≠ e := by
            intro h9 h8
            rw [← h8, (directFam_eq hf s).2 h9] at hm
            simp at hm
          by_cases h4 : d ∈ es ∧ s.auto f = true ∧ (all = true ∨ d ∉ old) ∧ R f d v0 s = none
          · rw [if_pos h4, if_pos ⟨List.mem_cons_of_mem _ h4.1, h4.2⟩]
          · rw [if_neg h4, if_neg]
            rintro ⟨h5, h6⟩; rcases List.mem_cons.1 h5 with h5 | h5
            · exact hne h6.1 h5
            · exact h4 ⟨h5, h6⟩
      | some fam =>
        rw [hm] at h
        obtain ⟨_, s1, h1, h2⟩ := bind_ok h
        obtain ⟨_, _, rfl⟩ := run_ok h1
        obtain ⟨g1, g2, g3⟩ := ih (added ++ [e]) he2 _ h2
        refine ⟨(Same.push _ _ _).trans g1, fun x => ?_, ?_⟩
        · rw [g2]
          simp only [List.mem_append, List.mem_cons, List.not_mem_nil, or_false]
          have hx : directFam (push s (routeAdd fam e (directVia s fam)) (w s.hist (routeAdd fam e (directVia s fam)))) x = directFam s x := rfl
          rw [hx]
          constructor
          · rintro ((h | rfl) | ⟨h, h'⟩)
            · exact .inl h
            · exact .inr ⟨.inl rfl, .inr (by rw [hm]; simp)⟩
            · exact .inr ⟨.inr h, h'⟩
          · rintro (h | ⟨rfl | h, h'⟩)
            · exact .inl (.inl h)
            · exact .inl (.inr rfl)
            · exact .inr ⟨h, h'⟩
        · have g4 : R f d v0 s' = if d ∈ es ∧ s.auto f = true ∧ (all = true ∨ d ∉ old) ∧
              R f d v0 (push s (routeAdd fam e (directVia s fam)) (w s.hist (routeAdd fam e (directVia s fam)))) = none
              then some (directRoute f (s.gw f)) else R f d v0 (push s (routeAdd fam e (directVia s fam)) (w s.hist (routeAdd fam e (directVia s fam)))) := g3
          rw [g4]
          by_cases hx : fam = f.flag ∧ e = d
          · obtain ⟨rfl, rfl⟩ := hx
            have hau := (directFam_eq hf s).1 hm
            have hao : all = true ∨ e ∉ old := by
              by_cases ha : all = true
              · exact .inl ha
              · exact .inr fun h => hno ⟨by simpa using ha, h⟩
            rw [R_add hk, directVia_eq]
            by_cases hr : R f e v0 s = none
            · rw [if_pos hr, if_neg (by simp), if_pos ⟨List.mem_cons_self .., hau, hao, hr⟩]
            · rw [if_neg hr, if_neg (fun h => hr h.2.2.2), if_neg (fun h => hr h.2.2.2)]
          · rw [R_off (off_add hx)]
            by_cases h4 : d ∈ es ∧ s.auto f = true ∧ (all = true ∨ d ∉ old) ∧ R f d v0 s = none
            · rw [if_pos h4, if_pos ⟨List.mem_cons_of_mem _ h4.1, h4.2⟩]
            · rw [if_neg h4, if_neg]
              rintro ⟨h5, h6⟩; rcases List.mem_cons.1 h5 with h5 | h5
              · subst h5
                rw [(directFam_eq hf s).2 h6.1] at hm
                exact hx ⟨(Option.some.inj hm).symm, rfl⟩
              · exact h4 ⟨h5, h6⟩

end
end WG.Bsd
