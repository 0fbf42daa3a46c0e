import Verif.Proof.BsdDirect
/-! `set_endpoint_direct_route` as a whole and the monitor's loop. -/
namespace WG.Bsd
open WG.Quick (Call Reply Ev World Out calm endpointHost_iff)
open WG.Spec.Quick WG.Spec.Bsd

variable {α β : Type}

/-- Whatever happens, only events of this kind are added to the history. -/
def Adds (P : Call → Prop) (m : Sh α) : Prop := ∀ w s, ∃ b, (m w s).2.hist = s.hist ++ b ∧ ∀ e ∈ b, P e.1

section
variable {P : Call → Prop}
theorem adds_pure (a : α) : Adds P (Sh.pure a) := fun _ s => ⟨[], by simp [Sh.pure], by simp⟩
theorem adds_exit (n : Nat) : Adds P (exitWith n : Sh α) := fun _ s => ⟨[], by simp [exitWith], by simp⟩
theorem adds_giveUp : Adds P (giveUp : Sh α) := fun _ s => ⟨[], by simp [giveUp], by simp⟩
theorem adds_get : Adds P get := fun _ s => ⟨[], by simp [get], by simp⟩
theorem adds_modify {g : St → St} (h : ∀ s, (g s).hist = s.hist) : Adds P (modify g) := fun _ s => ⟨[], by simp [modify, h], by simp⟩
theorem adds_call {c : Call} (h : P c) : Adds P (call c) := by
  intro w s; rw [call_eq]; exact ⟨[(c, w s.hist c)], rfl, by simpa using h⟩
theorem adds_run {e : Bool} {c : Call} (h : P c) : Adds P (run e c) := by
  intro w s; rw [run_eq]; exact ⟨[(c, w s.hist c)], rfl, by simpa using h⟩
theorem adds_bind {m : Sh α} {g : α → Sh β} (hm : Adds P m) (hg : ∀ a, Adds P (g a)) : Adds P (m.bind g) := by
  intro w s
  rcases e : (m.bind g) w s with ⟨o, s'⟩
  obtain ⟨b, h, hb⟩ := hm w s
  rcases bind_inv e with ⟨a, s1, h1, h2⟩ | ⟨o1, h1, _⟩
  · rw [h1] at h
    obtain ⟨b2, h3, hb2⟩ := hg a w s1
    rw [h2] at h3
    refine ⟨b ++ b2, by rw [h3, h, List.append_assoc], ?_⟩
    intro e he
    rcases List.mem_append.1 he with he | he
    · exact hb e he
    · exact hb2 e he
  · rw [h1] at h; exact ⟨b, h, hb⟩
theorem adds_forEach {γ : Type} {g : γ → Sh Unit} (hg : ∀ x, Adds P (g x)) (xs : List γ) : Adds P (forEach g xs) := by
  induction xs with
  | nil => exact adds_pure _
  | cons x xs ih => exact adds_bind (hg x) fun _ => ih
theorem adds_ite {p : Prop} [Decidable p] {a b : Sh α} (ha : p → Adds P a) (hb : ¬ p → Adds P b) : Adds P (if p then a else b) := by
  by_cases h : p
  · rw [if_pos h]; exact ha h
  · rw [if_neg h]; exact hb h
end

/-- Not the question for the endpoints. -/
def NoEp (real : CStr) (c : Call) : Prop := c ≠ endpointsOf real

theorem noEp_act (real : CStr) (a : List CStr) (i : List UInt8) : NoEp real (.act a i) := by
  unfold NoEp endpointsOf; intro h; cases h

theorem adds_dropDirect (real : CStr) (all : Bool) (e : CStr) : Adds (NoEp real) (dropDirect all e) := by
  refine adds_bind adds_get fun s => adds_ite (fun _ => adds_pure _) fun _ => ?_
  cases directFam s e with
  | none => exact adds_pure _
  | some fam => exact adds_run (by exact noEp_act real _ _)

theorem adds_addDirect (real : CStr) (all : Bool) (old es added : List CStr) : Adds (NoEp real) (addDirect all old added es) := by
  induction es generalizing added with
  | nil => exact adds_pure _
  | cons e es ih =>
    unfold addDirect
    refine adds_ite (fun _ => ih _) fun _ => adds_bind adds_get fun s => ?_
    cases directFam s e with
    | none => exact ih _
    | some fam => exact adds_bind (adds_run (by exact noEp_act real _ _)) fun _ => ih _

/-- What the script last learnt is what it has in its variables. -/
def Learnt (p : Plat) (s : St) : Prop :=
  ∃ r4 r6 re, LastLearnt s.real s.hist r4 r6 re ∧ s.gw4 = gatewayIn p r4.out ∧ s.gw6 = gatewayIn p r6.out ∧
    ∀ x, x ∈ s.endpoints ↔ x ∈ hostsIn re.out ∧ directFam s x ≠ none

theorem Learnt.grow {p : Plat} {s s' : St} (h : Learnt p s) (hr : s'.real = s.real) (h4 : s'.auto4 = s.auto4) (h6 : s'.auto6 = s.auto6)
    (hg4 : s'.gw4 = s.gw4) (hg6 : s'.gw6 = s.gw6) (he : s'.endpoints = s.endpoints) (b : List Ev) (hh : s'.hist = s.hist ++ b)
    (hb : ∀ e ∈ b, NoEp s.real e.1) : Learnt p s' := by
  obtain ⟨r4, r6, re, ⟨a, b0, h1, h2⟩, h3, h5, h7⟩ := h
  refine ⟨r4, r6, re, ⟨a, b0 ++ b, by rw [hh, h1, hr, List.append_assoc], ?_⟩, by rw [hg4, h3], by rw [hg6, h5], fun x => ?_⟩
  · intro e hx
    rw [hr]
    rcases List.mem_append.1 hx with hx | hx
    · exact h2 e hx
    · exact hb e hx
  · rw [he, h7, directFam_same h4 h6]

/-- The host is never shown as an endpoint, if there is a route of its own before. -/
def Fresh (d : CStr) (v0 : Option Via) (w : World) (real : CStr) : Prop := v0 = none ∨ ∀ h, d ∉ hostsIn (w h (endpointsOf real)).out

theorem collectGateways_inv {c : Cfg} {w : World} {s s' : St} {o : Out Unit} (h : collectGateways c w s = (o, s')) :
    (∃ r4 r6, o = .ok () ∧ r4 = w s.hist (netstatOf .v4) ∧
      s' = { s with hist := s.hist ++ [(netstatOf .v4, r4), (netstatOf .v6, r6)], gw4 := gatewayIn c.plat r4.out, gw6 := gatewayIn c.plat r6.out }) ∨
    (∃ n b g, o = .signal n ∧ s' = { s with hist := s.hist ++ b, gw4 := g } ∧ ∀ e ∈ b, ∃ q, e.1 = .query q) := by
  rcases bind_inv h with ⟨r, s1, h1, h2⟩ | ⟨o1, h1, h2⟩
  · obtain ⟨h3, _, rfl⟩ := call_ok h1
    rw [modify_bind] at h2
    rcases bind_inv h2 with ⟨r6, s2, h4, h5⟩ | ⟨o1, h4, h5⟩
    · obtain ⟨_, _, rfl⟩ := call_ok h4
      unfold modify at h5
      simp only [Prod.mk.injEq] at h5
      obtain ⟨rfl, rfl⟩ := h5
      refine .inl ⟨r, r6, rfl, h3, ?_⟩
      unfold push netstatOf
      simp
    · obtain ⟨h6, h7 | h7⟩ := call_inv h4
      · rw [h7.1] at h5; cases o <;> exact h5.elim
      · rw [h7.1] at h5
        cases o with
        | signal n =>
          refine .inr ⟨n, [(netstatOf .v4, r), (netstatOf .v6, w (s.hist ++ [(netstatOf .v4, r)]) (netstatOf .v6))], gatewayIn c.plat r.out, rfl, ?_, ?_⟩
          · rw [h6]; unfold push netstatOf; simp
          · intro e he
            simp only [List.mem_cons, List.not_mem_nil, or_false] at he
            rcases he with rfl | rfl <;> exact ⟨_, rfl⟩
        | ok _ => exact h5.elim
        | exit _ => exact h5.elim
        | running => exact h5.elim
  · obtain ⟨h6, h7 | h7⟩ := call_inv h1
    · rw [h7.1] at h2; cases o <;> exact h2.elim
    · rw [h7.1] at h2
      cases o with
      | signal n =>
        refine .inr ⟨n, [(netstatOf .v4, w s.hist (netstatOf .v4))], s.gw4, rfl, ?_, ?_⟩
        · rw [h6]; unfold push netstatOf; simp
        · intro e he
          rw [List.mem_singleton.1 he]; exact ⟨_, rfl⟩
      | ok _ => exact h2.elim
      | exit _ => exact h2.elim
      | running => exact h2.elim

section
variable {f : Family} {d : CStr} {v0 : Option Via}

theorem R_append {s s' : St} {b : List Ev} (h : s'.hist = s.hist ++ b) (hb : ∀ e ∈ b, Off f d e.1) : R f d v0 s' = R f d v0 s := by
  unfold R routeAfter
  rw [h, List.foldl_append]
  generalize List.foldl (routeStep f.flag d) v0 s.hist = v
  clear h
  induction b generalizing v with
  | nil => rfl
  | cons e b ih =>
    rw [List.foldl_cons, show e = (e.1, e.2) from rfl, step_off (hb e (List.mem_cons_self ..))]
    exact ih (fun x hx => hb x (List.mem_cons_of_mem _ hx)) v

/-- What can be cleaned up: other than before is the route only if the host is in the list. -/
structure Clean (f : Family) (d : CStr) (v0 : Option Via) (s : St) : Prop where
  fresh : d ∈ s.endpoints → v0 = none
  route : R f d v0 s = v0 ∨ d ∈ s.endpoints

theorem Good.clean {s : St} (h : Good f d v0 s) : Clean f d v0 s := by
  refine ⟨h.fresh, ?_⟩
  by_cases hd : d ∈ s.endpoints
  · exact .inr hd
  · rw [h.route, if_neg (fun h => hd h.1)]; exact .inl rfl

theorem Clean.still {s s' : St} (h : Clean f d v0 s) (h2 : Still f d v0 s s') : Clean f d v0 s' := by
  obtain ⟨_, _, _, _, _, a6, a7⟩ := h2
  exact ⟨by rw [a6]; exact h.fresh, by rw [a6, a7]; exact h.route⟩

/-- While routes are added, only routes to endpoints change. -/
theorem add_any (w : World) (all : Bool) (old es added : List CStr) (s s' : St) (o : Out (List CStr))
    (h : addDirect all old added es w s = (o, s')) : Same s s' ∧ (R f d v0 s' = R f d v0 s ∨ d ∈ es) := by
  induction es generalizing s added with
  | nil =>
    unfold addDirect Sh.pure at h
    simp only [Prod.mk.injEq] at h
    obtain ⟨_, rfl⟩ := h
    exact ⟨Same.refl _, .inl rfl⟩
  | cons e es ih =>
    unfold addDirect at h
    by_cases hc : all = false ∧ listed e old = true
    · rw [if_pos hc] at h
      obtain ⟨h1, h2⟩ := ih _ _ h
      exact ⟨h1, h2.imp_right (List.mem_cons_of_mem _)⟩
    · rw [if_neg hc, get_bind] at h
      cases hm : directFam s e with
      | none =>
        rw [hm] at h
        obtain ⟨h1, h2⟩ := ih _ _ h
        exact ⟨h1, h2.imp_right (List.mem_cons_of_mem _)⟩
      | some fam =>
        rw [hm] at h
        have hone : ∀ r, R f d v0 (push s (routeAdd fam e (directVia s fam)) r) = R f d v0 s ∨ d ∈ e :: es := by
          intro r
          by_cases hx : fam = f.flag ∧ e = d
          · exact .inr (by rw [hx.2]; exact List.mem_cons_self ..)
          · exact .inl (R_off (off_add hx) r)
        rcases bind_inv h with ⟨_, s1, h1, h2⟩ | ⟨o1, h1, _⟩
        · obtain ⟨_, _, rfl⟩ := run_ok h1
          obtain ⟨h3, h4⟩ := ih _ _ h2
          refine ⟨(Same.push _ _ _).trans h3, ?_⟩
          rcases h4 with h4 | h4
          · rw [h4]; exact hone _
          · exact .inr (List.mem_cons_of_mem _ h4)
        · obtain ⟨rfl, _⟩ := run_inv h1
          exact ⟨Same.push _ _ _, hone _⟩

/-- No signal comes while the endpoints are listed or a route is deleted. -/
def Spared (w : World) (real : CStr) : Prop := ∀ h, (w h (endpointsOf real)).sig = false ∧ ∀ fam x, (w h (deleteCmd fam x)).sig = false

theorem drop_spared {w : World} {real : CStr} (hw : Spared w real) (all : Bool) (old : List CStr) (s s' : St) (o : Out Unit)
    (h : forEach (dropDirect all) old w s = (o, s')) : o = .ok () := by
  induction old generalizing s with
  | nil =>
    unfold forEach Sh.pure at h
    simp only [Prod.mk.injEq] at h
    exact h.1.symm
  | cons e es ih =>
    have hone : ∀ o1 s1, dropDirect all e w s = (o1, s1) → o1 = .ok () := by
      intro o1 s1 h1
      unfold dropDirect at h1
      rw [get_bind] at h1
      by_cases hc : all = false ∧ listed e s.endpoints = true
      · rw [if_pos hc] at h1
        unfold Sh.pure at h1
        simp only [Prod.mk.injEq] at h1
        exact h1.1.symm
      · rw [if_neg hc] at h1
        cases hm : directFam s e with
        | none =>
          rw [hm] at h1
          unfold Sh.pure at h1
          simp only [Prod.mk.injEq] at h1
          exact h1.1.symm
        | some fam =>
          rw [hm] at h1
          obtain ⟨_, h2 | h2 | h2⟩ := run_inv h1
          · exact h2.1
          · rw [show routeDelete fam e = deleteCmd fam e from rfl, (hw s.hist).2] at h2
            exact absurd h2.2 (by decide)
          · exact absurd h2.2.2.1 (by decide)
    rcases bind_inv h with ⟨_, s1, h1, h2⟩ | ⟨o1, h1, h2⟩
    · exact ih _ h2
    · rw [hone _ _ h1] at h2
      cases o <;> exact h2.elim

theorem frame_drop (all : Bool) (old : List CStr) : Frame (forEach (dropDirect all) old) :=
  frame_forEach (fun e => by
    refine frame_bind frame_get fun s => ?_
    by_cases hc : all = false ∧ listed e s.endpoints = true
    · rw [if_pos hc]; exact frame_pure _
    · rw [if_neg hc]
      cases directFam s e with
      | none => exact frame_pure _
      | some fam => exact frame_run _ _) old

theorem drop_outcome {w : World} {all : Bool} {old : List CStr} {s s' : St} {o : Out Unit} (h : forEach (dropDirect all) old w s = (o, s')) :
    ∃ n, o = .signal n ∨ o = .ok () := by
  induction old generalizing s with
  | nil =>
    unfold forEach Sh.pure at h
    simp only [Prod.mk.injEq] at h
    exact ⟨0, .inr h.1.symm⟩
  | cons e es ih =>
    rcases bind_inv h with ⟨_, s4, h5, h6⟩ | ⟨o2, h5, h6⟩
    · exact ih h6
    · unfold dropDirect at h5
      rw [get_bind] at h5
      by_cases hc : all = false ∧ listed e s.endpoints = true
      · rw [if_pos hc] at h5
        unfold Sh.pure at h5
        simp only [Prod.mk.injEq] at h5
        rw [← h5.1] at h6; cases o <;> exact h6.elim
      · rw [if_neg hc] at h5
        cases hm : directFam s e with
        | none =>
          rw [hm] at h5
          unfold Sh.pure at h5
          simp only [Prod.mk.injEq] at h5
          rw [← h5.1] at h6; cases o <;> exact h6.elim
        | some fam =>
          rw [hm] at h5
          obtain ⟨_, h7 | h7 | h7⟩ := run_inv h5
          · rw [h7.1] at h6; cases o <;> exact h6.elim
          · rw [h7.1] at h6
            cases o with
            | signal n => exact ⟨n, .inl rfl⟩
            | ok _ => exact h6.elim
            | exit _ => exact h6.elim
            | running => exact h6.elim
          · exact absurd h7.2.2.1 (by decide)

/-- `set_endpoint_direct_route`. -/
theorem setDirect_inv {c : Cfg} {w : World} (hk : KeepsRoute f.flag d v0 w) (hf : f.Has d) (hd : Plain d) {s0 s' : St} {o : Out Unit}
    (hfresh : Fresh d v0 w s0.real) (hg : Good f d v0 s0) (h : setDirect c w s0 = (o, s')) :
    (s'.real = s0.real ∧ s'.auto4 = s0.auto4 ∧ s'.auto6 = s0.auto6 ∧ s'.svcDns = s0.svcDns ∧ s'.svcSearch = s0.svcSearch ∧ s'.trap = s0.trap ∧ s'.tmp = s0.tmp) ∧
    (o = .ok () → Good f d v0 s' ∧ Learnt c.plat s') ∧ ((∀ n, o ≠ .exit n) ∧ o ≠ .running) ∧ (Spared w s0.real → Clean f d v0 s') := by
  unfold setDirect at h
  rw [get_bind] at h
  rcases bind_inv h with ⟨_, s1, h1, h⟩ | ⟨o1, h1, h2⟩
  swap
  · -- a signal while the gateways are listed
    rcases collectGateways_inv h1 with ⟨_, _, h3, _⟩ | ⟨n, b, g, h3, h4, h5⟩
    · rw [h3] at h2; cases o <;> exact h2.elim
    · rw [h3] at h2
      cases o with
      | signal m =>
        have hR : R f d v0 s' = R f d v0 s0 := R_append (b := b) (by rw [h4]) fun e he => by obtain ⟨q, hq⟩ := h5 e he; rw [hq]; exact off_query q
        refine ⟨by rw [h4]; exact ⟨rfl, rfl, rfl, rfl, rfl, rfl, rfl⟩, by simp, by simp, fun _ => ?_⟩
        have hc := hg.clean
        exact ⟨by rw [h4]; exact hc.fresh, by rw [hR, h4]; exact hc.route⟩
      | ok _ => exact h2.elim
      | exit _ => exact h2.elim
      | running => exact h2.elim
  obtain ⟨r4, r6, hs1⟩ : ∃ r4 r6, s1 = { s0 with hist := s0.hist ++ [(netstatOf .v4, r4), (netstatOf .v6, r6)], gw4 := gatewayIn c.plat r4.out, gw6 := gatewayIn c.plat r6.out } := by
    rcases collectGateways_inv h1 with ⟨r4, r6, _, _, h4⟩ | ⟨n, b, g, h3, h4, h5⟩
    · exact ⟨r4, r6, h4⟩
    · cases h3
  have hR1 : R f d v0 s1 = R f d v0 s0 := R_append (b := [(netstatOf .v4, r4), (netstatOf .v6, r6)]) (by rw [hs1]) fun e he => by
    simp only [List.mem_cons, List.not_mem_nil, or_false] at he
    rcases he with rfl | rfl <;> exact off_query _
  rcases bind_inv h with ⟨_, s2, h2, h⟩ | ⟨o1, h2, h3⟩
  swap
  · -- a signal while the endpoints are listed
    unfold collectEndpoints at h2
    rw [get_bind, modify_bind] at h2
    rcases bind_inv h2 with ⟨_, s3, h4, h5⟩ | ⟨o2, h4, h5⟩
    · unfold modify at h5
      simp only [Prod.mk.injEq] at h5
      rw [← h5.1] at h3; cases o <;> exact h3.elim
    · obtain ⟨h6, h7 | h7⟩ := call_inv h4
      · rw [h7.1] at h5; cases o1 <;> exact h5.elim
      · rw [h7.1] at h5
        cases o1 with
        | signal n =>
          cases o with
          | signal m =>
            refine ⟨by rw [h6, hs1]; exact ⟨rfl, rfl, rfl, rfl, rfl, rfl, rfl⟩, by simp, by simp, fun hw => ?_⟩
            have := (hw s1.hist).1
            rw [hs1] at this h7
            rw [show endpointsOf s0.real = Call.query [b!"wg", b!"show", s0.real, b!"endpoints"] from rfl, h7.2] at this
            exact absurd this (by decide)
          | ok _ => exact h3.elim
          | exit _ => exact h3.elim
          | running => exact h3.elim
        | ok _ => exact h5.elim
        | exit _ => exact h5.elim
        | running => exact h5.elim
  obtain ⟨re, hre, hs2⟩ : ∃ re, re = w s1.hist (endpointsOf s0.real) ∧ s2 = { s1 with hist := s1.hist ++ [(endpointsOf s0.real, re)], endpoints := hostsIn re.out } := by
    unfold collectEndpoints at h2
    rw [get_bind, modify_bind] at h2
    obtain ⟨re, s3, h4, h5⟩ := bind_ok h2
    obtain ⟨h6, _, h7⟩ := call_ok h4
    have h8 := modify_inv h5
    refine ⟨re, ?_, ?_⟩
    · rw [h6, hs1]; rfl
    · rw [h8, h7, hs1]; rfl
  have hR2 : R f d v0 s2 = R f d v0 s0 := by
    rw [← hR1]
    exact R_append (b := [(endpointsOf s0.real, re)]) (by rw [hs2]) fun e he => by rw [List.mem_singleton.1 he]; exact off_query _
  rw [get_bind] at h
  have hep : s2.endpoints = hostsIn re.out := by rw [hs2]
  have hplain : ∀ e ∈ s2.endpoints, Plain e := by rw [hep]; exact hostsIn_plain _
  have ha4 : s2.auto4 = s0.auto4 := by rw [hs2, hs1]
  have ha6 : s2.auto6 = s0.auto6 := by rw [hs2, hs1]
  have hreal : s2.real = s0.real := by rw [hs2, hs1]
  have hshown : d ∈ s2.endpoints → v0 = none := by
    intro hx
    rcases hfresh with h | h
    · exact h
    · rw [hep, hre] at hx; exact absurd hx (h _)
  generalize hall : decide (s0.gw4 ≠ s2.gw4 ∨ s0.gw6 ≠ s2.gw6) = all at h
  generalize hold : (if all = true then addMissing s0.endpoints s2.endpoints else s0.endpoints) = old at h
  have hmis := addMissing_mem s0.endpoints s2.endpoints hg.plain hplain
  have hop : ∀ e ∈ old, Plain e := by
    rw [← hold]
    by_cases ha : all = true
    · rw [if_pos ha]; exact hmis.1
    · rw [if_neg ha]; exact hg.plain
  have hsub : ∀ x ∈ s0.endpoints, x ∈ old := by
    rw [← hold]
    by_cases ha : all = true
    · rw [if_pos ha]; exact fun x hx => (hmis.2 x).2 (.inl hx)
    · rw [if_neg ha]; exact fun x hx => hx
  rcases bind_inv h with ⟨_, s3, h3, h⟩ | ⟨o1, h3, h4⟩
  swap
  · -- a signal while routes are deleted
    have hsame := frame_drop all old w s2
    rw [h3] at hsame
    replace hsame : Same s2 s' := hsame
    have hsig := drop_outcome h3
    have hfin : (∃ n, o = .signal n) := by
      obtain ⟨n, rfl | rfl⟩ := hsig
      · cases o with
        | signal m => exact ⟨m, rfl⟩
        | ok _ => exact h4.elim
        | exit _ => exact h4.elim
        | running => exact h4.elim
      · cases o <;> exact h4.elim
    obtain ⟨n, rfl⟩ := hfin
    refine ⟨by rw [hsame, hs2, hs1]; exact ⟨rfl, rfl, rfl, rfl, rfl, rfl, rfl⟩, by simp, by simp, fun hw => ?_⟩
    have := drop_spared hw all old s2 s' o1 h3
    rw [this] at h4
    exact h4.elim
  obtain ⟨hsame3, hR3⟩ := drop_ok hk hf hd all old s2 s3 () hplain h3
  have h3ep : s3.endpoints = s2.endpoints := by rw [hsame3]
  have h34 : s3.auto4 = s2.auto4 := by rw [hsame3]
  have h36 : s3.auto6 = s2.auto6 := by rw [hsame3]
  have hauto : s2.auto f = s0.auto f := auto_same ha4 ha6
  -- after the deletions only routes of endpoints that stay are left
  have hR3' : R f d v0 s3 = if all = false ∧ d ∈ s0.endpoints ∧ d ∈ s2.endpoints ∧ s0.auto f = true then some (directRoute f (s0.gw f)) else v0 := by
    rw [hR3, hR2, hg.route, hauto]
    by_cases hau : s0.auto f = true
    · by_cases h0 : d ∈ s0.endpoints
      · by_cases h5 : all = true ∨ d ∉ s2.endpoints
        · rw [if_pos ⟨hsub d h0, hau, h5⟩, if_neg]
          · exact (hg.fresh h0).symm
          · rintro ⟨h6, _, h7, _⟩
            rcases h5 with h5 | h5
            · rw [h6] at h5; exact absurd h5 (by decide)
            · exact h5 h7
        · rw [if_neg (fun h => h5 h.2.2), if_pos ⟨h0, hau⟩, if_pos]
          refine ⟨by cases all with | true => exact absurd (.inl rfl) h5 | false => rfl, h0, ?_, hau⟩
          by_contra h7
          exact h5 (.inr h7)
      · rw [if_neg (c := all = false ∧ _) (fun h => h0 h.2.1), if_neg (c := d ∈ s0.endpoints ∧ _) (fun h => h0 h.1)]
        by_cases h5 : d ∈ old ∧ s0.auto f = true ∧ (all = true ∨ d ∉ s2.endpoints)
        · rw [if_pos h5]
          have h6 := h5.1
          rw [← hold] at h6
          by_cases ha : all = true
          · rw [if_pos ha] at h6
            rcases (hmis.2 d).1 h6 with h7 | h7
            · exact absurd h7 h0
            · exact (hshown h7).symm
          · rw [if_neg ha] at h6; exact absurd h6 h0
        · rw [if_neg h5]
    · rw [if_neg (fun h => hau h.2.1), if_neg (fun h => hau h.2), if_neg (fun h => hau h.2.2.2)]
  have hclean3 : Clean f d v0 s3 := by
    refine ⟨by rw [h3ep]; exact hshown, ?_⟩
    rw [hR3', h3ep]
    by_cases h5 : all = false ∧ d ∈ s0.endpoints ∧ d ∈ s2.endpoints ∧ s0.auto f = true
    · exact .inr h5.2.2.1
    · rw [if_neg h5]; exact .inl rfl
  rcases bind_inv h with ⟨added, s4, h4, h⟩ | ⟨o1, h4, h5⟩
  swap
  · -- a signal while routes are added
    obtain ⟨hsame4, hR4⟩ := add_any (f := f) (d := d) (v0 := v0) w all old s2.endpoints [] s3 s' o1 h4
    have hfin : ∀ es added s, ∀ o s', addDirect all old added es w s = (o, s') → (∃ n, o = .signal n) ∨ ∃ l, o = .ok l := by
      intro es
      induction es with
      | nil =>
        intro added s o s' h
        unfold addDirect Sh.pure at h
        simp only [Prod.mk.injEq] at h
        exact .inr ⟨_, h.1.symm⟩
      | cons e es ih =>
        intro added s o s' h
        unfold addDirect at h
        by_cases hc : all = false ∧ listed e old = true
        · rw [if_pos hc] at h; exact ih _ _ _ _ h
        · rw [if_neg hc, get_bind] at h
          cases hm : directFam s e with
          | none => rw [hm] at h; exact ih _ _ _ _ h
          | some fam =>
            rw [hm] at h
            rcases bind_inv h with ⟨_, s1, h1, h2⟩ | ⟨o1, h1, h2⟩
            · exact ih _ _ _ _ h2
            · obtain ⟨_, h7 | h7 | h7⟩ := run_inv h1
              · rw [h7.1] at h2; cases o <;> exact h2.elim
              · rw [h7.1] at h2
                cases o with
                | signal n => exact .inl ⟨n, rfl⟩
                | ok _ => exact h2.elim
                | exit _ => exact h2.elim
                | running => exact h2.elim
              · exact absurd h7.2.2.1 (by decide)
    have : ∃ n, o = .signal n := by
      rcases hfin _ _ _ _ _ h4 with ⟨n, rfl⟩ | ⟨l, rfl⟩
      · cases o with
        | signal m => exact ⟨m, rfl⟩
        | ok _ => exact h5.elim
        | exit _ => exact h5.elim
        | running => exact h5.elim
      · cases o <;> exact h5.elim
    obtain ⟨n, rfl⟩ := this
    refine ⟨by rw [hsame4, hsame3, hs2, hs1]; exact ⟨rfl, rfl, rfl, rfl, rfl, rfl, rfl⟩, by simp, by simp, fun _ => ?_⟩
    have h4ep : s'.endpoints = s3.endpoints := by rw [hsame4]
    refine ⟨by rw [h4ep]; exact hclean3.fresh, ?_⟩
    rw [h4ep]
    rcases hR4 with h6 | h6
    · rw [h6]; exact hclean3.route
    · rw [h3ep]; exact .inr h6
  obtain ⟨hsame4, hres, hR4⟩ := add_ok hk hf hd all old hop s2.endpoints [] hplain s3 s4 added h4
  unfold modify at h
  simp only [Prod.mk.injEq] at h
  obtain ⟨rfl, rfl⟩ := h
  have h44 : s4.auto4 = s0.auto4 := by rw [hsame4]; exact h34.trans ha4
  have h46 : s4.auto6 = s0.auto6 := by rw [hsame4]; exact h36.trans ha6
  have hdf : ∀ x, directFam { s4 with endpoints := added } x = directFam s0 x := fun x => directFam_same (s := s0) h44 h46 x
  have hdf3 : ∀ x, directFam s3 x = directFam s0 x := fun x => directFam_same (h34.trans ha4) (h36.trans ha6) x
  -- the list is made of the endpoints that have a route
  have hlist : ∀ x, x ∈ added ↔ x ∈ hostsIn re.out ∧ directFam s0 x ≠ none := by
    intro x
    rw [hres x, hdf3, ← hep]
    constructor
    · rintro (h6 | ⟨h6, h7 | h7⟩)
      · simp at h6
      · refine ⟨h6, hg.routed x ?_⟩
        have h8 := h7.2
        rw [← hold, h7.1, if_neg (by decide)] at h8
        exact h8
      · exact ⟨h6, h7⟩
    · rintro ⟨h6, h7⟩
      exact .inr ⟨h6, .inr h7⟩
  have hlearn : Learnt c.plat { s4 with endpoints := added } := by
    refine ⟨r4, r6, re, ?_, ?_, ?_, fun x => ?_⟩
    · obtain ⟨b1, hb1, hb2⟩ := adds_forEach (fun e => adds_dropDirect s0.real all e) old w s2
      rw [h3] at hb1
      obtain ⟨b3, hb3, hb4⟩ := adds_addDirect s0.real all old s2.endpoints [] w s3
      rw [h4] at hb3
      refine ⟨s0.hist, b1 ++ b3, ?_, ?_⟩
      · change s4.hist = _
        rw [hb3, hb1, hs2, hs1]
        simp [show s4.real = s0.real by rw [hsame4, hsame3, hs2, hs1]]
      · intro e he
        change e.1 ≠ endpointsOf s4.real
        rw [show s4.real = s0.real by rw [hsame4, hsame3, hs2, hs1]]
        rcases List.mem_append.1 he with he | he
        · exact hb2 e he
        · exact hb4 e he
    · change s4.gw4 = _
      rw [hsame4, hsame3, hs2, hs1]
    · change s4.gw6 = _
      rw [hsame4, hsame3, hs2, hs1]
    · rw [hdf]; exact hlist x
  have hgw3 : s3.gw f = s2.gw f := gw_same (by rw [hsame3]) (by rw [hsame3])
  have hgood : Good f d v0 { s4 with endpoints := added } := by
    refine ⟨fun e he => hostsIn_plain re.out e ((hlist e).1 he).1, fun e he => by rw [hdf]; exact ((hlist e).1 he).2,
      fun he => hshown (by rw [hep]; exact ((hlist d).1 he).1), ?_⟩
    change R f d v0 s4 = if d ∈ added ∧ St.auto { s4 with endpoints := added } f = true then some (directRoute f (St.gw { s4 with endpoints := added } f)) else v0
    have e1 : St.auto { s4 with endpoints := added } f = s0.auto f := auto_same (s := s0) h44 h46
    have e2 : St.gw { s4 with endpoints := added } f = s2.gw f := gw_same (s := s2) (by change s4.gw4 = _; rw [hsame4, hsame3]) (by change s4.gw6 = _; rw [hsame4, hsame3])
    have e3 : s3.auto f = s0.auto f := auto_same (h34.trans ha4) (h36.trans ha6)
    rw [e1, e2, hR4, e3, hgw3]
    by_cases hau : s0.auto f = true
    · have hmem : d ∈ added ↔ d ∈ s2.endpoints := by
        rw [hlist, hep]
        exact ⟨fun h => h.1, fun h => ⟨h, by rw [(directFam_eq hf s0).2 hau]; simp⟩⟩
      by_cases h6 : d ∈ s2.endpoints
      · rw [if_pos (c := d ∈ added ∧ _) ⟨hmem.2 h6, hau⟩]
        by_cases h7 : all = true ∨ d ∉ old
        · have h8 : R f d v0 s3 = none := by
            rw [hR3', if_neg]
            · exact hshown h6
            · rintro ⟨h8, h9, _⟩
              rcases h7 with h7 | h7
              · rw [h8] at h7; exact absurd h7 (by decide)
              · exact h7 (hsub d h9)
          rw [if_pos ⟨h6, hau, h7, h8⟩]
        · rw [if_neg (fun h => h7 h.2.2.1), hR3']
          have ha : all = false := by cases all with | true => exact absurd (.inl rfl) h7 | false => rfl
          have h8 : d ∈ s0.endpoints := by
            by_contra h9
            refine h7 (.inr fun h10 => h9 ?_)
            rw [← hold, ha, if_neg (by decide)] at h10
            exact h10
          rw [if_pos ⟨ha, h8, h6, hau⟩]
          rw [ha] at hall
          simp only [decide_eq_false_iff_not, not_or, not_not] at hall
          rw [gw_same (f := f) hall.1 hall.2]
      · rw [if_neg (c := d ∈ added ∧ _) (fun h => h6 (hmem.1 h.1)), if_neg (fun h => h6 h.1), hR3', if_neg (fun h => h6 h.2.2.1)]
    · rw [if_neg (fun h => hau h.2.1), if_neg (c := d ∈ added ∧ _) (fun h => hau h.2), hR3', if_neg (fun h => hau h.2.2.2)]
  refine ⟨by change s4.real = _ ∧ s4.auto4 = _ ∧ s4.auto6 = _ ∧ s4.svcDns = _ ∧ s4.svcSearch = _ ∧ s4.trap = _ ∧ s4.tmp = _; rw [hsame4, hsame3, hs2, hs1]; exact ⟨rfl, rfl, rfl, rfl, rfl, rfl, rfl⟩,
    fun _ => ⟨hgood, hlearn⟩, by simp, fun _ => hgood.clean⟩

end
end WG.Bsd
