import Verif.Proof.BsdMonitor
/-! The routes to the endpoints over the whole of `up` and the monitor. -/
namespace WG.Bsd
open WG.Quick (Call Reply Ev World Out calm endpointHost_iff routesIn isRoute isRoute_iff)
open WG.Spec.Quick WG.Spec.Bsd

variable {α β : Type}

/-- Whatever happens, the states before and after are so related. -/
def Rel (Q : St → St → Prop) (m : Sh α) : Prop := ∀ w s, Q s (m w s).2

/-- Reflexive and transitive. -/
structure Pre (Q : St → St → Prop) : Prop where
  refl : ∀ s, Q s s
  trans : ∀ {a b c}, Q a b → Q b c → Q a c

section
variable {Q : St → St → Prop}
theorem rel_pure (hQ : Pre Q) (a : α) : Rel Q (Sh.pure a) := fun _ s => hQ.refl s
theorem rel_exit (hQ : Pre Q) (n : Nat) : Rel Q (exitWith n : Sh α) := fun _ s => hQ.refl s
theorem rel_giveUp (hQ : Pre Q) : Rel Q (giveUp : Sh α) := fun _ s => hQ.refl s
theorem rel_get (hQ : Pre Q) : Rel Q get := fun _ s => hQ.refl s
theorem rel_modify {g : St → St} (h : ∀ s, Q s (g s)) : Rel Q (modify g) := fun _ s => h s
theorem rel_call {c : Call} (h : ∀ s r, Q s (push s c r)) : Rel Q (call c) := by intro w s; rw [call_eq]; exact h _ _
theorem rel_run {e : Bool} {c : Call} (h : ∀ s r, Q s (push s c r)) : Rel Q (run e c) := by intro w s; rw [run_eq]; exact h _ _
theorem rel_bind (hQ : Pre Q) {m : Sh α} {g : α → Sh β} (hm : Rel Q m) (hg : ∀ a, Rel Q (g a)) : Rel Q (m.bind g) := by
  intro w s
  rcases e : (m.bind g) w s with ⟨o, s'⟩
  have h := hm w s
  rcases bind_inv e with ⟨a, s1, h1, h2⟩ | ⟨o1, h1, _⟩
  · rw [h1] at h
    have h3 := hg a w s1
    rw [h2] at h3
    exact hQ.trans h h3
  · rw [h1] at h; exact h
theorem rel_forEach (hQ : Pre Q) {γ : Type} {g : γ → Sh Unit} (hg : ∀ x, Rel Q (g x)) (xs : List γ) : Rel Q (forEach g xs) := by
  induction xs with
  | nil => exact rel_pure hQ _
  | cons x xs ih => exact rel_bind hQ (hg x) fun _ => ih
theorem rel_ite {p : Prop} [Decidable p] {a b : Sh α} (ha : p → Rel Q a) (hb : ¬ p → Rel Q b) : Rel Q (if p then a else b) := by
  by_cases h : p
  · rw [if_pos h]; exact ha h
  · rw [if_neg h]; exact hb h
theorem rel_of {m : Sh α} (h : Rel Q m) {w : World} {s s' : St} {o : Out α} (e : m w s = (o, s')) : Q s s' := by
  have := h w s
  rw [e] at this
  exact this
end

/-- Before the routes to the endpoints are made: nothing about them changes. -/
def Early (f : Family) (d : CStr) (v0 : Option Via) (s s' : St) : Prop :=
  s'.auto4 = s.auto4 ∧ s'.auto6 = s.auto6 ∧ s'.gw4 = s.gw4 ∧ s'.gw6 = s.gw6 ∧ s'.endpoints = s.endpoints ∧ R f d v0 s' = R f d v0 s

/-- Afterwards: nor does the interface's name, and the endpoints are not listed. -/
def Late (f : Family) (d : CStr) (v0 : Option Via) (s s' : St) : Prop :=
  Still f d v0 s s' ∧ ∃ b, s'.hist = s.hist ++ b ∧ ∀ e ∈ b, NoEp s.real e.1

section
variable {f : Family} {d : CStr} {v0 : Option Via}

theorem preEarly : Pre (Early f d v0) := by
  refine ⟨fun s => ⟨rfl, rfl, rfl, rfl, rfl, rfl⟩, ?_⟩
  rintro a b c ⟨a1, a2, a3, a4, a5, a6⟩ ⟨b1, b2, b3, b4, b5, b6⟩
  exact ⟨b1.trans a1, b2.trans a2, b3.trans a3, b4.trans a4, b5.trans a5, b6.trans a6⟩

theorem preLate : Pre (Late f d v0) := by
  refine ⟨fun s => ⟨Still.refl s, [], by simp, by simp⟩, ?_⟩
  rintro a b c ⟨h1, l1, e1, n1⟩ ⟨h2, l2, e2, n2⟩
  refine ⟨h1.trans h2, l1 ++ l2, by rw [e2, e1, List.append_assoc], ?_⟩
  intro e he
  rcases List.mem_append.1 he with he | he
  · exact n1 e he
  · rw [← h1.1]; exact n2 e he

theorem early_push {c : Call} (h : Off f d c) (s : St) (r : Reply) : Early f d v0 s (push s c r) := ⟨rfl, rfl, rfl, rfl, rfl, R_off h r⟩
theorem late_push {c : Call} (h : Off f d c) (h2 : ∀ real, NoEp real c) (s : St) (r : Reply) : Late f d v0 s (push s c r) :=
  ⟨still_push h r, [(c, r)], rfl, by intro e he; rw [List.mem_singleton.1 he]; exact h2 _⟩

theorem Late.early {s s' : St} (h : Late f d v0 s s') : Early f d v0 s s' := ⟨h.1.2.1, h.1.2.2.1, h.1.2.2.2.1, h.1.2.2.2.2.1, h.1.2.2.2.2.2.1, h.1.2.2.2.2.2.2⟩
theorem early_of_late {m : Sh α} (h : Rel (Late f d v0) m) : Rel (Early f d v0) m := fun w s => (h w s).early

theorem noEp_query {q : List CStr} (h : q.head? ≠ some b!"wg") (real : CStr) : NoEp real (.query q) := by
  unfold NoEp endpointsOf
  intro h2
  simp only [Call.query.injEq] at h2
  exact h (by rw [h2]; rfl)

/-- A question of a program other than `wg`. -/
theorem late_query {q : List CStr} (h : q.head? ≠ some b!"wg") (s : St) (r : Reply) : Late f d v0 s (push s (.query q) r) :=
  late_push (off_query q) (noEp_query h) s r
theorem late_act {a : List CStr} {i : List UInt8} (h : a.head? ≠ some b!"route") (s : St) (r : Reply) : Late f d v0 s (push s (.act a i) r) :=
  late_push (off_act h) (fun real => noEp_act real a i) s r

/-! The functions that do not concern the routes. -/

theorem rel_makeTemp : Rel (Late f d v0) makeTemp :=
  rel_bind preLate (rel_call (fun s r => by exact late_act (by decide) s r)) fun _ =>
  rel_bind preLate (rel_call (fun s r => late_query (by simp) s r)) fun _ =>
  rel_ite (fun _ => rel_exit preLate _) fun _ => rel_modify fun s => by exact preLate.refl s

theorem late_svc (s : St) (a b : List (CStr × CStr)) : Late f d v0 s { s with svcDns := a, svcSearch := b } :=
  ⟨⟨rfl, rfl, rfl, rfl, rfl, rfl, rfl⟩, [], by simp, by simp⟩

theorem rel_collectService (service : CStr) : Rel (Late f d v0) (collectService service) := by
  refine rel_ite (fun _ => rel_exit preLate _) fun _ => ?_
  refine rel_bind preLate (rel_get preLate) fun s => rel_ite (fun _ => rel_pure preLate _) fun _ => ?_
  refine rel_bind preLate (rel_call (fun s r => late_query (by simp) s r)) fun r => rel_ite (fun _ => rel_exit preLate _) fun _ => ?_
  refine rel_bind preLate (rel_ite (fun _ => rel_pure preLate _) fun _ => rel_modify fun s => by exact late_svc s _ s.svcSearch) fun _ => ?_
  refine rel_bind preLate (rel_call (fun s r => late_query (by simp) s r)) fun r => rel_ite (fun _ => rel_exit preLate _) fun _ => ?_
  exact rel_ite (fun _ => rel_pure preLate _) fun _ => rel_modify fun s => by exact late_svc s s.svcDns _

theorem rel_setDnsDarwin (c : Cfg) : Rel (Late f d v0) (setDnsDarwin c) := by
  refine rel_bind preLate ?_ fun _ => rel_bind preLate (rel_get preLate) fun s => rel_forEach preLate (fun x => ?_) _
  · refine rel_bind preLate (rel_call (fun s r => late_query (by simp) s r)) fun r => ?_
    exact rel_bind preLate (rel_forEach preLate rel_collectService _) fun _ => rel_modify fun s => by exact late_svc s _ _
  · refine rel_bind preLate (rel_call (fun s r => by exact late_act (by simp) s r)) fun r => rel_ite (fun _ => rel_pure preLate _) fun _ => ?_
    exact rel_run (fun s r => by exact late_act (by simp) s r)

theorem rel_autoMtuDarwin (real : CStr) : Rel (Late f d v0) (autoMtuDarwin real) := by
  refine rel_bind preLate (rel_call (fun s r => late_query (by simp) s r)) fun r => ?_
  refine rel_bind preLate (rel_ite (fun _ => rel_pure preLate _) fun _ => rel_bind preLate (rel_call (fun s r => late_query (by simp) s r)) fun _ => rel_pure preLate _) fun _ => ?_
  refine rel_bind preLate (rel_call (fun s r => late_query (by simp) s r)) fun r => rel_ite (fun _ => rel_pure preLate _) fun _ => ?_
  exact rel_run (fun s r => by exact late_act (by simp) s r)

theorem rel_setMtuDarwin (c : Cfg) (h : c.plat = .darwin) : Rel (Late f d v0) (setMtu c) := by
  refine rel_bind preLate (rel_get preLate) fun s => rel_ite (fun _ => rel_run (fun s r => by exact late_act (by simp) s r)) fun _ => ?_
  rw [if_pos h]
  exact rel_autoMtuDarwin _

theorem rel_hooks (c : Cfg) (hooks : List CStr) : Rel (Late f d v0) (executeHooks c hooks) :=
  rel_forEach preLate (fun h => rel_bind preLate (rel_get preLate) fun s => rel_run fun s r =>
    late_push (off_hook _) (fun real => by unfold NoEp endpointsOf; intro h; cases h) s r) hooks

theorem rel_monitorAlarm (c : Cfg) : Rel (Late f d v0) (monitorAlarm c) := by
  unfold monitorAlarm
  cases c.plat with
  | freebsd => exact rel_pure preLate _
  | openbsd => exact rel_pure preLate _
  | darwin =>
    refine rel_ite (fun _ => rel_pure preLate _) fun _ => rel_bind preLate (rel_call (fun s r => late_query (by simp) s r)) fun r => ?_
    exact rel_ite (fun _ => rel_setDnsDarwin c) fun _ => rel_pure preLate _

theorem rel_monitorDarwin (c : Cfg) : Rel (Late f d v0) (monitorDarwin c) := by
  unfold monitorDarwin
  cases h : c.plat with
  | freebsd => exact rel_pure preLate _
  | openbsd => exact rel_pure preLate _
  | darwin =>
    refine rel_bind preLate (rel_ite (fun _ => rel_setMtuDarwin c h) fun _ => rel_pure preLate _) fun _ => ?_
    exact rel_ite (fun _ => rel_pure preLate _) fun _ => rel_setDnsDarwin c

/-! ### The loop -/

/-- Between events. -/
structure Calm (c : Cfg) (f : Family) (d : CStr) (v0 : Option Via) (s : St) : Prop where
  good : Good f d v0 s
  learnt : s.auto4 = true ∨ s.auto6 = true → Learnt c.plat s

theorem Calm.late {c : Cfg} {s s' : St} (h : Calm c f d v0 s) (h2 : Late f d v0 s s') : Calm c f d v0 s' := by
  obtain ⟨h3, b, h4, h5⟩ := h2
  have h3' := h3
  obtain ⟨a1, a2, a3, a4, a5, a6, a7⟩ := h3'
  refine ⟨h.good.still h3, fun ha => ?_⟩
  rw [a2, a3] at ha
  exact (h.learnt ha).grow a1 a2 a3 a4 a5 a6 b h4 h5

theorem Fresh.still {w : World} {s s' : St} (h : Fresh d v0 w s.real) (h2 : s'.real = s.real) : Fresh d v0 w s'.real := by rw [h2]; exact h

/-- How a step can end. -/
structure After (c : Cfg) (f : Family) (d : CStr) (v0 : Option Via) (w : World) (s s' : St) (stopped : Prop) : Prop where
  real : s'.real = s.real
  auto4 : s'.auto4 = s.auto4
  auto6 : s'.auto6 = s.auto6
  calm : ¬ stopped → Calm c f d v0 s'
  clean : Spared w s.real → Clean f d v0 s'

theorem After.of_late {c : Cfg} {w : World} {s s' : St} {p : Prop} (h : Calm c f d v0 s) (h2 : Late f d v0 s s') : After c f d v0 w s s' p :=
  ⟨h2.1.1, h2.1.2.1, h2.1.2.2.1, fun _ => h.late h2, fun _ => (h.late h2).good.clean⟩

theorem After.trans {c : Cfg} {w : World} {s s1 s' : St} {p q : Prop} (h1 : After c f d v0 w s s1 p) (h2 : After c f d v0 w s1 s' q) : After c f d v0 w s s' q :=
  ⟨h2.real.trans h1.real, h2.auto4.trans h1.auto4, h2.auto6.trans h1.auto6, h2.calm, fun hw => h2.clean (by rw [h1.real]; exact hw)⟩

/-- Ended by a signal. -/
def Signalled : Out α → Prop
  | .signal _ => True
  | _ => False

theorem signalled_of {o1 : Out α} {o : Out β} (h : Stopped o1 o) : Signalled o1 → Signalled o := by
  intro h2
  cases o1 <;> cases o <;> first | exact h.elim | exact h2.elim | trivial

variable {c : Cfg} {w : World} (hk : KeepsRoute f.flag d v0 w) (hf : f.Has d) (hd : Plain d)
include hk hf hd

theorem directIfAuto_after {s s' : St} {o : Out Unit} (hfr : Fresh d v0 w s.real) (hc : Calm c f d v0 s) (h : directIfAuto c w s = (o, s')) :
    After c f d v0 w s s' (Signalled o) := by
  unfold directIfAuto at h
  rw [get_bind] at h
  by_cases ha : s.auto4 = true ∨ s.auto6 = true
  · rw [if_pos ha] at h
    obtain ⟨⟨h1, h2, h3, _⟩, h5, h6, h7⟩ := setDirect_inv hk hf hd hfr hc.good h
    refine ⟨h1, h2, h3, fun hs => ?_, h7⟩
    cases o with
    | ok u => obtain ⟨h8, h9⟩ := h5 rfl; exact ⟨h8, fun _ => h9⟩
    | exit n => exact absurd rfl (h6.1 n)
    | running => exact absurd rfl h6.2
    | signal n => exact absurd trivial hs
  · rw [if_neg ha] at h
    unfold Sh.pure at h
    simp only [Prod.mk.injEq] at h
    obtain ⟨rfl, rfl⟩ := h
    exact .of_late hc (preLate.refl _)

theorem step_after {s s' : St} {o : Out Bool} (hfr : Fresh d v0 w s.real) (hc : Calm c f d v0 s) (h : monitorStep c w s = (o, s')) :
    After c f d v0 w s s' (Signalled o) := by
  unfold monitorStep at h
  rcases bind_inv h with ⟨_, s1, h1, h⟩ | ⟨o1, h1, _⟩
  swap
  · exact .of_late hc (rel_of (rel_monitorAlarm c) h1)
  have l1 : Late f d v0 s s1 := rel_of (rel_monitorAlarm c) h1
  rcases bind_inv h with ⟨r, s2, h2, h⟩ | ⟨o1, h2, _⟩
  swap
  · exact .of_late hc (preLate.trans l1 (rel_of (rel_call (fun s r => late_query (by simp) s r)) h2))
  have l2 : Late f d v0 s s2 := preLate.trans l1 (rel_of (rel_call (fun s r => late_query (by simp) s r)) h2)
  by_cases hr : r.status ≠ 0
  · rw [if_pos hr] at h
    exact .of_late hc (preLate.trans l2 (rel_of (rel_pure preLate _) h))
  rw [if_neg hr] at h
  by_cases hp : b!"RTM_".isPrefixOf (WG.Quick.readLine r.out) = true
  swap
  · rw [if_neg hp] at h
    exact .of_late hc (preLate.trans l2 (rel_of (rel_pure preLate _) h))
  rw [if_pos hp, get_bind] at h
  rcases bind_inv h with ⟨i, s3, h3, h⟩ | ⟨o1, h3, _⟩
  swap
  · exact .of_late hc (preLate.trans l2 (rel_of (rel_call (fun s r => late_query (by simp) s r)) h3))
  have l3 : Late f d v0 s s3 := preLate.trans l2 (rel_of (rel_call (fun s r => late_query (by simp) s r)) h3)
  by_cases hi : i.status ≠ 0
  · rw [if_pos hi] at h
    exact .of_late hc (preLate.trans l3 (rel_of (rel_pure preLate _) h))
  rw [if_neg hi] at h
  rcases bind_inv h with ⟨_, s4, h4, h⟩ | ⟨o1, h4, h5⟩
  swap
  · have a := directIfAuto_after hk hf hd (hfr.still l3.1.1) (hc.late l3) h4
    exact (After.of_late (p := False) hc l3).trans ⟨a.real, a.auto4, a.auto6, fun hs => a.calm fun h6 => hs (signalled_of h5 h6), a.clean⟩
  have a := directIfAuto_after hk hf hd (hfr.still l3.1.1) (hc.late l3) h4
  have hc4 : Calm c f d v0 s4 := a.calm (by simp [Signalled])
  have a' := (After.of_late (p := False) hc l3).trans a
  have l5 : Late f d v0 s4 s' := by
    rcases bind_inv h with ⟨_, s5, h5, h⟩ | ⟨o1, h5, _⟩
    · exact preLate.trans (rel_of (rel_monitorDarwin c) h5) (rel_of (rel_pure preLate _) h)
    · exact rel_of (rel_monitorDarwin c) h5
  exact a'.trans (.of_late hc4 l5)

theorem loop_after (n : Nat) {s s' : St} {o : Out Unit} (hfr : Fresh d v0 w s.real) (hc : Calm c f d v0 s) (h : monitorLoop c n w s = (o, s')) :
    After c f d v0 w s s' (Signalled o) := by
  induction n generalizing s with
  | zero =>
    unfold monitorLoop giveUp at h
    simp only [Prod.mk.injEq] at h
    obtain ⟨rfl, rfl⟩ := h
    exact .of_late hc (preLate.refl _)
  | succ n ih =>
    unfold monitorLoop at h
    rcases bind_inv h with ⟨b, s1, h1, h⟩ | ⟨o1, h1, h2⟩
    · have a := step_after hk hf hd hfr hc h1
      have hc1 := a.calm (by simp [Signalled])
      cases b with
      | true => exact a.trans (ih (hfr.still a.real) hc1 h)
      | false => exact a.trans (.of_late hc1 (rel_of (w := w) (rel_pure preLate _) h))
    · have a := step_after hk hf hd hfr hc h1
      exact ⟨a.real, a.auto4, a.auto6, fun hs => a.calm fun h3 => hs (signalled_of h2 h3), a.clean⟩

theorem monitor_after (n : Nat) {s s' : St} {o : Out Unit} (hfr : Fresh d v0 w s.real) (hc : Calm c f d v0 s) (h : monitor c n w s = (o, s')) :
    After c f d v0 w s s' (Signalled o) := by
  unfold monitor at h
  have r1 : Rel (Late f d v0) (if c.plat = .freebsd then makeTemp else Sh.pure ()) := rel_ite (fun _ => rel_makeTemp) fun _ => rel_pure preLate _
  rcases bind_inv h with ⟨_, s1, h1, h⟩ | ⟨o1, h1, _⟩
  swap
  · exact .of_late hc (rel_of r1 h1)
  have l1 : Late f d v0 s s1 := rel_of r1 h1
  rw [setTrap_bind] at h
  have l2 : Late f d v0 s { s1 with trap := .daemon } := preLate.trans l1 ⟨⟨rfl, rfl, rfl, rfl, rfl, rfl, rfl⟩, [], by simp, by simp⟩
  have r3 : Rel (Late f d v0) (call (act [b!"route", b!"-n", b!"monitor", b!"&"])) := rel_call fun s r => late_push
    ⟨by unfold act deleteCmd cmd; intro h; simp at h, fun via => by unfold act addCmd cmd; intro h; simp at h⟩ (fun real => by exact noEp_act real _ _) s r
  rcases bind_inv h with ⟨_, s3, h3, h⟩ | ⟨o1, h3, _⟩
  swap
  · exact .of_late hc (preLate.trans l2 (rel_of r3 h3))
  have l3 := preLate.trans l2 (rel_of r3 h3)
  have a3 : After c f d v0 w s s3 False := .of_late hc l3
  rcases bind_inv h with ⟨_, s4, h4, h⟩ | ⟨o1, h4, h5⟩
  · have a := loop_after hk hf hd n (hfr.still l3.1.1) (hc.late l3) h4
    have hc4 := a.calm (by simp [Signalled])
    exact (a3.trans a).trans (.of_late hc4 (rel_of (rel_run fun s r => by exact late_act (by simp) s r) h))
  · have a := loop_after hk hf hd n (hfr.still l3.1.1) (hc.late l3) h4
    exact a3.trans ⟨a.real, a.auto4, a.auto6, fun hs => a.calm fun h6 => hs (signalled_of h5 h6), a.clean⟩

end
end WG.Bsd
