import Verif.Spec.QuickRun
/-! A program logic for the wg-quick model: what a piece of script does to the history. -/
namespace WG.Quick
open WG.Spec.Quick

/-- An event of normal progress: no signal, and commands succeed (or their failure is excused). -/
def Good (X : Call → Prop) (e : Ev) : Prop := e.2.sig = false ∧ (isAct e.1 = true → e.2.status = 0 ∨ X e.1)

/-- The events with which a piece of script stops short. -/
def EndsBy {α : Type} (Z : Nat → List Ev → Prop) (o : Out α) (suf : List Ev) : Prop :=
  match o with
  | .ok _ => False
  | .exit n => (∃ c r, suf = [(c, r)] ∧ isAct c = true ∧ r.sig = false ∧ r.status = n ∧ n ≠ 0) ∨ Z n suf
  | .signal n => ∃ c r, suf = [(c, r)] ∧ r.sig = true ∧ r.status = n
  | .running => suf = []

/-- The replies in `l`, after the history `h`, are the environment's. -/
def Answers (w : World) (h : List Ev) (l : List Ev) : Prop := ∀ a e b, l = a ++ e :: b → e.2 = w (h ++ a) e.1

theorem answers_nil (w : World) (h : List Ev) : Answers w h [] := by
  intro a e b hl
  simp at hl

theorem answers_one (w : World) (h : List Ev) (c : Call) : Answers w h [(c, w h c)] := by
  intro a e b hl
  rcases a with - | ⟨x, a⟩
  · simp only [List.nil_append, List.cons.injEq] at hl
    rw [← hl.1, List.append_nil]
  · simp at hl

theorem Answers.append {w : World} {h l1 l2 : List Ev} (h1 : Answers w h l1) (h2 : Answers w (h ++ l1) l2) : Answers w h (l1 ++ l2) := by
  intro a e b hl
  rcases List.append_eq_append_iff.1 hl with ⟨t, rfl, ht⟩ | ⟨t, h3, ht⟩
  · have := h2 t e b ht
    rw [this, List.append_assoc]
  · cases t with
    | nil =>
      rw [List.append_nil] at h3
      subst h3
      have := h2 [] e b (by simpa using ht.symm)
      rw [this, List.append_nil]
    | cons x t =>
      simp only [List.cons_append, List.cons.injEq] at ht
      rw [← ht.1] at h3
      exact h1 a e t h3

theorem Answers.mem {w : World} {h l : List Ev} (hl : Answers w h l) {e : Ev} (he : e ∈ l) : ∃ h', e.2 = w h' e.1 := by
  obtain ⟨a, b, rfl⟩ := List.append_of_mem he
  exact ⟨_, hl a e b rfl⟩

/-- On normal end the new events are in `Q`; otherwise they are normal progress into some `full` in `Q`, then the stop. -/
def Does {α : Type} (X : Call → Prop) (Z : Nat → List Ev → Prop) (m : Sh α) (Q : α → List Ev → Prop) : Prop :=
  ∀ w s, ∃ new, (m w s).2.hist = s.hist ++ new ∧ Answers w s.hist new ∧
    ((∃ a, (m w s).1 = .ok a ∧ Q a new ∧ ∀ e ∈ new, Good X e) ∨
     (∃ pre suf a full rest, EndsBy Z (m w s).1 suf ∧ new = pre ++ suf ∧ (∀ e ∈ pre, Good X e) ∧ Q a full ∧
       full = pre ++ rest ∧ acts suf <+: acts rest))

theorem acts_append (a b : List Ev) : acts (a ++ b) = acts a ++ acts b := by simp [acts]
@[simp] theorem acts_nil : acts [] = [] := rfl
theorem acts_cons (c : Call) (r : Reply) (l : List Ev) : acts ((c, r) :: l) = (if isAct c then [c] else []) ++ acts l := by
  unfold acts
  by_cases h : isAct c <;> simp [h]

variable {α β : Type} {X : Call → Prop} {Z : Nat → List Ev → Prop}

theorem Does.weaken {m : Sh α} {Q R : α → List Ev → Prop} (h : Does X Z m Q) (hq : ∀ a l, Q a l → R a l) : Does X Z m R := by
  intro w s
  obtain ⟨new, h1, ha, h2⟩ := h w s
  refine ⟨new, h1, ha, ?_⟩
  rcases h2 with ⟨a, h2, h3, h4⟩ | ⟨pre, suf, a, full, rest, h2, h3, h4, h5, h6⟩
  · exact .inl ⟨a, h2, hq _ _ h3, h4⟩
  · exact .inr ⟨pre, suf, a, full, rest, h2, h3, h4, hq _ _ h5, h6⟩

theorem does_pure (a : α) : Does X Z (Sh.pure a) (fun b l => b = a ∧ l = []) := by
  intro w s
  exact ⟨[], by simp [Sh.pure], answers_nil _ _, .inl ⟨a, rfl, ⟨rfl, rfl⟩, by simp⟩⟩

theorem does_bind {m : Sh α} {f : α → Sh β} {Q : α → List Ev → Prop} {R : α → β → List Ev → Prop}
    (hm : Does X Z m Q) (hf : ∀ a, Does X Z (f a) (R a)) (hR : ∀ a, ∃ b l, R a b l) :
    Does X Z (m.bind f) (fun b l => ∃ a l1 l2, Q a l1 ∧ R a b l2 ∧ l = l1 ++ l2) := by
  intro w s
  obtain ⟨new, h1, ha, h2⟩ := hm w s
  unfold Sh.bind
  rcases e : m w s with ⟨o, s'⟩
  rw [e] at h1 h2
  simp only at h1 h2
  rcases h2 with ⟨a, rfl, h3, h4⟩ | ⟨pre, suf, a, full, rest, h2, rfl, h4, h5, rfl, h7⟩
  · simp only
    obtain ⟨new2, g1, ga, g2⟩ := hf a w s'
    refine ⟨new ++ new2, by rw [g1, h1, List.append_assoc], ha.append (h1 ▸ ga), ?_⟩
    rcases g2 with ⟨b, g2, g3, g4⟩ | ⟨pre, suf, b, full, rest, g2, rfl, g4, g5, rfl, g7⟩
    · refine .inl ⟨b, g2, ⟨a, new, new2, h3, g3, rfl⟩, ?_⟩
      intro e he
      rcases List.mem_append.1 he with he | he
      · exact h4 e he
      · exact g4 e he
    · refine .inr ⟨new ++ pre, suf, b, new ++ (pre ++ rest), rest, g2, by rw [List.append_assoc], ?_, ⟨a, new, _, h3, g5, rfl⟩,
        by rw [List.append_assoc], g7⟩
      intro e he
      rcases List.mem_append.1 he with he | he
      · exact h4 e he
      · exact g4 e he
  · obtain ⟨b, l, hl⟩ := hR a
    have hx : ∀ o' : Out β, EndsBy Z o' suf → o' = (match o with | .ok _ => .running | .exit n => .exit n | .signal n => .signal n | .running => .running) →
        ∃ new, s'.hist = s.hist ++ new ∧ Answers w s.hist new ∧
        ((∃ a, o' = .ok a ∧ (∃ a_2 l1 l2, Q a_2 l1 ∧ R a_2 a l2 ∧ new = l1 ++ l2) ∧ ∀ e ∈ new, Good X e) ∨
        ∃ pre suf a full rest, EndsBy Z o' suf ∧ new = pre ++ suf ∧ (∀ e ∈ pre, Good X e) ∧
          (∃ a_2 l1 l2, Q a_2 l1 ∧ R a_2 a l2 ∧ full = l1 ++ l2) ∧ full = pre ++ rest ∧ acts suf <+: acts rest) := by
      intro o' ho' _
      refine ⟨pre ++ suf, h1, ha, .inr ⟨pre, suf, b, (pre ++ rest) ++ l, rest ++ l, ho', rfl, h4, ⟨a, _, l, h5, hl, rfl⟩, by simp, ?_⟩⟩
      rw [acts_append]
      exact h7.trans (List.prefix_append _ _)
    cases o with
    | ok a => exact absurd h2 (by simp [EndsBy])
    | exit n => exact hx (.exit n) h2 rfl
    | signal n => exact hx (.signal n) h2 rfl
    | running => exact hx .running h2 rfl

/-- Sequencing when the first part's value is not needed. -/
theorem does_then {m : Sh Unit} {f : Unit → Sh β} {Q : Unit → List Ev → Prop} {R : β → List Ev → Prop}
    (hm : Does X Z m Q) (hf : Does X Z (f ()) R) (hR : ∃ b l, R b l) :
    Does X Z (m.bind f) (fun b l => ∃ l1 l2, Q () l1 ∧ R b l2 ∧ l = l1 ++ l2) := by
  refine (does_bind (R := fun _ => R) hm (fun a => by cases a; exact hf) (fun _ => hR)).weaken ?_
  rintro b l ⟨⟨⟩, l1, l2, h1, h2, h3⟩
  exact ⟨l1, l2, h1, h2, h3⟩

theorem does_query (argv : List CStr) : Does X Z (call (.query argv)) (fun r l => l = [(.query argv, r)]) := by
  intro w s
  refine ⟨[(.query argv, w s.hist (.query argv))], ?_, answers_one _ _ _, ?_⟩
  · unfold call; dsimp only; split <;> rfl
  · by_cases h : (w s.hist (.query argv)).sig = true
    · refine .inr ⟨[], [(.query argv, w s.hist (.query argv))], w s.hist (.query argv), _, _, ?_, rfl, by simp, rfl, rfl, List.prefix_refl _⟩
      simp only [call, h, if_true, EndsBy]
      exact ⟨_, _, rfl, h, rfl⟩
    · refine .inl ⟨w s.hist (.query argv), by simp [call, h], rfl, ?_⟩
      intro e he
      rw [List.mem_singleton] at he; subst he
      exact ⟨by simpa using h, by simp [isAct]⟩

/-- A call whose failure is excused. -/
theorem does_call (c : Call) (hX : X c) : Does X Z (call c) (fun r l => l = [(c, r)]) := by
  intro w s
  refine ⟨[(c, w s.hist c)], ?_, answers_one _ _ _, ?_⟩
  · unfold call; dsimp only; split <;> rfl
  · by_cases h : (w s.hist c).sig = true
    · refine .inr ⟨[], [(c, w s.hist c)], w s.hist c, _, _, ?_, rfl, by simp, rfl, rfl, List.prefix_refl _⟩
      simp only [call, h, if_true, EndsBy]
      exact ⟨_, _, rfl, h, rfl⟩
    · refine .inl ⟨w s.hist c, by simp [call, h], rfl, ?_⟩
      intro e he
      rw [List.mem_singleton] at he; subst he
      exact ⟨by simpa using h, fun _ => .inr hX⟩

theorem run_eq (e : Bool) (c : Call) (w : World) (s : St) :
    run e c w s = (if (w s.hist c).sig = true then .signal (w s.hist c).status
      else if e = true ∧ (w s.hist c).status ≠ 0 then .exit (w s.hist c).status else .ok (),
      { s with hist := s.hist ++ [(c, w s.hist c)] }) := by
  unfold run Sh.bind call
  dsimp only
  by_cases h : (w s.hist c).sig = true
  · simp [h]
  · simp only [h, Bool.false_eq_true, if_false]
    by_cases h2 : e = true ∧ (w s.hist c).status ≠ 0
    · rw [if_pos h2, if_pos (by simpa using h2)]; rfl
    · rw [if_neg h2, if_neg (by simpa using h2)]; rfl

/-- A command under `set -e` (or with `set -e` ignored, and its failure excused). -/
theorem does_run (c : Call) (hc : isAct c = true) (e : Bool) (hX : e = true ∨ X c) : Does X Z (run e c) (fun _ l => acts l = [c]) := by
  intro w s
  rw [run_eq]
  refine ⟨[(c, w s.hist c)], rfl, answers_one _ _ _, ?_⟩
  have ha : ∀ r : Reply, acts [(c, r)] = [c] := by intro r; simp [acts, hc]
  dsimp only
  by_cases h : (w s.hist c).sig = true
  · refine .inr ⟨[], [(c, w s.hist c)], (), [(c, w s.hist c)], _, ?_, rfl, by simp, ha _, rfl, List.prefix_refl _⟩
    rw [if_pos h]
    exact ⟨_, _, rfl, h, rfl⟩
  · rw [if_neg h]
    by_cases h2 : e = true ∧ (w s.hist c).status ≠ 0
    · refine .inr ⟨[], [(c, w s.hist c)], (), [(c, w s.hist c)], _, ?_, rfl, by simp, ha _, rfl, List.prefix_refl _⟩
      rw [if_pos h2]
      exact .inl ⟨_, _, rfl, hc, by simpa using h, rfl, h2.2⟩
    · refine .inl ⟨(), by rw [if_neg h2], ha _, ?_⟩
      intro ev he
      rw [List.mem_singleton] at he; subst he
      refine ⟨by simpa using h, fun _ => ?_⟩
      by_cases h3 : (w s.hist c).status = 0
      · exact .inl h3
      · exact .inr (hX.resolve_left fun he => h2 ⟨he, h3⟩)

theorem does_forEach {γ : Type} {f : γ → Sh Unit} {Q : γ → List Call → Prop} (hf : ∀ x, Does X Z (f x) (fun _ l => Q x (acts l)))
    (hQ : ∀ x, ∃ l : List Ev, Q x (acts l)) (xs : List γ) :
    Does X Z (forEach f xs) (fun _ l => ∃ ls, List.Forall₂ Q xs ls ∧ acts l = ls.flatten) := by
  induction xs with
  | nil => exact (does_pure ()).weaken (by rintro a l ⟨_, rfl⟩; exact ⟨[], .nil, rfl⟩)
  | cons x xs ih =>
    have inh : ∀ xs : List γ, ∃ l : List Ev, ∃ ls, List.Forall₂ Q xs ls ∧ acts l = ls.flatten := by
      intro xs
      induction xs with
      | nil => exact ⟨[], [], .nil, rfl⟩
      | cons x xs ih =>
        obtain ⟨l, ls, h1, h2⟩ := ih
        obtain ⟨l0, h0⟩ := hQ x
        exact ⟨l0 ++ l, acts l0 :: ls, .cons h0 h1, by rw [acts_append, h2]; rfl⟩
    obtain ⟨l, hl⟩ := inh xs
    refine (does_then (hf x) ih ⟨(), l, hl⟩).weaken ?_
    rintro _ l ⟨l1, l2, h1, ⟨ls, h2, h3⟩, rfl⟩
    exact ⟨acts l1 :: ls, .cons h1 h2, by rw [acts_append, h3]; rfl⟩

/-! ### The two flags -/

/-- The flags stay as they are. -/
def Keeps {α : Type} (m : Sh α) : Prop := ∀ w s, (m w s).2.haveDns = s.haveDns ∧ (m w s).2.haveFw = s.haveFw

theorem keeps_pure (a : α) : Keeps (Sh.pure a) := fun _ _ => ⟨rfl, rfl⟩
theorem keeps_exit (n : Nat) : Keeps (exitWith n : Sh α) := fun _ _ => ⟨rfl, rfl⟩
theorem keeps_giveUp : Keeps (giveUp : Sh α) := fun _ _ => ⟨rfl, rfl⟩
theorem keeps_getDns : Keeps getDns := fun _ _ => ⟨rfl, rfl⟩
theorem keeps_getFw : Keeps getFw := fun _ _ => ⟨rfl, rfl⟩

theorem keeps_call (c : Call) : Keeps (call c) := by
  intro w s
  unfold call
  dsimp only
  split <;> exact ⟨rfl, rfl⟩

theorem keeps_bind {m : Sh α} {f : α → Sh β} (hm : Keeps m) (hf : ∀ a, Keeps (f a)) : Keeps (m.bind f) := by
  intro w s
  unfold Sh.bind
  have h := hm w s
  rcases e : m w s with ⟨o, s'⟩
  rw [e] at h
  cases o with
  | ok a => exact ⟨(hf a w s').1.trans h.1, (hf a w s').2.trans h.2⟩
  | exit n => exact h
  | signal n => exact h
  | running => exact h

theorem keeps_run (e : Bool) (c : Call) : Keeps (run e c) := by
  refine keeps_bind (keeps_call c) fun r => ?_
  split
  · exact keeps_exit _
  · exact keeps_pure _

theorem keeps_forEach {γ : Type} {f : γ → Sh Unit} (hf : ∀ x, Keeps (f x)) (xs : List γ) : Keeps (forEach f xs) := by
  induction xs with
  | nil => exact keeps_pure _
  | cons x xs ih => exact keeps_bind (hf x) fun _ => ih

end WG.Quick
