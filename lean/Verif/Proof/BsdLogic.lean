import Verif.Model.Bsd
import Verif.Spec.QuickRun
/-! Inversion of runs of the BSD scripts. -/
namespace WG.Bsd
open WG.Quick (Call Reply Ev World Out calm)

variable {α β : Type}

/-- The state after a call. -/
def push (s : St) (c : Call) (r : Reply) : St := { s with hist := s.hist ++ [(c, r)] }

theorem call_eq (c : Call) (w : World) (s : St) :
    call c w s = (if (w s.hist c).sig = true then .signal (w s.hist c).status else .ok (w s.hist c), push s c (w s.hist c)) := by
  unfold call push
  dsimp only
  by_cases h : (w s.hist c).sig = true
  · simp [h]
  · simp [h]

theorem call_ok {c : Call} {w : World} {s s' : St} {r : Reply} (h : call c w s = (.ok r, s')) :
    r = w s.hist c ∧ r.sig = false ∧ s' = push s c r := by
  rw [call_eq] at h
  by_cases hs : (w s.hist c).sig = true
  · rw [if_pos hs] at h; simp at h
  · rw [if_neg hs] at h
    simp only [Prod.mk.injEq, Out.ok.injEq] at h
    obtain ⟨rfl, rfl⟩ := h
    exact ⟨rfl, by simpa using hs, rfl⟩

/-- The same outcome, not a normal one. -/
def Stopped : Out α → Out β → Prop
  | .exit n, .exit m => n = m
  | .signal n, .signal m => n = m
  | .running, .running => True
  | _, _ => False

theorem bind_of_ok {m : Sh α} {f : α → Sh β} {w : World} {s s1 : St} {a : α} (h : m w s = (.ok a, s1)) : (m.bind f) w s = f a w s1 := by
  unfold Sh.bind
  rw [h]

theorem bind_inv {m : Sh α} {f : α → Sh β} {w : World} {s s' : St} {o : Out β} (h : (m.bind f) w s = (o, s')) :
    (∃ a s1, m w s = (.ok a, s1) ∧ f a w s1 = (o, s')) ∨ (∃ o1, m w s = (o1, s') ∧ Stopped o1 o) := by
  unfold Sh.bind at h
  rcases e : m w s with ⟨o1, s1⟩
  rw [e] at h
  cases o1 with
  | ok a => exact .inl ⟨a, s1, rfl, h⟩
  | exit n => simp only [Prod.mk.injEq] at h; obtain ⟨rfl, rfl⟩ := h; exact .inr ⟨_, rfl, rfl⟩
  | signal n => simp only [Prod.mk.injEq] at h; obtain ⟨rfl, rfl⟩ := h; exact .inr ⟨_, rfl, rfl⟩
  | running => simp only [Prod.mk.injEq] at h; obtain ⟨rfl, rfl⟩ := h; exact .inr ⟨_, rfl, trivial⟩

theorem bind_ok {m : Sh α} {f : α → Sh β} {w : World} {s s' : St} {b : β} (h : (m.bind f) w s = (.ok b, s')) :
    ∃ a s1, m w s = (.ok a, s1) ∧ f a w s1 = (.ok b, s') := by
  rcases bind_inv h with h | ⟨o1, _, h⟩
  · exact h
  · cases o1 <;> exact h.elim

theorem run_eq (e : Bool) (c : Call) (w : World) (s : St) :
    run e c w s = (if (w s.hist c).sig = true then .signal (w s.hist c).status
      else if e = true ∧ (w s.hist c).status ≠ 0 then .exit (w s.hist c).status else .ok (), push s c (w s.hist c)) := by
  unfold run Sh.bind
  rw [call_eq]
  by_cases h : (w s.hist c).sig = true
  · simp only [if_pos h]
  · simp only [if_neg h]
    by_cases h2 : e = true ∧ (w s.hist c).status ≠ 0
    · rw [if_pos h2, if_pos (by simpa using h2)]; rfl
    · rw [if_neg h2, if_neg (by simpa using h2)]; rfl

theorem run_ok {e : Bool} {c : Call} {w : World} {s s' : St} {u : Unit} (h : run e c w s = (.ok u, s')) :
    (w s.hist c).sig = false ∧ (e = true → (w s.hist c).status = 0) ∧ s' = push s c (w s.hist c) := by
  rw [run_eq] at h
  by_cases hs : (w s.hist c).sig = true
  · rw [if_pos hs] at h; simp at h
  · rw [if_neg hs] at h
    by_cases h2 : e = true ∧ (w s.hist c).status ≠ 0
    · rw [if_pos h2] at h; simp at h
    · rw [if_neg h2] at h
      simp only [Prod.mk.injEq] at h
      refine ⟨by simpa using hs, fun he => ?_, h.2.symm⟩
      by_contra h3
      exact h2 ⟨he, h3⟩

/-- A command whose failure is ignored stops only by a signal. -/
theorem run_inv {e : Bool} {c : Call} {w : World} {s s' : St} {o : Out Unit} (h : run e c w s = (o, s')) :
    s' = push s c (w s.hist c) ∧
    ((o = .ok () ∧ (w s.hist c).sig = false ∧ (e = true → (w s.hist c).status = 0)) ∨
     (o = .signal (w s.hist c).status ∧ (w s.hist c).sig = true) ∨
     (o = .exit (w s.hist c).status ∧ (w s.hist c).sig = false ∧ e = true ∧ (w s.hist c).status ≠ 0)) := by
  rw [run_eq] at h
  simp only [Prod.mk.injEq] at h
  refine ⟨h.2.symm, ?_⟩
  by_cases hs : (w s.hist c).sig = true
  · rw [if_pos hs] at h; exact .inr (.inl ⟨h.1.symm, hs⟩)
  · rw [if_neg hs] at h
    by_cases h2 : e = true ∧ (w s.hist c).status ≠ 0
    · rw [if_pos h2] at h; exact .inr (.inr ⟨h.1.symm, by simpa using hs, h2⟩)
    · rw [if_neg h2] at h
      refine .inl ⟨h.1.symm, by simpa using hs, fun he => ?_⟩
      by_contra h3
      exact h2 ⟨he, h3⟩

theorem call_inv {c : Call} {w : World} {s s' : St} {o : Out Reply} (h : call c w s = (o, s')) :
    s' = push s c (w s.hist c) ∧ ((o = .ok (w s.hist c) ∧ (w s.hist c).sig = false) ∨ (o = .signal (w s.hist c).status ∧ (w s.hist c).sig = true)) := by
  rw [call_eq] at h
  simp only [Prod.mk.injEq] at h
  refine ⟨h.2.symm, ?_⟩
  by_cases hs : (w s.hist c).sig = true
  · rw [if_pos hs] at h; exact .inr ⟨h.1.symm, hs⟩
  · rw [if_neg hs] at h; exact .inl ⟨h.1.symm, by simpa using hs⟩

theorem get_bind {f : St → Sh β} (w : World) (s : St) : (get.bind f) w s = f s w s := rfl
theorem pure_bind {a : α} {f : α → Sh β} (w : World) (s : St) : ((Sh.pure a).bind f) w s = f a w s := rfl
theorem modify_bind {g : St → St} {f : Unit → Sh β} (w : World) (s : St) : ((modify g).bind f) w s = f () w (g s) := rfl
theorem setTrap_bind {t : Trap} {f : Unit → Sh β} (w : World) (s : St) : ((setTrap t).bind f) w s = f () w { s with trap := t } := rfl

theorem pure_inv {a b : α} {w : World} {s s' : St} (h : Sh.pure a w s = (.ok b, s')) : b = a ∧ s' = s := by
  unfold Sh.pure at h
  simp only [Prod.mk.injEq, Out.ok.injEq] at h
  exact ⟨h.1.symm, h.2.symm⟩

theorem modify_inv {g : St → St} {w : World} {s s' : St} {u : Unit} (h : modify g w s = (.ok u, s')) : s' = g s := by
  unfold modify at h
  simp only [Prod.mk.injEq] at h
  exact h.2.symm

theorem exitWith_ok {n : Nat} {w : World} {s s' : St} {a : α} (h : (exitWith n : Sh α) w s = (.ok a, s')) : False := by
  unfold exitWith at h
  simp at h

theorem giveUp_ok {w : World} {s s' : St} {a : α} (h : (giveUp : Sh α) w s = (.ok a, s')) : False := by
  unfold giveUp at h
  simp at h

/-- Only the history differs. -/
def Same (s s' : St) : Prop := s' = { s with hist := s'.hist }

theorem Same.refl (s : St) : Same s s := rfl
theorem Same.push (s : St) (c : Call) (r : Reply) : Same s (push s c r) := rfl
theorem Same.trans {a b c : St} (h1 : Same a b) (h2 : Same b c) : Same a c := by
  unfold Same at *
  rw [h2, h1]

/-- Whatever happens, only the history differs. -/
def Frame (m : Sh α) : Prop := ∀ w s, Same s (m w s).2

theorem frame_pure (a : α) : Frame (Sh.pure a) := fun _ _ => rfl
theorem frame_exit (n : Nat) : Frame (exitWith n : Sh α) := fun _ _ => rfl
theorem frame_giveUp : Frame (giveUp : Sh α) := fun _ _ => rfl
theorem frame_get : Frame get := fun _ _ => rfl
theorem frame_call (c : Call) : Frame (call c) := by
  intro w s; rw [call_eq]; rfl
theorem frame_bind {m : Sh α} {f : α → Sh β} (hm : Frame m) (hf : ∀ a, Frame (f a)) : Frame (m.bind f) := by
  intro w s
  rcases e : (m.bind f) w s with ⟨o, s'⟩
  have h := hm w s
  rcases bind_inv e with ⟨a, s1, h1, h2⟩ | ⟨o1, h1, _⟩
  · rw [h1] at h
    have h3 := hf a w s1
    rw [h2] at h3
    exact h.trans h3
  · rw [h1] at h; exact h
theorem frame_run (e : Bool) (c : Call) : Frame (run e c) := by
  intro w s; rw [run_eq]; rfl
theorem frame_forEach {γ : Type} {f : γ → Sh Unit} (hf : ∀ x, Frame (f x)) (xs : List γ) : Frame (forEach f xs) := by
  induction xs with
  | nil => exact frame_pure _
  | cons x xs ih => exact frame_bind (hf x) fun _ => ih

end WG.Bsd
