import Verif.Proof.BsdUpFail
/-!
How `up` ends on the BSDs.
-/
namespace WG.Bsd
open WG.Quick (Call Reply Ev World Out calm chomp readLoopLines afterFirst hasInfix endpointHost wordsAux routesIn)
open WG.Spec.Quick WG.Spec.Bsd

/-! ### Without signals -/

/-- No signal without one. -/
def Silent (m : Sh α) : Prop := ∀ w : World, (∀ h k, (w h k).sig = false) → ∀ s n, (m w s).1 ≠ .signal n

theorem silent_pure (a : α) : Silent (Sh.pure a) := fun _ _ _ _ => nofun
theorem silent_exit (n : Nat) : Silent (exitWith n : Sh α) := fun _ _ _ _ => nofun
theorem silent_giveUp : Silent (giveUp : Sh α) := fun _ _ _ _ => nofun
theorem silent_get : Silent get := fun _ _ _ _ => nofun
theorem silent_modify (g : St → St) : Silent (modify g) := fun _ _ _ _ => nofun
theorem silent_call (k : Call) : Silent (call k) := by
  intro w hw s n
  rw [call_eq, if_neg (by simp [hw])]
  nofun
theorem silent_run (e : Bool) (k : Call) : Silent (run e k) := by
  intro w hw s n
  rw [run_eq, if_neg (by simp [hw])]
  dsimp only
  split <;> nofun
theorem silent_bind {m : Sh α} {g : α → Sh β} (hm : Silent m) (hg : ∀ a, Silent (g a)) : Silent (m.bind g) := by
  intro w hw s n
  have h1 := hm w hw s
  unfold Sh.bind
  rcases h : m w s with ⟨o, s1⟩
  rw [h] at h1
  cases o with
  | ok a => exact hg a w hw s1 n
  | exit n => nofun
  | signal n => exact absurd rfl (h1 n)
  | running => nofun
theorem silent_forEach {γ : Type} {g : γ → Sh Unit} (hg : ∀ x, Silent (g x)) (xs : List γ) : Silent (forEach g xs) := by
  induction xs with
  | nil => exact silent_pure _
  | cons x xs ih => exact silent_bind (hg x) fun _ => ih
theorem silent_ite {p : Prop} [Decidable p] {a b : Sh α} (ha : Silent a) (hb : Silent b) : Silent (if p then a else b) := by
  split
  · exact ha
  · exact hb

theorem silent_cleanTemp : Silent cleanTemp := silent_bind silent_get fun _ => silent_ite (silent_exit _) (silent_run _ _)
theorem silent_cleanIf (c : Cfg) : Silent (cleanIf c) := silent_ite silent_cleanTemp (silent_pure _)
theorem silent_waitGone (c : Cfg) (n : Nat) : Silent (waitGone c n) := by
  induction n with
  | zero => exact silent_giveUp
  | succ n ih => exact silent_bind (silent_call _) fun _ => silent_ite (silent_bind (silent_run _ _) fun _ => ih) (silent_pure _)
theorem silent_unsetOpenbsd (c : Cfg) : Silent (unsetDnsOpenbsd c) :=
  silent_bind (silent_call _) fun _ => silent_ite (silent_pure _) (silent_bind silent_get fun _ => silent_bind (silent_run _ _) fun _ => silent_run _ _)
theorem silent_unsetFreebsd (c : Cfg) : Silent (unsetDnsFreebsd c) := silent_ite (silent_pure _) (silent_run _ _)
theorem silent_delIf (c : Cfg) : Silent (delIf c) := by
  refine silent_bind silent_get fun s => ?_
  cases c.plat with
  | freebsd => exact silent_bind (silent_ite (silent_unsetFreebsd c) (silent_pure _)) fun _ => silent_bind (silent_call _) fun _ => silent_bind (silent_ite (silent_run _ _) (silent_run _ _)) fun _ => silent_waitGone c _
  | openbsd => exact silent_bind (silent_unsetOpenbsd c) fun _ => silent_ite (silent_exit _) (silent_run _ _)
  | darwin => exact silent_bind (silent_ite (silent_pure _) (silent_run _ _)) fun _ => silent_run _ _
theorem silent_delRoutes (c : Cfg) : Silent (delRoutes c) :=
  silent_bind silent_get fun _ => silent_ite (silent_pure _) (silent_bind (silent_call _) fun _ => silent_bind (silent_forEach (fun _ => silent_run _ _) _) fun _ =>
    silent_bind (silent_call _) fun _ => silent_bind (silent_forEach (fun _ => silent_run _ _) _) fun _ => silent_forEach (fun _ => silent_run _ _) _)
theorem silent_trapUp (c : Cfg) : Silent (trapBody c .up) := silent_bind (silent_delIf c) fun _ => silent_bind (silent_delRoutes c) fun _ => silent_cleanIf c

variable {c : Cfg}

/-! ### The traps -/

/-- Nothing but what undoes. -/
def Undoes (c : Cfg) (r t : CStr) (m : Sh α) : Prop := ∀ w s, s.real = r → s.tmp = t → ∃ l, (m w s).2 = plus s l ∧ ∀ v ∈ l, UndoAct c r t v.1

variable {r t : CStr}

theorem undoes_pure (a : α) : Undoes c r t (Sh.pure a) := fun _ s _ _ => ⟨[], (plus_nil s).symm, by simp⟩
theorem undoes_exit (n : Nat) : Undoes c r t (exitWith n : Sh α) := fun _ s _ _ => ⟨[], (plus_nil s).symm, by simp⟩
theorem undoes_giveUp : Undoes c r t (giveUp : Sh α) := fun _ s _ _ => ⟨[], (plus_nil s).symm, by simp⟩
theorem undoes_call {k : Call} (h : UndoAct c r t k) : Undoes c r t (call k) := fun w s _ _ => by rw [call_eq]; exact ⟨[(k, w s.hist k)], rfl, by simpa using h⟩
theorem undoes_run {e : Bool} {k : Call} (h : UndoAct c r t k) : Undoes c r t (run e k) := fun w s _ _ => by rw [run_eq]; exact ⟨[(k, w s.hist k)], rfl, by simpa using h⟩
theorem undoes_bind {m : Sh α} {g : α → Sh β} (hm : Undoes c r t m) (hg : ∀ a, Undoes c r t (g a)) : Undoes c r t (m.bind g) := by
  intro w s h1 h2
  obtain ⟨l, e, p⟩ := hm w s h1 h2
  unfold Sh.bind
  rcases h : m w s with ⟨o, s1⟩
  rw [h] at e
  dsimp only at e
  cases o with
  | ok a =>
    obtain ⟨l2, e2, p2⟩ := hg a w s1 (by rw [e]; exact h1) (by rw [e]; exact h2)
    refine ⟨l ++ l2, by dsimp only; rw [e2, e, plus_plus], fun v hv => ?_⟩
    rcases List.mem_append.1 hv with hv | hv
    · exact p v hv
    · exact p2 v hv
  | exit n => exact ⟨l, e, p⟩
  | signal n => exact ⟨l, e, p⟩
  | running => exact ⟨l, e, p⟩
theorem undoes_get {f : St → Sh α} (h : ∀ s, s.real = r → s.tmp = t → Undoes c r t (f s)) : Undoes c r t (get.bind f) := fun w s h1 h2 => h s h1 h2 w s h1 h2
theorem undoes_forEach {γ : Type} {g : γ → Sh Unit} (hg : ∀ x, Undoes c r t (g x)) (xs : List γ) : Undoes c r t (forEach g xs) := by
  induction xs with
  | nil => exact undoes_pure _
  | cons x xs ih => exact undoes_bind (hg x) fun _ => ih
theorem undoes_ite {p : Prop} [Decidable p] {a b : Sh α} (ha : p → Undoes c r t a) (hb : ¬ p → Undoes c r t b) : Undoes c r t (if p then a else b) := by
  split
  · exact ha (by assumption)
  · exact hb (by assumption)

theorem undo_query (q : List CStr) : UndoAct c r t (.query q) := .inl ⟨q, rfl⟩
theorem undo_delete (fam d : CStr) : UndoAct c r t (routeDelete fam d) := .inr (.inl ⟨fam, d, rfl⟩)

theorem undoes_waitGone (n : Nat) : Undoes c r t (waitGone c n) := by
  induction n with
  | zero => exact undoes_giveUp
  | succ n ih => exact undoes_bind (undoes_call (undo_query _)) fun _ => undoes_ite (fun _ => undoes_bind (undoes_run (undo_query _)) fun _ => ih) fun _ => undoes_pure _

theorem undoes_delIf : Undoes c r t (delIf c) := by
  refine undoes_get fun s h1 h2 => ?_
  cases hp : c.plat with
  | freebsd =>
    have ha : ∀ k, (k = cmd [b!"resolvconf", b!"-d", c.iface] ∨ k = cmd [b!"rm", b!"-f", sockOf c.iface] ∨ k = cmd [b!"ifconfig", c.iface, b!"destroy"] ∨ k = cmd [b!"rm", b!"-rf", t]) → UndoAct c r t k := by
      intro k hk; unfold UndoAct; rw [hp]; exact .inr (.inr hk)
    refine undoes_bind (undoes_ite (fun _ => undoes_ite (fun _ => undoes_pure _) fun _ => undoes_run (ha _ (.inl rfl))) fun _ => undoes_pure _) fun _ =>
      undoes_bind (undoes_call (undo_query _)) fun _ => undoes_bind (undoes_ite (fun _ => undoes_run (ha _ (.inr (.inl rfl)))) fun _ => undoes_run (ha _ (.inr (.inr (.inl rfl))))) fun _ => undoes_waitGone _
  | openbsd =>
    have ha : ∀ k, (k = cmd ([b!"route", b!"nameserver"] ++ if r = [] then [] else [r]) ∨ k = cmd [b!"mv", backupOf c, b!"/etc/resolv.conf"] ∨ k = cmd [b!"ifconfig", r, b!"destroy"]) → UndoAct c r t k := by
      intro k hk; unfold UndoAct; rw [hp]; exact .inr (.inr hk)
    refine undoes_bind ?_ fun _ => undoes_ite (fun _ => undoes_exit _) fun _ => undoes_run (ha _ (.inr (.inr (by rw [h1]; rfl))))
    refine undoes_bind (undoes_call (undo_query _)) fun _ => undoes_ite (fun _ => undoes_pure _) fun _ => undoes_get fun s h3 h4 => ?_
    exact undoes_bind (undoes_run (ha _ (.inl (by rw [h3]; rfl)))) fun _ => undoes_run (ha _ (.inr (.inl rfl)))
  | darwin =>
    have ha : ∀ k, (k = cmd [b!"rm", b!"-f", sockOf r] ∨ k = cmd [b!"rm", b!"-f", nameFileOf c]) → UndoAct c r t k := by
      intro k hk; unfold UndoAct; rw [hp]; exact .inr (.inr hk)
    exact undoes_bind (undoes_ite (fun _ => undoes_pure _) fun _ => undoes_run (ha _ (.inl (by rw [h1]; rfl)))) fun _ => undoes_run (ha _ (.inr rfl))

theorem undoes_delRoutes : Undoes c r t (delRoutes c) :=
  undoes_get fun _ _ _ => undoes_ite (fun _ => undoes_pure _) fun _ => undoes_bind (undoes_call (undo_query _)) fun _ => undoes_bind (undoes_forEach (fun _ => undoes_run (undo_delete _ _)) _) fun _ =>
    undoes_bind (undoes_call (undo_query _)) fun _ => undoes_bind (undoes_forEach (fun _ => undoes_run (undo_delete _ _)) _) fun _ => undoes_forEach (fun _ => undoes_run (undo_delete _ _)) _

theorem undoes_trapUp : Undoes c r t (trapBody c .up) := by
  refine undoes_bind undoes_delIf fun _ => undoes_bind undoes_delRoutes fun _ => undoes_ite (fun hp => ?_) fun _ => undoes_pure _
  refine undoes_get fun s _ h2 => undoes_ite (fun _ => undoes_exit _) fun _ => undoes_run ?_
  unfold UndoAct; rw [hp, h2]; exact .inr (.inr (.inr (.inr (.inr rfl))))

theorem trapUp_acts {w : World} {s s' : St} {o : Out Unit} (h : trapBody c .up w s = (o, s')) {l : List Ev} (e : s' = plus s l) : ∀ v ∈ l, UndoAct c s.real s.tmp v.1 := by
  obtain ⟨l', e', p⟩ := undoes_trapUp (c := c) w s rfl rfl
  rw [h] at e'
  have : l = l' := by
    have := congrArg St.hist (e.symm.trans e')
    exact List.append_cancel_left this
  rw [this]; exact p

/-- One attempt. -/
theorem trapUp_try {w : World} {s s' : St} {o : Out Unit} (h : trapBody c .up (calm w) s = (o, s')) (hr : o ≠ .running) :
    ∃ l, UndoTry c s.real s.haveDns s.endpoints s.tmp l ∧ s' = plus s l ∧ ((∃ u, o = .ok u) ∨ ∃ n, n ≠ 0 ∧ o = .exit n) := by
  cases o with
  | ok u =>
    obtain ⟨l, h1, h2⟩ := trapUp_ok h
    exact ⟨l, ⟨trapUp_acts h h2, .inl h1⟩, h2, .inl ⟨u, rfl⟩⟩
  | exit n =>
    obtain ⟨l, h1, h2⟩ := halts_trapUp c (calm w) s
    rw [h] at h1 h2
    obtain ⟨h3, h4⟩ := h2 n rfl
    exact ⟨l, ⟨trapUp_acts h h1, .inr (h4.imp id fun x => x)⟩, h1, .inr ⟨n, h3, rfl⟩⟩
  | signal n =>
    have := silent_trapUp c (calm w) (fun _ _ => rfl) s n
    rw [h] at this
    exact absurd rfl this
  | running => exact absurd rfl hr

theorem exitTrap_up {w : World} {s s' : St} {e : End} {k : Nat} (ht : s.trap = .up) (h : exitTrap (trapBody c) trapStatus k w s = (e, s')) (hr : e ≠ .running) :
    ∃ l m, UndoTry c s.real s.haveDns s.endpoints s.tmp l ∧ s'.hist = s.hist ++ l ∧ e = .exit m ∧ (k ≠ 0 → m ≠ 0) := by
  unfold exitTrap at h
  rw [ht] at h
  dsimp only at h
  rcases h2 : trapBody c .up (calm w) s with ⟨o, s2⟩
  rw [h2] at h
  have ho : o ≠ .running := by
    rintro rfl
    simp only [Prod.mk.injEq] at h
    exact hr h.1.symm
  obtain ⟨l, h3, h4, h5⟩ := trapUp_try h2 ho
  rcases h5 with ⟨u, rfl⟩ | ⟨n, hn, rfl⟩
  · simp only [Prod.mk.injEq, trapStatus, Option.getD_none] at h
    refine ⟨l, k, h3, ?_, h.1.symm, id⟩
    rw [← h.2, h4]; rfl
  · simp only [Prod.mk.injEq] at h
    refine ⟨l, n, h3, ?_, h.1.symm, fun _ => hn⟩
    rw [← h.2, h4]; rfl

/-- The end without a trap, or with the one that removes the temporary directory. -/
theorem exitTrap_rest {w : World} {s s' : St} {e : End} {k : Nat} (ht : s.trap = restTrap c) (h : exitTrap (trapBody c) trapStatus k w s = (e, s')) :
    ∃ l, Cleaned c s.tmp k e l ∧ s'.hist = s.hist ++ l := by
  unfold exitTrap at h
  rw [ht] at h
  unfold restTrap at h
  unfold Cleaned TempRemoved TempLeft
  by_cases hp : c.plat = .freebsd
  · simp only [if_pos hp] at h ⊢
    rcases h2 : trapBody c .clean (calm w) s with ⟨o, s2⟩
    rw [h2] at h
    change cleanTemp (calm w) s = (o, s2) at h2
    unfold cleanTemp at h2
    rw [get_bind] at h2
    by_cases htmp : s.tmp = []
    · rw [if_pos htmp] at h2
      simp only [exitWith, Prod.mk.injEq] at h2
      obtain ⟨rfl, rfl⟩ := h2
      simp only [Prod.mk.injEq] at h
      exact ⟨[], .inr ⟨⟨hp, .inl ⟨htmp, rfl⟩⟩, 1, by simp, h.1.symm⟩, by rw [← h.2]; simp⟩
    · rw [if_neg htmp, run_eq] at h2
      simp only [calm, Bool.false_eq_true, if_false, true_and, Prod.mk.injEq] at h2
      by_cases hs : (w s.hist (act [b!"rm", b!"-rf", s.tmp])).status = 0
      · rw [if_neg (by simpa using hs)] at h2
        obtain ⟨rfl, rfl⟩ := h2
        simp only [Prod.mk.injEq, trapStatus, Option.getD_none] at h
        refine ⟨_, .inl ⟨⟨htmp, _, ⟨rfl, ?_⟩, rfl⟩, h.1.symm⟩, by rw [← h.2]; rfl⟩
        exact hs
      · rw [if_pos hs] at h2
        obtain ⟨rfl, rfl⟩ := h2
        simp only [Prod.mk.injEq] at h
        refine ⟨_, .inr ⟨⟨hp, .inr ⟨_, ?_, rfl⟩⟩, _, hs, h.1.symm⟩, by rw [← h.2]; rfl⟩
        exact hs
  · simp only [if_neg hp, Prod.mk.injEq] at h ⊢
    exact ⟨[], .inl ⟨rfl, h.1.symm⟩, by rw [← h.2]; simp⟩

/-! ### All of `up` -/

/-- The directory for temporary files; its failure. -/
theorem temp_ends {w : World} {s s' : St} {o : Out Unit} (h : (if c.plat = .freebsd then makeTemp else Sh.pure ()) w s = (o, s')) :
    (∃ dir l, TempStep c dir l ∧ s' = { plus s l with tmp := if c.plat = .freebsd then dir else s.tmp } ∧ o = .ok ()) ∨
    (c.plat = .freebsd ∧ ∃ l, s' = plus s l ∧ (∀ v ∈ l, (∃ q, v.1 = .query q) ∨ v.1 = cmd [b!"mktemp", b!"-d"]) ∧ ((o = .exit 1) ∨ (∃ n, o = .signal n) ∧ ∃ v ∈ l, v.2.sig = true)) := by
  unfold TempStep
  by_cases hp : c.plat = .freebsd
  · simp only [if_pos hp] at h ⊢
    unfold makeTemp at h
    rcases bind_inv h with ⟨r, s1, h1, h⟩ | ⟨o1, h1, h2⟩
    · obtain rfl := call_plus h1
      rcases bind_inv h with ⟨t, s2, h2, h⟩ | ⟨o1, h2, h3⟩
      · obtain rfl := call_plus h2
        rw [plus_plus] at h
        by_cases ht : t.status ≠ 0
        · rw [if_pos ht] at h
          simp only [exitWith, Prod.mk.injEq] at h
          refine .inr ⟨hp, _, h.2.symm, ?_, .inl h.1.symm⟩
          intro v hv
          simp only [List.cons_append, List.nil_append, List.mem_cons, List.not_mem_nil, or_false] at hv
          rcases hv with rfl | rfl
          · exact .inr rfl
          · exact .inl ⟨_, rfl⟩
        · rw [if_neg ht] at h
          simp only [modify, Prod.mk.injEq] at h
          refine .inl ⟨captured r.out, _, ⟨r, t, rfl, by simpa using ht, rfl⟩, ?_, h.1.symm⟩
          rw [← h.2, ← WG.Quick.chomp_eq]; rfl
      · rw [call_eq] at h2
        simp only [Prod.mk.injEq] at h2
        obtain ⟨h4, rfl⟩ := h2
        split at h4
        · rename_i hs
          subst h4
          refine .inr ⟨hp, [_, _], by rw [show ([_, _] : List Ev) = [_] ++ [_] from rfl, ← plus_plus]; rfl, ?_, .inr ⟨?_, _, List.mem_cons_of_mem _ (List.mem_singleton_self _), hs⟩⟩
          · intro v hv
            simp only [List.mem_cons, List.not_mem_nil, or_false] at hv
            rcases hv with rfl | rfl
            · exact .inr rfl
            · exact .inl ⟨_, rfl⟩
          · cases o <;> first | exact h3.elim | exact ⟨_, rfl⟩
        · subst h4
          exact absurd rfl (stopped_not_ok h3 _)
    · rw [call_eq] at h1
      simp only [Prod.mk.injEq] at h1
      obtain ⟨h4, rfl⟩ := h1
      split at h4
      · rename_i hs
        subst h4
        refine .inr ⟨hp, [_], rfl, ?_, .inr ⟨?_, _, List.mem_singleton_self _, hs⟩⟩
        · intro v hv
          rw [List.mem_singleton.1 hv]
          exact .inr rfl
        · cases o <;> first | exact h2.elim | exact ⟨_, rfl⟩
      · subst h4
        exact absurd rfl (stopped_not_ok h2 _)
  · simp only [if_neg hp] at h ⊢
    simp only [Sh.pure, Prod.mk.injEq] at h
    exact .inl ⟨[], [], rfl, by rw [plus_nil, ← h.2], h.1.symm⟩

/-- Only questions; it can only be interrupted. -/
def Asks (m : Sh α) : Prop := ∀ w s, (∃ b s', m w s = (.ok b, s')) ∨
  ∃ n l, m w s = (.signal n, plus s l) ∧ (∀ v ∈ l, ∃ q, v.1 = .query q) ∧ ∃ v ∈ l, v.2.sig = true

theorem asks_pure (a : α) : Asks (Sh.pure a) := fun _ s => .inl ⟨a, s, rfl⟩
theorem asks_modify (g : St → St) {f : Unit → Sh α} (h : ∀ w s, ∃ b s', f () w s = (.ok b, s')) : Asks ((modify g).bind f) := fun w s => .inl (h w (g s))
theorem asks_ite {p : Prop} [Decidable p] {a b : Sh α} (ha : p → Asks a) (hb : ¬ p → Asks b) : Asks (if p then a else b) := by
  split
  · exact ha (by assumption)
  · exact hb (by assumption)
theorem asks_bind {q : List CStr} {g : Reply → Sh α} (hg : ∀ r, Asks (g r)) : Asks ((call (.query q)).bind g) := by
  intro w s
  unfold Sh.bind
  rw [call_eq]
  by_cases hs : (w s.hist (.query q)).sig = true
  · rw [if_pos hs]
    refine .inr ⟨_, [_], rfl, fun v hv => ?_, _, List.mem_singleton_self _, hs⟩
    rw [List.mem_singleton.1 hv]; exact ⟨_, rfl⟩
  · rw [if_neg hs]
    rcases hg (w s.hist (.query q)) w (push s (.query q) (w s.hist (.query q))) with h | ⟨n, l, h1, h2, v, hv, h3⟩
    · exact .inl h
    · refine .inr ⟨n, [(.query q, w s.hist (.query q))] ++ l, ?_, fun v hv => ?_, v, List.mem_append_right _ hv, h3⟩
      · rw [← plus_plus]; exact h1
      · rcases List.mem_append.1 hv with hv | hv
        · rw [List.mem_singleton.1 hv]; exact ⟨_, rfl⟩
        · exact h2 v hv
theorem asks_run {q : List CStr} {g : Unit → Sh α} (hg : Asks (g ())) : Asks ((run false (.query q)).bind g) := by
  have : (run false (.query q)).bind g = (call (.query q)).bind fun _ => g () := by
    funext w s
    unfold run Sh.bind
    rcases call (.query q) w s with ⟨o, s1⟩
    cases o <;> rfl
  rw [this]
  exact asks_bind fun _ => hg

theorem asks_upCheck : Asks (upCheck c) := by
  unfold upCheck
  cases c.plat with
  | freebsd => exact asks_bind fun r => asks_pure _
  | openbsd =>
    refine asks_bind fun r => ?_
    cases findReal c.iface [] (rawLines r.out) with
    | none => exact asks_pure _
    | some n => exact asks_modify _ fun w s => ⟨true, s, rfl⟩
  | darwin =>
    refine asks_run (asks_bind fun t => asks_ite (fun _ => asks_pure _) fun _ => asks_bind fun n => ?_)
    rw [if_neg (by simp)]
    refine asks_ite (fun _ => asks_pure _) fun _ => asks_bind fun t => asks_ite (fun _ => asks_pure _) fun _ => asks_bind fun a => asks_bind fun b => ?_
    dsimp only
    exact asks_ite (fun _ => asks_pure _) fun _ => asks_modify _ fun w s => ⟨true, s, rfl⟩

/-- Removing the temporary directory adds only that. -/
theorem Cleaned.acts {dir : CStr} {k : Nat} {e : End} {l : List Ev} (h : Cleaned c dir k e l) :
    (∀ v ∈ l, c.plat = .freebsd ∧ ∃ d, v.1 = cmd [b!"rm", b!"-rf", d]) ∧ ∃ m, e = .exit m ∧ (k ≠ 0 → m ≠ 0) := by
  unfold Cleaned TempRemoved TempLeft at h
  rcases h with ⟨h1, h2⟩ | ⟨⟨hp, h1⟩, m, hm, h2⟩
  · refine ⟨fun v hv => ?_, k, h2, id⟩
    by_cases hp : c.plat = .freebsd
    · rw [if_pos hp] at h1
      obtain ⟨_, e, he, rfl⟩ := h1
      rw [List.mem_singleton.1 hv]; exact ⟨hp, _, he.1⟩
    · rw [if_neg hp] at h1
      subst h1; cases hv
  · refine ⟨fun v hv => ?_, m, h2, fun _ => hm⟩
    rcases h1 with ⟨_, rfl⟩ | ⟨r, _, rfl⟩
    · cases hv
    · rw [List.mem_singleton.1 hv]; exact ⟨hp, _, rfl⟩

/-- How the commands of `up` end, before the traps. -/
inductive Ending (c : Cfg) : Out Unit → St → Prop
  | done {u s} : UpDone c s.tmp s.real s.hist → s.trap = restTrap c → Ending c (.ok u) s
  | refused {s lt lx} : s.hist = lt ++ lx → TempStep c s.tmp lt → ExistsStep c lx → s.trap = restTrap c → Ending c (.exit 1) s
  | noTemp {s} : c.plat = .freebsd → (∀ v ∈ s.hist, (∃ q, v.1 = .query q) ∨ v.1 = cmd [b!"mktemp", b!"-d"]) → s.trap = .none → Ending c (.exit 1) s
  | noTempSig {s n} : c.plat = .freebsd → (∀ v ∈ s.hist, (∃ q, v.1 = .query q) ∨ v.1 = cmd [b!"mktemp", b!"-d"]) → (∃ v ∈ s.hist, v.2.sig = true) → s.trap = .none → Ending c (.signal n) s
  | asked {s n lt l} : s.hist = lt ++ l → TempStep c s.tmp lt → (∀ v ∈ l, ∃ q, v.1 = .query q) → (∃ v ∈ l, v.2.sig = true) → s.trap = restTrap c → Ending c (.signal n) s
  | failed {o s lt lc l} : s.hist = lt ++ (lc ++ l) → TempStep c s.tmp lt → CheckStep c lc → MadeAs c s.real l → (s.haveDns = true ↔ ToldDns c l) →
      (∀ fam d via, Host d → addCmd fam d via ∈ l.map (·.1) → d ∈ s.endpoints) → s.trap = .up → Fine o l → (∀ u, o ≠ .ok u) → Ending c o s

theorem tempStep_any {dir dir' : CStr} {l : List Ev} (h : TempStep c dir l) : TempStep c (if c.plat = .freebsd then dir else dir') l := by
  unfold TempStep at h ⊢
  by_cases hp : c.plat = .freebsd
  · simp only [if_pos hp] at h ⊢; exact h
  · simp only [if_neg hp] at h ⊢; exact h

theorem ending (hsort : ∀ l, (c.sort l).Perm l) (hord : ∀ l, (c.order l).Perm l) {w : World} {o : Out Unit} {s : St} (h : commands c (cmdUp c) w (St.start c) = (o, s))
    (hr : o ≠ .running) : Ending c o s := by
  unfold commands at h
  rcases bind_inv h with ⟨_, t1, g1, h⟩ | ⟨o1, g1, h2⟩
  case inr =>
    rcases temp_ends g1 with ⟨_, _, _, _, rfl⟩ | ⟨hp, l, e1, ha, hb⟩
    · exact absurd rfl (stopped_not_ok h2 _)
    · have hh : s.hist = l := by rw [e1]; rfl
      have ht : s.trap = .none := by rw [e1]; rfl
      rcases hb with rfl | ⟨⟨n, rfl⟩, hb⟩
      · cases o <;> first | exact h2.elim | skip
        have : _ = _ := h2
        subst this
        exact .noTemp hp (by rw [hh]; exact ha) ht
      · cases o <;> first | exact h2.elim | skip
        exact .noTempSig hp (by rw [hh]; exact ha) (by rw [hh]; exact hb) ht
  obtain ⟨dir, lt, htemp, e1⟩ : ∃ dir lt, TempStep c dir lt ∧ t1 = { plus (St.start c) lt with tmp := dir } := by
    rcases temp_ends g1 with ⟨dir, lt, htemp, e1, _⟩ | ⟨_, l, _, _, hb⟩
    · exact ⟨_, lt, tempStep_any htemp, e1⟩
    · rcases hb with hb | ⟨⟨n, hb⟩, _⟩ <;> cases hb
  obtain ⟨_, t2, g2, h⟩ : ∃ a t2, setTrap (restTrap c) w t1 = (.ok a, t2) ∧ cmdUp c w t2 = (o, s) := ⟨(), _, rfl, h⟩
  have q2 : t2 = { plus (St.start c) lt with tmp := dir, trap := restTrap c } := by rw [modify_inv g2, e1]
  unfold cmdUp at h
  rcases bind_inv h with ⟨b, t3, g3, h⟩ | ⟨o1, g3, h2⟩
  case inr =>
    rcases asks_upCheck (c := c) w t2 with ⟨b, s', hx⟩ | ⟨n, l, hx, ha, hb⟩
    · rw [g3] at hx
      simp only [Prod.mk.injEq] at hx
      exact absurd hx.1 (stopped_not_ok h2 _)
    · rw [g3] at hx
      simp only [Prod.mk.injEq] at hx
      obtain ⟨rfl, e3⟩ := hx
      cases o <;> first | exact h2.elim | skip
      exact .asked (lt := lt) (l := l) (by rw [e3, q2]; rfl) (by rw [e3, q2]; exact htemp) ha hb (by rw [e3, q2]; rfl)
  obtain ⟨lcheck, hx, hb⟩ := upCheck_ok g3
  cases b with
  | true =>
    obtain ⟨hex, n, q3⟩ := hx rfl
    rw [if_pos rfl] at h
    simp only [exitWith, Prod.mk.injEq] at h
    obtain ⟨rfl, rfl⟩ := h
    exact .refused (lt := lt) (lx := lcheck) (by rw [q3, q2]; rfl) (by rw [q3, q2]; exact htemp) hex (by rw [q3, q2]; rfl)
  | false =>
    obtain ⟨hcheck, q3⟩ := hb rfl
    rw [if_neg (by simp)] at h
    obtain ⟨_, t4, g4, h⟩ : ∃ a t4, setTrap .up w t3 = (.ok a, t4) ∧ ((upBody c).bind fun _ => setTrap (restTrap c)) w t4 = (o, s) := ⟨(), _, rfl, h⟩
    have q4 := modify_inv g4
    have e4 : t4.hist = lt ++ lcheck := by rw [q4, q3, q2]; rfl
    have r4 : t4.real = if c.plat = .freebsd then c.iface else [] := by rw [q4, q3, q2]; rfl
    have d4 : t4.haveDns = false := by rw [q4, q3, q2]; rfl
    have m4 : t4.tmp = dir := by rw [q4, q3, q2]; rfl
    have p4 : t4.trap = .up := by rw [q4]
    rcases bind_inv h with ⟨_, t5, g5, h⟩ | ⟨o1, g5, h2⟩
    · have q5 : s = { t5 with trap := restTrap c } ∧ o = .ok () := by
        simp only [setTrap, modify, Prod.mk.injEq] at h
        exact ⟨h.2.symm, h.1.symm⟩
      obtain ⟨q5, rfl⟩ := q5
      obtain ⟨_, _, _, m5, _⟩ := upBody_stops hsort r4 d4 g5 (by simp)
      obtain ⟨ladd, lpre, conf, laddrs, lmtu, up, ldns, q, routes, lroutes, ldirect, llate, mon, lpost, e5, p⟩ := upBody_ok hsort hord (s0 := t4)
        (by intro hp; rw [r4, if_pos hp]) (by rw [q4, q3, q2]; exact ⟨rfl, rfl⟩) (by rw [q4, q3, q2]; exact ⟨rfl, rfl⟩) (by rw [q4, q3, q2]; rfl) (by rw [q4, q3, q2]; exact ⟨rfl, rfl⟩) g5
      have b1 : s.hist = t5.hist := by rw [q5]
      have b2 : s.real = t5.real := by rw [q5]
      have b3 : s.tmp = dir := by rw [q5]; exact m5.trans m4
      refine .done ⟨lt, lcheck, ladd, lpre, conf, laddrs, lmtu, up, ldns, q, routes, lroutes, ldirect, llate, mon, lpost, ?_, by rw [b3]; exact htemp, hcheck, ?_⟩ (by rw [q5])
      · rw [b1, e5, e4, b2]; simp
      · rw [b2]; exact p
    · obtain ⟨l, f, e5, m5, p5, made, dns, eps⟩ := upBody_stops hsort r4 d4 g5 (by rintro rfl; cases o <;> first | exact h2.elim | exact hr rfl)
      refine .failed (lt := lt) (lc := lcheck) (l := l) (by rw [e5, e4]; simp) (by rw [m5, m4]; exact htemp) hcheck made dns eps (p5.trans p4) (f.stopped h2) ?_
      rintro u rfl
      cases o1 <;> exact h2.elim

theorem up_ends (hsort : ∀ l, (c.sort l).Perm l) (hord : ∀ l, (c.order l).Perm l) {w : World} {e : End} {s : St} (h : script c (cmdUp c) w = (e, s))
    (hr : e ≠ .running) : UpSucceeded c e s.hist ∨ UpRefused c e s.hist ∨ UpNothing c e s.hist ∨ UpFailed c e s.hist := by
  unfold script at h
  rcases hc : commands c (cmdUp c) w (St.start c) with ⟨o, s1⟩
  rw [hc] at h
  have ho : o ≠ .running := by
    rintro rfl
    simp only [finish, Prod.mk.injEq] at h
    exact hr h.1.symm
  cases ending hsort hord hc ho with
  | done h1 h2 =>
    obtain ⟨l, h3, h4⟩ := exitTrap_rest h2 h
    exact .inl ⟨_, _, _, l, h4, h1, h3⟩
  | @refused _ lt lx h1 h2 h3 h4 =>
    obtain ⟨l, h5, h6⟩ := exitTrap_rest h4 h
    exact .inr (.inl ⟨_, lt, lx, l, by rw [h6, h1, List.append_assoc], h2, h3, h5⟩)
  | noTemp hp h1 h2 =>
    simp only [finish, exitTrap] at h
    rw [h2] at h
    simp only [Prod.mk.injEq] at h
    refine .inr (.inr (.inl ⟨fun v hv => ?_, .inr ⟨1, by simp, h.1.symm⟩⟩))
    rw [← h.2] at hv
    exact (h1 v hv).imp id fun x => ⟨hp, .inl x⟩
  | noTempSig hp h1 h2 h3 =>
    simp only [finish] at h
    rw [h3] at h
    simp only [Prod.mk.injEq] at h
    refine .inr (.inr (.inl ⟨fun v hv => ?_, .inl (by rw [← h.2]; exact h2)⟩))
    rw [← h.2] at hv
    exact (h1 v hv).imp id fun x => ⟨hp, .inl x⟩
  | @asked _ n lt l h1 h2 h3 h4 h5 =>
    refine .inr (.inr (.inl ?_))
    have hacts : ∀ v ∈ s1.hist, (∃ q, v.1 = .query q) ∨ (c.plat = .freebsd ∧ (v.1 = cmd [b!"mktemp", b!"-d"] ∨ ∃ d, v.1 = cmd [b!"rm", b!"-rf", d])) := by
      intro v hv
      rw [h1] at hv
      rcases List.mem_append.1 hv with hv | hv
      · unfold TempStep at h2
        by_cases hp : c.plat = .freebsd
        · rw [if_pos hp] at h2
          obtain ⟨r, t, _, _, e⟩ := h2
          rw [e] at hv
          simp only [List.mem_cons, List.not_mem_nil, or_false] at hv
          rcases hv with rfl | rfl
          · exact .inr ⟨hp, .inl rfl⟩
          · exact .inl ⟨_, rfl⟩
        · rw [if_neg hp] at h2
          rw [h2] at hv; cases hv
      · exact .inl (h3 v hv)
    have hsig : ∃ v ∈ s1.hist, v.2.sig = true := by
      obtain ⟨v, hv, hs⟩ := h4
      exact ⟨v, by rw [h1]; exact List.mem_append_right _ hv, hs⟩
    by_cases hp : c.plat = .freebsd
    · have ht : s1.trap = .clean := by rw [h5]; unfold restTrap; rw [if_pos hp]
      simp only [finish] at h
      rw [ht] at h
      dsimp only at h
      rcases h6 : trapBody c .clean (calm w) s1 with ⟨o2, s2⟩
      rw [h6] at h
      change cleanTemp (calm w) s1 = (o2, s2) at h6
      have hcl : ∃ l2, s2 = plus s1 l2 ∧ ∀ v ∈ l2, ∃ d, v.1 = cmd [b!"rm", b!"-rf", d] := by
        unfold cleanTemp at h6
        rw [get_bind] at h6
        by_cases htmp : s1.tmp = []
        · rw [if_pos htmp] at h6
          simp only [exitWith, Prod.mk.injEq] at h6
          exact ⟨[], by rw [plus_nil, h6.2], by simp⟩
        · rw [if_neg htmp, run_eq] at h6
          simp only [Prod.mk.injEq] at h6
          refine ⟨[_], h6.2.symm, fun v hv => ?_⟩
          rw [List.mem_singleton.1 hv]; exact ⟨_, rfl⟩
      obtain ⟨l2, e2, a2⟩ := hcl
      have ht2 : s2.trap = restTrap c := by rw [e2]; exact h5
      have hfin : ∃ k, exitTrap (trapBody c) trapStatus k w s2 = (e, s) := by
        cases o2 with
        | ok u => exact ⟨_, h⟩
        | exit m => exact ⟨_, h⟩
        | signal m => exact ⟨_, h⟩
        | running =>
          simp only [Prod.mk.injEq] at h
          exact absurd h.1.symm hr
      obtain ⟨k, hfin⟩ := hfin
      obtain ⟨l3, h8, h9⟩ := exitTrap_rest ht2 hfin
      have e3 : s.hist = s1.hist ++ l2 ++ l3 := by rw [h9, e2]; rfl
      refine ⟨fun v hv => ?_, .inl ?_⟩
      · rw [e3] at hv
        rcases List.mem_append.1 hv with hv | hv
        · rcases List.mem_append.1 hv with hv | hv
          · exact hacts v hv
          · exact .inr ⟨hp, .inr (a2 v hv)⟩
        · obtain ⟨_, d, hd⟩ := (Cleaned.acts h8).1 v hv
          exact .inr ⟨hp, .inr ⟨d, hd⟩⟩
      · obtain ⟨v, hv, hs⟩ := hsig
        exact ⟨v, by rw [e3]; exact List.mem_append_left _ (List.mem_append_left _ hv), hs⟩
    · have ht : s1.trap = .none := by rw [h5]; unfold restTrap; rw [if_neg hp]
      simp only [finish] at h
      rw [ht] at h
      simp only [Prod.mk.injEq] at h
      exact ⟨by rw [← h.2]; exact hacts, .inl (by rw [← h.2]; exact hsig)⟩
  | @failed _ _ lt lc l h1 h2 h3 h4 h5 h6 h7 h8 h9 =>
    refine .inr (.inr (.inr ?_))
    cases o with
    | ok u => exact absurd rfl (h9 u)
    | running => exact absurd rfl ho
    | exit n =>
      obtain ⟨lu, k, g1, g2, g3, g4⟩ := exitTrap_up h7 h hr
      exact ⟨s1.tmp, lt, lc, l, lu, s1.real, s1.haveDns, s1.endpoints, by rw [g2, h1]; simp, h2, h3, h4, h5, h6, k, g3, .inr ⟨g4 h8, g1⟩⟩
    | signal n =>
      simp only [finish] at h
      rw [h7] at h
      dsimp only at h
      rcases g0 : trapBody c .up (calm w) s1 with ⟨o2, s2⟩
      rw [g0] at h
      have ho2 : o2 ≠ .running := by
        rintro rfl
        simp only [Prod.mk.injEq] at h
        exact hr h.1.symm
      obtain ⟨l1, t1, e2, t3⟩ := trapUp_try g0 ho2
      have ht2 : s2.trap = .up := by rw [e2]; exact h7
      have hfin : ∃ k, exitTrap (trapBody c) trapStatus k w s2 = (e, s) := by
        rcases t3 with ⟨u, rfl⟩ | ⟨m, _, rfl⟩
        · exact ⟨_, h⟩
        · exact ⟨_, h⟩
      obtain ⟨k0, hfin⟩ := hfin
      obtain ⟨l2, k, g1, g2, g3, _⟩ := exitTrap_up ht2 hfin hr
      rw [e2] at g1
      refine ⟨s1.tmp, lt, lc, l, l1 ++ l2, s1.real, s1.haveDns, s1.endpoints, ?_, h2, h3, h4, h5, h6, k, g3, .inl ⟨h8, l1, l2, rfl, t1, g1⟩⟩
      rw [g2, e2, plus_hist, h1]; simp

end WG.Bsd
