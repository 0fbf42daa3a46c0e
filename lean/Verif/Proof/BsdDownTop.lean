import Verif.Proof.BsdDownEnd
/-! `save` and `down` on the BSDs as a whole. -/
namespace WG.Bsd
open WG.Quick (Call Reply Ev World Out calm chomp)
open WG.Spec WG.Spec.Quick WG.Spec.Bsd

variable {α β : Type} {c : Cfg}

/-! ### Steps that only take certain commands -/

/-- Only calls of `R`; a stop is at a bad event. -/
def Trim (R : Call → Prop) (m : Sh α) : Prop := ∀ w s, ∃ l, (m w s).2 = plus s l ∧ (∀ v ∈ l, R v.1) ∧
  ((∃ a, (m w s).1 = .ok a) ∨ (m w s).1 = .running ∨ ((∃ pre v, l = pre ++ [v] ∧ Bad v) ∧ Halt (m w s).1 l))

variable {R : Call → Prop}

theorem trim_pure (a : α) : Trim R (Sh.pure a) := fun _ s => ⟨[], (plus_nil s).symm, by simp, .inl ⟨a, rfl⟩⟩
theorem trim_giveUp : Trim R (giveUp : Sh α) := fun _ s => ⟨[], (plus_nil s).symm, by simp, .inr (.inl rfl)⟩

theorem trim_call {k : Call} (hk : R k) : Trim R (call k) := by
  intro w s
  rcases h : call k w s with ⟨o, s'⟩
  obtain ⟨h1, h2⟩ := call_inv h
  refine ⟨[(k, w s.hist k)], h1, by simpa using hk, ?_⟩
  rcases h2 with ⟨h2, _⟩ | ⟨h2, h3⟩
  · exact .inl ⟨_, h2⟩
  · exact .inr (.inr ⟨⟨[], _, rfl, .inr h3⟩, .inr ⟨⟨_, h2⟩, [], _, rfl, h3⟩⟩)

theorem trim_run {k : Call} (hk : R k) : Trim R (run true k) := by
  intro w s
  rcases h : run true k w s with ⟨o, s'⟩
  rcases run_result h with ⟨e, rfl, he, rfl⟩ | ⟨r, rfl, hb, hh⟩
  · exact ⟨[e], rfl, by simpa [he.1] using hk, .inl ⟨_, rfl⟩⟩
  · exact ⟨_, rfl, by simpa using hk, .inr (.inr ⟨⟨[], _, rfl, hb⟩, hh⟩)⟩

theorem trim_bind {m : Sh α} {f : α → Sh β} (hm : Trim R m) (hf : ∀ a, Trim R (f a)) : Trim R (m.bind f) := by
  intro w s
  obtain ⟨l1, e1, a1, p1⟩ := hm w s
  unfold Sh.bind
  rcases h : m w s with ⟨o, s1⟩
  rw [h] at e1 p1
  simp only at e1 p1
  subst e1
  rcases p1 with ⟨a, rfl⟩ | rfl | ⟨hb, hh⟩
  · obtain ⟨l2, e2, a2, p2⟩ := hf a w (plus s l1)
    refine ⟨l1 ++ l2, by dsimp only; rw [e2, plus_plus], fun v hv => ?_, ?_⟩
    · rcases List.mem_append.1 hv with hv | hv
      · exact a1 v hv
      · exact a2 v hv
    · rcases p2 with h | h | ⟨⟨pre, v, h1, h2⟩, h3⟩
      · exact .inl h
      · exact .inr (.inl h)
      · exact .inr (.inr ⟨⟨l1 ++ pre, v, by rw [h1]; simp, h2⟩, h3.pre _⟩)
  · exact ⟨l1, rfl, a1, .inr (.inl rfl)⟩
  · rcases hh with ⟨n, hn, rfl⟩ | ⟨⟨n, rfl⟩, hh⟩
    · exact ⟨l1, rfl, a1, .inr (.inr ⟨hb, .inl ⟨n, hn, rfl⟩⟩)⟩
    · exact ⟨l1, rfl, a1, .inr (.inr ⟨hb, .inr ⟨⟨n, rfl⟩, hh⟩⟩)⟩

theorem trim_waitGone (hR : ∀ q, R (.query q)) (n : Nat) : Trim R (waitGone c n) := by
  induction n with
  | zero => exact trim_giveUp
  | succ n ih =>
    unfold waitGone
    refine trim_bind (trim_call (hR _)) fun r => ?_
    split
    · exact trim_bind (trim_run (hR _)) fun _ => ih
    · exact trim_pure _

/-- As `Trim`, at a state with this name of the interface. -/
def TrimAt (R : Call → Prop) (m : Sh α) (s : St) : Prop := ∀ w, ∃ l, (m w s).2 = plus s l ∧ (∀ v ∈ l, R v.1) ∧
  ((∃ a, (m w s).1 = .ok a) ∨ (m w s).1 = .running ∨ ((∃ pre v, l = pre ++ [v] ∧ Bad v) ∧ Halt (m w s).1 l))

theorem Trim.at {m : Sh α} (h : Trim R m) (s : St) : TrimAt R m s := fun w => h w s

theorem trimAt_bind {m : Sh α} {f : α → Sh β} {s : St} (hm : TrimAt R m s) (hf : ∀ a l, TrimAt R (f a) (plus s l)) : TrimAt R (m.bind f) s := by
  intro w
  obtain ⟨l1, e1, a1, p1⟩ := hm w
  unfold Sh.bind
  rcases h : m w s with ⟨o, s1⟩
  rw [h] at e1 p1
  simp only at e1 p1
  subst e1
  rcases p1 with ⟨a, rfl⟩ | rfl | ⟨hb, hh⟩
  · obtain ⟨l2, e2, a2, p2⟩ := hf a l1 w
    refine ⟨l1 ++ l2, by dsimp only; rw [e2, plus_plus], fun v hv => ?_, ?_⟩
    · rcases List.mem_append.1 hv with hv | hv
      · exact a1 v hv
      · exact a2 v hv
    · rcases p2 with h | h | ⟨⟨pre, v, h1, h2⟩, h3⟩
      · exact .inl h
      · exact .inr (.inl h)
      · exact .inr (.inr ⟨⟨l1 ++ pre, v, by rw [h1]; simp, h2⟩, h3.pre _⟩)
  · exact ⟨l1, rfl, a1, .inr (.inl rfl)⟩
  · rcases hh with ⟨n, hn, rfl⟩ | ⟨⟨n, rfl⟩, hh⟩
    · exact ⟨l1, rfl, a1, .inr (.inr ⟨hb, .inl ⟨n, hn, rfl⟩⟩)⟩
    · exact ⟨l1, rfl, a1, .inr (.inr ⟨hb, .inr ⟨⟨n, rfl⟩, hh⟩⟩)⟩

theorem trimAt_get {f : St → Sh β} {s : St} (h : TrimAt R (f s) s) : TrimAt R (get.bind f) s := h

theorem trim_unsetFreebsd (hp : c.plat = .freebsd) {real : CStr} : Trim (RemoveAct c real) (unsetDnsFreebsd c) := by
  unfold unsetDnsFreebsd
  split
  · exact trim_pure _
  · refine trim_run (.inr ?_)
    rw [hp]
    exact .inl rfl

theorem trim_unsetOpenbsd (hp : c.plat = .openbsd) (s : St) : TrimAt (RemoveAct c s.real) (unsetDnsOpenbsd c) s := by
  unfold unsetDnsOpenbsd
  refine trimAt_bind ((trim_call (.inl ⟨_, rfl⟩)).at s) fun t l => ?_
  split
  · exact (trim_pure _).at _
  · refine trimAt_get (trimAt_bind ((trim_run (.inr ?_)).at _) fun _ l2 => (trim_run (.inr ?_)).at _)
    · rw [hp]; exact .inl rfl
    · rw [hp]; exact .inr (.inl rfl)

theorem trim_delIf (s : St) (hn : c.plat = .openbsd → s.real ≠ []) : TrimAt (RemoveAct c s.real) (delIf c) s := by
  unfold delIf
  refine trimAt_get ?_
  cases hp : c.plat with
  | freebsd =>
    dsimp only
    refine trimAt_bind ?_ fun _ l1 => trimAt_bind ((trim_call (.inl ⟨_, rfl⟩)).at _) fun t l2 => trimAt_bind ?_ fun _ l3 => (trim_waitGone (fun q => .inl ⟨q, rfl⟩) _).at _
    · split
      · exact (trim_unsetFreebsd hp).at _
      · exact (trim_pure _).at _
    · split
      · exact (trim_run (.inr (by rw [hp]; exact .inr (.inl rfl)))).at _
      · exact (trim_run (.inr (by rw [hp]; exact .inr (.inr rfl)))).at _
  | openbsd =>
    dsimp only
    refine trimAt_bind (trim_unsetOpenbsd hp s) fun _ l1 => ?_
    rw [if_neg (hn hp)]
    exact (trim_run (.inr (by rw [hp]; exact .inr (.inr rfl)))).at _
  | darwin =>
    dsimp only
    refine trimAt_bind ?_ fun _ l1 => (trim_run (.inr (by rw [hp]; exact .inr rfl))).at _
    split
    · exact (trim_pure _).at _
    · exact (trim_run (.inr (by rw [hp]; exact .inl rfl))).at _

/-- The name of an interface that was found on OpenBSD is not empty. -/
theorem described_ne {iface cur : CStr} {lines : List CStr} {n : CStr} (h : Described iface cur lines n) : n ≠ [] := by
  induction h with
  | line _ _ ih => exact ih
  | here _ h _ => rintro rfl; simp at h
  | other _ _ _ ih => exact ih

theorem hooks_ends {hooks : List CStr} {w : World} {s s' : St} {o : Out Unit} (h : executeHooks c hooks w s = (o, s')) :
    (∃ l, o = .ok () ∧ HooksDone c s.real hooks l ∧ s' = plus s l) ∨ ∃ l, s' = plus s l ∧ HooksBroke c s.real hooks l ∧ Halt o l := by
  unfold executeHooks at h
  induction hooks generalizing s with
  | nil => simp only [forEach, Sh.pure, Prod.mk.injEq] at h; exact .inl ⟨[], h.1.symm, .nil, by rw [plus_nil]; exact h.2.symm⟩
  | cons x xs ih =>
    rcases bind_inv h with ⟨_, s1, h1, h⟩ | ⟨o1, h1, h2⟩
    · dsimp only at h1
      rw [get_bind] at h1
      obtain ⟨e, he, rfl⟩ := run_did h1
      have hx : ∃ t, HookFor c s.real x t ∧ Did (.hook t) e := ⟨_, hookText_spec .., he⟩
      rcases ih h with ⟨l, rfl, hl, rfl⟩ | ⟨l, rfl, ⟨done, y, rest, l', t, r, g1, g2, g3, g4, rfl⟩, hh⟩
      · exact .inl ⟨e :: l, rfl, .cons hx hl, by rw [plus_plus]; rfl⟩
      · refine .inr ⟨e :: (l' ++ [(.hook t, r)]), by rw [plus_plus]; rfl, ⟨x :: done, y, rest, e :: l', t, r, by rw [g1]; rfl, .cons hx g2, g3, g4, rfl⟩, by simpa using hh.pre [e]⟩
    · dsimp only at h1
      rw [get_bind] at h1
      obtain ⟨r, e, hb, hh⟩ := run_stop h1 h2
      exact .inr ⟨_, e, ⟨[], x, xs, [], _, r, rfl, .nil, hookText_spec .., hb, rfl⟩, hh⟩

/-! ### All of it -/

theorem halt_not_ok {l : List Ev} {a : α} (h : Halt (.ok a) l) : False := by rcases h with ⟨_, _, h⟩ | ⟨⟨_, h⟩, _⟩ <;> cases h

theorem fileTry_eq {d d' : CStr} (h : TempTry c d = TempTry c d') : FileTry c d = FileTry c d' := by
  funext l; unfold FileTry; rw [h]

theorem save_ends {w : World} {e : End} {s : St} (h : script c (cmdSave c) w = (e, s)) :
    SaveSucceeded c e s.hist ∨ Refused c e s.hist ∨ UpNothing c e s.hist ∨ SaveStoppedBsd c e s.hist := by
  rcases begin_ends h with h | h | ⟨dir, real, lt, lf, s1, o, s2, ht, hf, e1, e2, e3, e4, tt, tc, hk, hfin⟩
  · exact .inr (.inl h)
  · exact .inr (.inr (.inl h))
  subst e2
  rcases saveConfig_ends hk with ⟨x, q, t, rfl, hl, hw, rfl⟩ | ⟨l, rfl, hq, hh⟩ | ⟨x, q, t, rfl, hl, hb, hh⟩
  · obtain ⟨last, h1, h2⟩ := exitTrap_rest (c := c) (s := { plus s1 (q ++ t) with trap := restTrap c }) rfl hfin
    refine .inl ⟨dir, s1.real, x, lt, lf, q, t, last, ?_, ht, hf, hl, hw, tc _ _ _ h1⟩
    rw [h2]
    show s1.hist ++ (q ++ t) ++ last = _
    rw [e1]; simp
  · obtain ⟨last, h1, h2⟩ := finish_temp (c := c) (s := plus s1 l) e3 hh hfin
    refine .inr (.inr (.inr ⟨dir, s1.real, lt, lf, l, last, ?_, ht, hf, .inl ⟨hq, ?_⟩⟩))
    · rw [h2]
      show s1.hist ++ l ++ last = _
      rw [e1]; simp
    · rw [← tt]; exact h1
  · obtain ⟨last, h1, h2⟩ := finish_file (c := c) (s := { plus s1 (q ++ t) with trap := .save }) rfl hh hfin
    refine .inr (.inr (.inr ⟨dir, s1.real, lt, lf, q ++ t, last, ?_, ht, hf, .inr ⟨x, q, t, rfl, hl, hb, ?_⟩⟩))
    · rw [h2]
      show s1.hist ++ (q ++ t) ++ last = _
      rw [e1]; simp
    · rw [← fileTry_eq tt]; exact h1

theorem found_ne {real : CStr} {l : List Ev} (h : FoundStep c real l) (hp : c.plat = .openbsd) : real ≠ [] := by
  unfold FoundStep at h
  rw [hp] at h
  obtain ⟨_, _, _, h, _⟩ := h
  exact described_ne h

theorem down_ends {w : World} {e : End} {s : St} (h : script c (cmdDown c) w = (e, s)) :
    DownSucceeded c e s.hist ∨ Refused c e s.hist ∨ UpNothing c e s.hist ∨ DownFailed c e s.hist ∨ DownWaiting c e s.hist := by
  rcases begin_ends h with h | h | ⟨dir, real, lt, lf, s1, o, s2, ht, hf, e1, e2, e3, e4, tt, tc, hk, hfin⟩
  · exact .inr (.inl h)
  · exact .inr (.inr (.inl h))
  subst e2
  have stop : ∀ {o : Out Unit} {s2 : St} {l all : List Ev}, Halt o l → s2.trap = restTrap c → s2.tmp = s1.tmp → s2.hist = s1.hist ++ all → finish (trapBody c) trapStatus w (o, s2) = (e, s) →
      (∀ last, Stops (TempTry c dir) e l last → DownBroke c s1.real dir e all last) → DownFailed c e s.hist := by
    intro o s2 l all hh htr htm hhi hfin hb
    obtain ⟨last, h1, h2⟩ := finish_temp htr hh hfin
    rw [htm, tt] at h1
    refine ⟨dir, s1.real, lt, lf, all, last, ?_, ht, hf, hb _ h1⟩
    rw [h2, hhi, e1]; simp
  rcases bind_inv hk with ⟨_, s3, h3, hk⟩ | ⟨o1, h3, h4⟩
  swap
  · rcases hooks_ends h3 with ⟨_, rfl, _⟩ | ⟨l, rfl, hb, hh⟩
    · exact absurd rfl (stopped_not_ok h4 _)
    · exact .inr (.inr (.inr (.inl (stop (s2 := plus s1 l) (hh.stopped h4) e3 rfl rfl hfin fun last h => .preDown hb h))))
  rcases hooks_ends h3 with ⟨l1, _, p1, rfl⟩ | ⟨_, _, _, hh⟩
  swap
  · exact (halt_not_ok hh).elim
  rcases bind_inv hk with ⟨_, s3, h3, hk⟩ | ⟨o1, h3, h4⟩
  swap
  · by_cases hsc : c.opts.saveConfig = true
    swap
    · rw [if_neg hsc] at h3
      simp only [Sh.pure, Prod.mk.injEq] at h3
      obtain ⟨rfl, _⟩ := h3
      exact absurd rfl (stopped_not_ok h4 _)
    rw [if_pos hsc] at h3
    rcases saveConfig_ends h3 with ⟨x, q, t, rfl, _⟩ | ⟨l, rfl, hq, hh⟩ | ⟨x, q, t, rfl, hl, hb, hh⟩
    · exact absurd rfl (stopped_not_ok h4 _)
    · exact .inr (.inr (.inr (.inl (stop (s2 := plus (plus s1 l1) l) (l := l) (all := l1 ++ l) (hh.stopped h4) e3 rfl (by rw [plus_plus]; rfl) hfin fun last h => .save p1 hsc (.inl ⟨hq, h⟩)))))
    · obtain ⟨last, h1, h2⟩ := finish_file (c := c) (s := { plus (plus s1 l1) (q ++ t) with trap := .save }) rfl (hh.stopped h4) hfin
      refine .inr (.inr (.inr (.inl ⟨dir, s1.real, lt, lf, l1 ++ (q ++ t), last, ?_, ht, hf, .save p1 hsc (.inr ⟨x, q, t, rfl, hl, hb, ?_⟩)⟩)))
      · rw [h2]
        show s1.hist ++ l1 ++ (q ++ t) ++ last = _
        rw [e1]; simp
      · rw [← fileTry_eq tt]; exact h1
  have : ∃ l2, SavedIf c s1.real l2 ∧ s3 = { plus s1 (l1 ++ l2) with trap := restTrap c } := by
    unfold SavedIf
    by_cases hsc : c.opts.saveConfig = true
    · rw [if_pos hsc] at h3
      simp only [if_pos hsc]
      rcases saveConfig_ends h3 with ⟨x, q, t, _, hl, hw, rfl⟩ | ⟨l, _, _, hh⟩ | ⟨_, _, _, _, _, _, hh⟩
      · refine ⟨q ++ t, ⟨x, q, t, rfl, hl, hw⟩, ?_⟩
        rw [plus_plus]
      · exact (halt_not_ok hh).elim
      · exact (halt_not_ok hh).elim
    · rw [if_neg hsc] at h3
      simp only [if_neg hsc]
      simp only [Sh.pure, Prod.mk.injEq] at h3
      refine ⟨[], rfl, ?_⟩
      rw [← h3.2, ← e3]
      unfold plus
      simp
  obtain ⟨l2, p2, rfl⟩ := this
  generalize hs3 : ({ plus s1 (l1 ++ l2) with trap := restTrap c } : St) = s3 at hk
  have g1 : s3.hist = s1.hist ++ (l1 ++ l2) := by rw [← hs3]; rfl
  have g2 : s3.trap = restTrap c := by rw [← hs3]
  have g3 : s3.tmp = s1.tmp := by rw [← hs3]; rfl
  have g4 : s3.real = s1.real := by rw [← hs3]; rfl
  have g5 : s3.haveDns = false := by rw [← hs3]; exact e4
  have trimEnd : ∀ {m : Sh Unit} {s4 s5 : St} {o4 : Out Unit}, TrimAt (RemoveAct c s4.real) m s4 → m w s4 = (o4, s5) → Stopped o4 o →
      ∃ l, s5 = plus s4 l ∧ ((RemoveBroke c s4.real l ∧ Halt o l) ∨ (o = .running ∧ ∀ v ∈ l, RemoveAct c s4.real v.1)) := by
    intro m s4 s5 o4 hm h hst
    obtain ⟨l, q1, q2, q3⟩ := hm w
    rw [h] at q1 q3
    rcases q3 with ⟨a, q3⟩ | q3 | ⟨q3, q4⟩
    · simp only at q3; rw [q3] at hst; exact absurd rfl (stopped_not_ok hst _)
    · simp only at q3; rw [q3] at hst
      cases o <;> first | exact hst.elim | exact ⟨l, q1, .inr ⟨rfl, q2⟩⟩
    · exact ⟨l, q1, .inl ⟨⟨q2, q3⟩, q4.stopped hst⟩⟩
  have waiting : ∀ {s5 : St} {l : List Ev}, o = .running → finish (trapBody c) trapStatus w (o, s5) = (e, s) → s5.hist = s3.hist ++ l → (∀ v ∈ l, RemoveAct c s1.real v.1) →
      DownWaiting c e s.hist := by
    rintro s5 l rfl hfin hl ha
    simp only [finish, Prod.mk.injEq] at hfin
    refine ⟨hfin.1.symm, dir, s1.real, lt, lf, l1, l2, l, ?_, ht, hf, p1, p2, ha⟩
    rw [← hfin.2, hl, g1, e1]; simp
  have hdel := trim_delIf (c := c) s3 fun hp => by rw [g4]; exact found_ne hf hp
  rcases bind_inv hk with ⟨_, s4, h4, hk⟩ | ⟨o1, h4, h5⟩
  swap
  · obtain ⟨l, rfl, ⟨hb, hh⟩ | ⟨hr, ha⟩⟩ := trimEnd hdel h4 h5
    swap
    · rw [g4] at ha
      exact .inr (.inr (.inr (.inr (waiting hr hfin rfl ha))))
    rw [g4] at hb
    exact .inr (.inr (.inr (.inl (stop (s2 := plus s3 l) (l := l) (all := l1 ++ (l2 ++ l)) hh g2 g3 (by show s3.hist ++ l = _; rw [g1]; simp) hfin fun last h => .remove p1 p2 hb h))))
  obtain ⟨l3, p3, rfl⟩ := delIf_ok h4
  rw [g4, g5] at p3
  rcases bind_inv hk with ⟨_, s4, h5, hk⟩ | ⟨o1, h5, h6⟩
  swap
  · have ht4 : TrimAt (RemoveAct c (plus s3 l3).real) (match c.plat with
       | .freebsd => unsetDnsFreebsd c
       | .openbsd => unsetDnsOpenbsd c
       | .darwin => Sh.pure ()) (plus s3 l3) := by
      cases hp : c.plat with
      | freebsd => exact (trim_unsetFreebsd hp).at _
      | openbsd => exact trim_unsetOpenbsd hp _
      | darwin => exact (trim_pure _).at _
    obtain ⟨l, rfl, ⟨hb, hh⟩ | ⟨hr, ha⟩⟩ := trimEnd ht4 h5 h6
    swap
    · rw [plus_real, g4] at ha
      refine .inr (.inr (.inr (.inr (waiting (l := l3 ++ l) hr hfin (by show s3.hist ++ l3 ++ l = _; simp) fun v hv => ?_))))
      rcases List.mem_append.1 hv with hv | hv
      · obtain ⟨l', d1, d2, _⟩ := hdel w
        rw [h4] at d1
        have : l' = l3 := by
          have := congrArg St.hist d1
          exact (List.append_cancel_left this).symm
        rw [this, g4] at d2
        exact d2 v hv
      · exact ha v hv
    rw [plus_real, g4] at hb
    exact .inr (.inr (.inr (.inl (stop (s2 := plus (plus s3 l3) l) (l := l) (all := l1 ++ (l2 ++ (l3 ++ l))) hh g2 g3 (by show s3.hist ++ l3 ++ l = _; rw [g1]; simp) hfin fun last h => .dns p1 p2 p3 hb h))))
  have : ∃ l4, DnsUndone c s1.real l4 ∧ s4 = plus (plus s3 l3) l4 := by
    unfold DnsUndone
    cases hp : c.plat with
    | freebsd => rw [hp] at h5; exact unsetDnsFreebsd_ok h5
    | openbsd => rw [hp] at h5; have := unsetDnsOpenbsd_ok h5; rw [plus_real, g4] at this; exact this
    | darwin =>
      rw [hp] at h5
      obtain ⟨_, rfl⟩ := pure_inv h5
      exact ⟨[], rfl, (plus_nil _).symm⟩
  obtain ⟨l4, p4, rfl⟩ := this
  rcases hooks_ends hk with ⟨l5, rfl, p5, rfl⟩ | ⟨l, rfl, hb, hh⟩
  · obtain ⟨last, q1, q2⟩ := exitTrap_rest (c := c) (s := plus (plus (plus s3 l3) l4) l5) g2 hfin
    rw [show (plus (plus (plus s3 l3) l4) l5).tmp = s1.tmp from g3] at q1
    refine .inl ⟨dir, s1.real, lt, lf, l1 ++ (l2 ++ (l3 ++ (l4 ++ l5))), last, ?_, ht, hf, ⟨l1, l2, l3, l4, l5, rfl, p1, p2, p3, p4, ?_⟩, tc _ _ _ q1⟩
    · rw [q2]
      show s3.hist ++ l3 ++ l4 ++ l5 ++ last = _
      rw [g1, e1]; simp
    · rw [plus_real, plus_real, g4] at p5; exact p5
  · rw [plus_real, plus_real, g4] at hb
    exact .inr (.inr (.inr (.inl (stop (s2 := plus (plus (plus s3 l3) l4) l) (l := l) (all := l1 ++ (l2 ++ (l3 ++ (l4 ++ l)))) hh g2 g3 (by show s3.hist ++ l3 ++ l4 ++ l = _; rw [g1]; simp) hfin
      fun last h => .postDown p1 p2 p3 p4 hb h))))

end WG.Bsd
