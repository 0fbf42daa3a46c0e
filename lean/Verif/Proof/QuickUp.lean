import Verif.Proof.QuickLogic
import Verif.Proof.QuickText
/-! What the steps of wg-quick do to the history. -/
namespace WG.Quick
open WG.Spec.Quick

variable {α β : Type} {X : Call → Prop} {Z : Nat → List Ev → Prop}

/-- Only queries. -/
def Silent (X : Call → Prop) (Z : Nat → List Ev → Prop) (m : Sh α) : Prop := Does X Z m (fun _ l => acts l = [])

theorem silent_pure (a : α) : Silent X Z (Sh.pure a) := (does_pure a).weaken (by rintro _ _ ⟨_, rfl⟩; rfl)

theorem silent_query (argv : List CStr) : Silent X Z (call (.query argv)) :=
  (does_query argv).weaken (by rintro _ _ rfl; rfl)

theorem silent_giveUp [Inhabited α] : Silent X Z (giveUp : Sh α) := by
  intro w s
  exact ⟨[], by simp [giveUp], answers_nil _ _, .inr ⟨[], [], default, [], [], rfl, rfl, by simp, rfl, rfl, List.prefix_refl _⟩⟩

theorem does_after {m : Sh α} {f : α → Sh β} {A : β → List Call → Prop} (hm : Silent X Z m)
    (hf : ∀ a, Does X Z (f a) (fun b l => A b (acts l))) (hA : ∃ b, ∃ l : List Ev, A b (acts l)) :
    Does X Z (m.bind f) (fun b l => A b (acts l)) := by
  refine (does_bind (R := fun _ b l => A b (acts l)) hm hf (fun _ => hA)).weaken ?_
  rintro b l ⟨a, l1, l2, h1, h2, rfl⟩
  rw [acts_append, h1]; exact h2

theorem silent_bind [Inhabited β] {m : Sh α} {f : α → Sh β} (hm : Silent X Z m) (hf : ∀ a, Silent X Z (f a)) : Silent X Z (m.bind f) :=
  does_after (A := fun _ l => l = []) hm hf ⟨default, [], rfl⟩

/-- A silent step after the others. -/
theorem does_before {m : Sh Unit} {f : Unit → Sh Unit} {A : List Call → Prop} (hm : Does X Z m (fun _ l => A (acts l)))
    (hf : Silent X Z (f ())) : Does X Z (m.bind f) (fun _ l => A (acts l)) := by
  refine (does_then hm hf ⟨(), [], rfl⟩).weaken ?_
  rintro b l ⟨l1, l2, h1, h2, rfl⟩
  rw [acts_append, h2, List.append_nil]; exact h1

theorem silent_setHaveDns : Silent X Z setHaveDns := by
  intro w s
  exact ⟨[], by simp [setHaveDns], answers_nil _ _, .inl ⟨(), rfl, rfl, by simp⟩⟩
theorem silent_setHaveFw : Silent X Z setHaveFw := by
  intro w s
  exact ⟨[], by simp [setHaveFw], answers_nil _ _, .inl ⟨(), rfl, rfl, by simp⟩⟩
theorem silent_getDns : Silent X Z getDns := by
  intro w s
  exact ⟨[], by simp [getDns], answers_nil _ _, .inl ⟨s.haveDns, rfl, rfl, by simp⟩⟩
theorem silent_getFw : Silent X Z getFw := by
  intro w s
  exact ⟨[], by simp [getFw], answers_nil _ _, .inl ⟨s.haveFw, rfl, rfl, by simp⟩⟩

/-- An event showing that some list of acts is possible. -/
theorem acts_of (l : List Call) (h : ∀ c ∈ l, isAct c = true) : ∃ e : List Ev, acts e = l := by
  refine ⟨l.map fun c => (c, ⟨0, [], false⟩), ?_⟩
  unfold acts
  rw [List.map_map]
  simp only [Function.comp_def, List.map_id']
  exact List.filter_eq_self.2 h

/-! ### Hooks -/

theorem substI_spec (iface h : CStr) : HookText iface h (substI iface h) := by
  match h with
  | [] => exact .nil
  | [c] =>
    rw [substI]
    exact .other (by rintro ⟨r, e⟩; simp at e) .nil
  | c :: d :: t =>
    rw [substI]
    by_cases e : c = c!"%" ∧ d = c!"i"
    · rw [if_pos e, e.1, e.2]
      exact .name (substI_spec iface t)
    · rw [if_neg e]
      refine .other ?_ (substI_spec iface (d :: t))
      rintro ⟨r, hr⟩
      simp only [List.cons_append, List.nil_append, List.cons.injEq] at hr
      exact e ⟨hr.1, hr.2.1⟩

theorem hookText_unique {iface h t t' : CStr} (a : HookText iface h t) (b : HookText iface h t') : t = t' := by
  induction a generalizing t' with
  | nil => cases b; rfl
  | @name s t _ ih =>
    generalize e : (b!"%i" ++ s) = q at b
    cases b with
    | nil => simp at e
    | @name s' t' hb =>
      have := List.append_cancel_left e
      subst this
      rw [ih hb]
    | other hn _ => exact absurd ⟨s, e.symm⟩ hn
  | @other x s t hn _ ih =>
    generalize e : (x :: s) = q at b
    cases b with
    | nil => simp at e
    | @name s' t' hb => exact absurd ⟨_, e⟩ hn
    | other _ hb =>
      simp only [List.cons.injEq] at e
      obtain ⟨rfl, rfl⟩ := e
      rw [ih hb]

theorem does_hooks (c : Cfg) (hooks : List CStr) : Does X Z (executeHooks c hooks) (fun _ l => HookActs c hooks (acts l)) := by
  unfold executeHooks
  refine (does_forEach (Q := fun h l => ∃ t, l = [.hook t] ∧ HookText c.iface h t) (fun h =>
    (does_run (.hook (substI c.iface h)) rfl true (.inl rfl)).weaken ?_) ?_ hooks).weaken ?_
  · intro _ l h2; exact ⟨_, h2, substI_spec _ _⟩
  · intro h; exact ⟨[(.hook (substI c.iface h), ⟨0, [], false⟩)], _, rfl, substI_spec _ _⟩
  · rintro _ l ⟨ls, h1, h2⟩
    rw [h2]
    clear h2
    unfold HookActs
    induction h1 with
    | nil => exact .nil
    | cons h _ ih =>
      obtain ⟨t, rfl, ht⟩ := h
      exact .cons ⟨t, rfl, ht⟩ ih

theorem hooks_inh (c : Cfg) (hooks : List CStr) : ∃ l : List Ev, HookActs c hooks (acts l) := by
  induction hooks with
  | nil => exact ⟨[], .nil⟩
  | cons h hs ih =>
    obtain ⟨l, hl⟩ := ih
    refine ⟨(.hook (substI c.iface h), ⟨0, [], false⟩) :: l, ?_⟩
    rw [acts_cons]
    exact .cons ⟨_, rfl, substI_spec _ _⟩ hl

/-! ### Steps of `up` -/

theorem does_exit {Q : α → List Ev → Prop} (n : Nat) (hZ : Z n []) (hQ : ∃ a l, Q a l) : Does X Z (exitWith n : Sh α) Q := by
  intro w s
  obtain ⟨a, l, h⟩ := hQ
  exact ⟨[], by simp [exitWith], answers_nil _ _, .inr ⟨[], [], a, l, l, .inr hZ, rfl, by simp, h, rfl, List.nil_prefix⟩⟩

theorem does_addIf (c : Cfg) (hX : X (linkAdd c)) (hZ : Z 0 []) : Does X Z (addIf c) (fun _ l => AddActs c (acts l)) := by
  have inh : ∃ _ : Unit, ∃ l : List Ev, acts l = [] ∨ acts l = [cmd [c.userspace, c.iface]] := ⟨(), [], .inl rfl⟩
  refine (does_bind (R := fun _ _ l => acts l = [] ∨ acts l = [cmd [c.userspace, c.iface]]) (does_call (linkAdd c) hX) (fun r => ?_)
    (fun _ => inh)).weaken ?_
  · split
    · exact (silent_pure ()).weaken fun _ _ h => .inl h
    · refine does_after (A := fun _ l => l = [] ∨ l = [cmd [c.userspace, c.iface]]) (silent_query _) (fun m => ?_) inh
      split
      · exact does_exit 0 hZ inh
      · refine does_after (A := fun _ l => l = [] ∨ l = [cmd [c.userspace, c.iface]]) (silent_query _) (fun u => ?_) inh
        split
        · exact does_exit 0 hZ inh
        · exact (does_run _ rfl true (.inl rfl)).weaken fun _ _ h => .inr h
  · rintro _ l ⟨r, l1, l2, rfl, h, rfl⟩
    rw [acts_append, show acts [(linkAdd c, r)] = [linkAdd c] from rfl]
    rcases h with h | h <;> rw [h]
    · exact .inl rfl
    · exact .inr rfl

theorem silent_mtuFrom (o : CStr) (mtu : Nat) : Silent X Z (mtuFrom o mtu) := by
  unfold mtuFrom
  split
  · exact silent_pure _
  · split
    · exact silent_pure _
    · refine silent_bind (silent_query _) fun r => ?_
      split <;> exact silent_pure _

theorem silent_mtuLoop (ls : List CStr) (mtu : Nat) : Silent X Z (mtuLoop ls mtu) := by
  induction ls generalizing mtu with
  | nil => exact silent_pure _
  | cons l ls ih =>
    unfold mtuLoop
    split
    · exact ih mtu
    · exact silent_bind (silent_query _) fun r => silent_bind (silent_mtuFrom _ _) fun m => ih m

theorem silent_mtuDefault (mtu : Nat) : Silent X Z (mtuDefault mtu) := by
  unfold mtuDefault
  split
  · exact silent_bind (silent_query _) fun r => silent_mtuFrom _ _
  · exact silent_pure _

/-! ### Events -/

/-- A command under `set -e` is the one event. -/
theorem does_runEv (c : Call) (hc : isAct c = true) : Does X Z (run true c) (fun _ l => ∃ r, l = [(c, r)]) := by
  intro w s
  rw [run_eq]
  refine ⟨[(c, w s.hist c)], rfl, answers_one _ _ _, ?_⟩
  dsimp only
  by_cases h : (w s.hist c).sig = true
  · refine .inr ⟨[], [(c, w s.hist c)], (), [(c, w s.hist c)], _, ?_, rfl, by simp, ⟨_, rfl⟩, rfl, List.prefix_refl _⟩
    rw [if_pos h]
    exact ⟨_, _, rfl, h, rfl⟩
  · rw [if_neg h]
    by_cases h2 : true = true ∧ (w s.hist c).status ≠ 0
    · refine .inr ⟨[], [(c, w s.hist c)], (), [(c, w s.hist c)], _, ?_, rfl, by simp, ⟨_, rfl⟩, rfl, List.prefix_refl _⟩
      rw [if_pos h2]
      exact .inl ⟨_, _, rfl, hc, by simpa using h, rfl, h2.2⟩
    · refine .inl ⟨(), by rw [if_neg h2], ⟨_, rfl⟩, ?_⟩
      intro ev he
      rw [List.mem_singleton] at he; subst he
      exact ⟨by simpa using h, fun _ => .inl (by simpa using h2)⟩

/-- Whatever a `Does` statement allows can be seen in some history. -/
theorem Does.inh {m : Sh α} {Q : α → List Ev → Prop} (h : Does X Z m Q) : ∃ a l, Q a l := by
  obtain ⟨new, _, _, h | ⟨_, _, a, full, _, _, _, _, h, _⟩⟩ := h (fun _ _ => ⟨0, [], false⟩) {}
  · obtain ⟨a, _, h, _⟩ := h; exact ⟨a, _, h⟩
  · exact ⟨a, _, h⟩

/-- Sequencing. -/
theorem Does.bind {m : Sh α} {f : α → Sh β} {Q : α → List Ev → Prop} {R : α → β → List Ev → Prop}
    (hm : Does X Z m Q) (hf : ∀ a, Does X Z (f a) (R a)) :
    Does X Z (m.bind f) (fun b l => ∃ a l1 l2, Q a l1 ∧ R a b l2 ∧ l = l1 ++ l2) := does_bind hm hf fun a => (hf a).inh

theorem does_forEachEv {γ : Type} {f : γ → Sh Unit} {Q : γ → List Ev → Prop} (hf : ∀ x, Does X Z (f x) (fun _ l => Q x l)) (xs : List γ) :
    Does X Z (forEach f xs) (fun _ l => ∃ ls, List.Forall₂ Q xs ls ∧ l = ls.flatten) := by
  induction xs with
  | nil => exact (does_pure ()).weaken (by rintro a l ⟨_, rfl⟩; exact ⟨[], .nil, rfl⟩)
  | cons x xs ih =>
    refine ((hf x).bind (f := fun _ => forEach f xs) fun _ => ih).weaken ?_
    rintro _ l ⟨_, l1, l2, h1, ⟨ls, h2, rfl⟩, rfl⟩
    exact ⟨l1 :: ls, .cons h1 h2, rfl⟩

/-- A loop with one event each. -/
theorem does_forEachOne {γ : Type} {f : γ → Sh Unit} {Q : γ → Ev → Prop} (hf : ∀ x, Does X Z (f x) (fun _ l => ∃ e, Q x e ∧ l = [e])) (xs : List γ) :
    Does X Z (forEach f xs) (fun _ l => List.Forall₂ Q xs l) := by
  refine (does_forEachEv hf xs).weaken ?_
  rintro _ l ⟨ls, h, rfl⟩
  induction h with
  | nil => exact .nil
  | cons h _ ih =>
    obtain ⟨e, he, rfl⟩ := h
    exact .cons he ih

theorem does_hookSteps (c : Cfg) (hooks : List CStr) : Does X Z (executeHooks c hooks) (fun _ l => HookSteps c hooks l) :=
  does_forEachOne (fun h => (does_runEv _ rfl).weaken (by
    rintro _ l ⟨r, rfl⟩; exact ⟨_, ⟨_, rfl, substI_spec _ _⟩, rfl⟩)) hooks

theorem protoOf_eq (a : CStr) : protoOf a = family a := rfl

theorem does_addrSteps (c : Cfg) (as : List CStr) :
    Does X Z (forEach (addAddr c) as) (fun _ l => List.Forall₂ (fun a (e : Ev) => e.1 = addrAct c a) as l) :=
  does_forEachOne (fun a => (does_runEv _ rfl).weaken (by rintro _ l ⟨r, rfl⟩; exact ⟨_, rfl, rfl⟩)) as

/-! ### MTU -/

theorem does_mtuFrom (o : CStr) (mtu : Nat) : Does X Z (mtuFrom o mtu) (fun n l => ∃ m, MtuOf o m l ∧ n = max mtu (m.getD 0)) := by
  unfold mtuFrom
  cases e : mtuIn o with
  | some d =>
    refine (does_pure _).weaken ?_
    rintro _ _ ⟨rfl, rfl⟩
    exact ⟨some _, .route ((mtuIn_iff o _).1 (by rw [e]; rfl)), rfl⟩
  | none =>
    have hn := (mtuIn_none o).1 e
    cases e2 : devIn o with
    | none =>
      refine (does_pure _).weaken ?_
      rintro _ _ ⟨rfl, rfl⟩
      exact ⟨none, .none hn ((devIn_none o).1 e2), by simp⟩
    | some dev =>
      have hd := (devIn_iff o dev).1 e2
      refine ((does_query _).bind (R := fun r n l => l = [] ∧ n = max mtu (((mtuIn (chomp r.out)).map (digitsVal 10)).getD 0)) fun r => ?_).weaken ?_
      · cases mtuIn (chomp r.out) with
        | some d => exact (does_pure _).weaken (by rintro _ _ ⟨rfl, rfl⟩; exact ⟨rfl, rfl⟩)
        | none => exact (does_pure _).weaken (by rintro _ _ ⟨rfl, rfl⟩; exact ⟨rfl, by simp⟩)
      · rintro n l ⟨r, l1, l2, rfl, ⟨rfl, rfl⟩, rfl⟩
        cases e3 : mtuIn (chomp r.out) with
        | some d => exact ⟨some _, .link hn hd ((mtuIn_iff _ _).1 (by rw [← chomp_eq, e3]; rfl)), rfl⟩
        | none => exact ⟨none, .linkNone hn hd ((mtuIn_none _).1 e3), rfl⟩

theorem does_mtuLoop (ls : List CStr) (mtu : Nat) :
    Does X Z (mtuLoop ls mtu) (fun n l => ∃ ms, EndpointMtus (ls.map afterFirst) ms l ∧ n = ms.foldl max mtu) := by
  induction ls generalizing mtu with
  | nil => exact (does_pure _).weaken (by rintro _ _ ⟨rfl, rfl⟩; exact ⟨[], .nil, rfl⟩)
  | cons x ls ih =>
    unfold mtuLoop
    cases e : endpointHost (afterFirst x) with
    | none =>
      refine (ih mtu).weaken ?_
      rintro n l ⟨ms, h, rfl⟩
      exact ⟨ms, .skip ((endpointHost_none _).1 e) h, rfl⟩
    | some host =>
      refine ((does_query _).bind fun r => (does_mtuFrom (chomp r.out) mtu).bind fun m => ih m).weaken ?_
      rintro n l ⟨r, l1, l2, rfl, ⟨k, l3, l4, ⟨m, hm, rfl⟩, ⟨ms, h, rfl⟩, rfl⟩, rfl⟩
      refine ⟨m.toList ++ ms, EndpointMtus.look (l1 := l3) (l2 := l4) ((endpointHost_iff _ _).1 e) hm h, ?_⟩
      cases m <;> simp

theorem foldl_max_spec (ms : List Nat) (k : Nat) : k ≤ ms.foldl max k ∧ (∀ m ∈ ms, m ≤ ms.foldl max k) ∧ (ms.foldl max k = k ∨ ms.foldl max k ∈ ms) := by
  induction ms generalizing k with
  | nil => simp
  | cons m ms ih =>
    obtain ⟨h1, h2, h3⟩ := ih (max k m)
    rw [List.foldl_cons]
    refine ⟨by omega, ?_, ?_⟩
    · intro x hx
      rcases List.mem_cons.1 hx with rfl | hx
      · omega
      · exact h2 x hx
    · rcases h3 with h3 | h3
      · rw [h3]
        rcases Nat.le_total k m with h | h
        · rw [Nat.max_eq_right h]; exact .inr (List.mem_cons_self ..)
        · rw [Nat.max_eq_left h]; exact .inl rfl
      · exact .inr (List.mem_cons_of_mem _ h3)

theorem minus80_eq (n : Nat) : minus80 n = diffText n 80 := rfl

theorem does_setMtuUp (c : Cfg) : Does X Z (setMtuUp c) (fun _ l => MtuStep c l) := by
  unfold setMtuUp MtuStep
  by_cases hm : c.opts.mtu ≠ []
  · rw [if_pos hm]
    simp only [if_pos hm]
    exact does_runEv _ rfl
  · rw [if_neg hm]
    simp only [if_neg hm]
    have hdef : ∀ mtu : Nat, Does X Z (mtuDefault mtu) (fun n l =>
        (mtu ≠ 0 ∧ n = mtu ∧ l = []) ∨ (mtu = 0 ∧ ∃ r line m l', FirstLine r.out line ∧ MtuOf line m l' ∧
          l = (.query [b!"ip", b!"route", b!"show", b!"default"], r) :: l' ∧ n = m.getD 0)) := by
      intro mtu
      unfold mtuDefault
      by_cases h0 : mtu = 0
      · rw [if_pos h0]
        refine ((does_query _).bind fun r => does_mtuFrom _ 0).weaken ?_
        rintro n l ⟨r, l1, l2, rfl, ⟨m, h, rfl⟩, rfl⟩
        exact .inr ⟨h0, r, _, m, l2, firstLine_sound r.out, h, rfl, by simp⟩
      · rw [if_neg h0]
        refine (does_pure _).weaken ?_
        rintro n l ⟨rfl, rfl⟩
        exact .inl ⟨h0, rfl, rfl⟩
    refine ((does_query _).bind fun r => (does_mtuLoop (readLoopLines r.out) 0).bind fun m => (hdef m).bind fun m => does_runEv _ rfl).weaken ?_
    rintro _ l ⟨r, l1, l2, rfl, ⟨k, l3, l4, ⟨ms, hms, rfl⟩, ⟨n, l5, l6, hd, ⟨r', rfl⟩, rfl⟩, rfl⟩, rfl⟩
    refine ⟨if n = 0 then 1500 else n, (.query [b!"wg", b!"show", c.iface, b!"endpoints"], r) :: (l3 ++ l5), r', ?_, ?_⟩
    · refine ⟨r, _, ms, l3, l5, rfl, remainders_sound r.out, hms, ?_⟩
      obtain ⟨f1, f2, f3⟩ := foldl_max_spec ms 0
      rcases hd with ⟨h0, rfl, rfl⟩ | ⟨h0, r2, line, m, l', g1, g2, rfl, rfl⟩
      · rw [if_neg h0]
        exact .inl ⟨h0, f3.resolve_left h0, f2, rfl⟩
      · refine .inr ⟨?_, r2, line, m, l', g1, g2, rfl, rfl⟩
        intro x hx
        have := f2 x hx
        omega
    · rw [minus80_eq]; simp [linkUp, upAct, cmd]

/-! ### DNS -/

theorem collected_head {γ δ : Type} {R : γ → δ → Prop} {f : γ → Option δ} (h : ∀ x y, f x = some y ↔ R x y) (xs : List γ) :
    ∃ ys, Collected R xs ys ∧ ys.head? = xs.findSome? f := by
  refine ⟨_, collected_filterMap h xs, ?_⟩
  rw [List.head?_filterMap]

theorem does_ifacePrefix : Does X Z ifacePrefix (fun pre l => PrefixShown pre l) := by
  unfold ifacePrefix
  refine ((does_query _).bind (R := fun t pre l => (t.status ≠ 0 ∧ pre = [] ∧ l = []) ∨ (t.status = 0 ∧ ∃ r lines ps,
      l = [(.query [b!"cat", b!"/etc/resolvconf/interface-order"], r)] ∧ EndedLines r.out lines ∧ Collected OrderLine lines ps ∧
      pre = match ps.head? with | some p => p ++ b!"." | none => [])) fun t => ?_).weaken ?_
  · by_cases ht : t.status ≠ 0
    · rw [if_pos ht]
      exact (does_pure _).weaken (by rintro _ _ ⟨rfl, rfl⟩; exact .inl ⟨ht, rfl, rfl⟩)
    · rw [if_neg ht]
      refine ((does_query _).bind (R := fun r pre l => l = [] ∧ pre = match (readLoopLines r.out).findSome? orderPrefix with | some p => p ++ b!"." | none => []) fun r => ?_).weaken ?_
      · cases (readLoopLines r.out).findSome? orderPrefix with
        | some p => exact (does_pure _).weaken (by rintro _ _ ⟨rfl, rfl⟩; exact ⟨rfl, rfl⟩)
        | none => exact (does_pure _).weaken (by rintro _ _ ⟨rfl, rfl⟩; exact ⟨rfl, rfl⟩)
      · rintro pre l ⟨r, l1, l2, rfl, ⟨rfl, hp⟩, rfl⟩
        obtain ⟨ps, h1, h2⟩ := collected_head orderPrefix_iff (readLoopLines r.out)
        exact .inr ⟨by simpa using ht, r, _, ps, rfl, (endedLines_iff _ _).2 rfl, h1, by rw [h2]; exact hp⟩
  · rintro pre l ⟨t, l1, l2, rfl, ⟨h1, rfl, rfl⟩ | ⟨h1, r, lines, ps, rfl, h2, h3, h4⟩, rfl⟩
    · exact .inl ⟨t, h1, rfl, rfl⟩
    · exact .inr ⟨t, r, lines, ps, h1, rfl, h2, h3, h4⟩

theorem silent_ifacePrefix : Silent X Z ifacePrefix := by
  unfold ifacePrefix
  refine silent_bind (silent_query _) fun t => ?_
  split
  · exact silent_pure _
  · refine silent_bind (silent_query _) fun r => ?_
    split <;> exact silent_pure _

theorem joinSpace_eq (l : List CStr) : joinSpace l = List.intercalate b!" " l := by
  induction l with
  | nil => rfl
  | cons x xs ih =>
    cases xs with
    | nil => simp [joinSpace]
    | cons y ys =>
      rw [joinSpace, ih]
      · simp [List.intercalate, List.intersperse]
      · simp

theorem resolvText_eq (o : Opts) : resolvText o = resolvLines o := by
  unfold resolvText resolvLines
  rw [joinSpace_eq]

theorem does_setHaveDns : Does X Z setHaveDns (fun _ l => l = []) := by
  intro w s
  exact ⟨[], by simp [setHaveDns], answers_nil _ _, .inl ⟨(), rfl, rfl, by simp⟩⟩
theorem does_setHaveFw : Does X Z setHaveFw (fun _ l => l = []) := by
  intro w s
  exact ⟨[], by simp [setHaveFw], answers_nil _ _, .inl ⟨(), rfl, rfl, by simp⟩⟩

theorem does_setDns (c : Cfg) : Does X Z (setDns c) (fun _ l => DnsStep c l) := by
  unfold setDns DnsStep
  by_cases h : c.opts.dns = []
  · rw [if_pos h]
    simp only [if_pos h]
    exact (does_pure ()).weaken fun _ _ h => h.2
  · rw [if_neg h]
    simp only [if_neg h]
    refine (does_ifacePrefix.bind fun pre => (does_runEv _ rfl).bind fun _ => does_setHaveDns).weaken ?_
    rintro _ l ⟨pre, l1, l2, h1, ⟨_, l3, l4, ⟨r, rfl⟩, rfl, rfl⟩, rfl⟩
    refine ⟨pre, l1, r, h1, ?_⟩
    rw [← resolvText_eq]; rfl

/-! ### Default routes -/

theorem silent_getFwmark (c : Cfg) : Silent X Z (getFwmark c) := by
  unfold getFwmark
  refine silent_bind (silent_query _) fun r => ?_
  split
  · exact silent_pure _
  · split <;> exact silent_pure _

theorem does_getFwmark (c : Cfg) : Does X Z (getFwmark c) (fun t l => ∃ m, l = [(.query [b!"wg", b!"show", c.iface, b!"fwmark"], m)] ∧
    ((t = none ∧ ¬ Marked m) ∨ (Marked m ∧ t = some (markDecimal (captured m.out))))) := by
  unfold getFwmark
  refine ((does_query _).bind (R := fun m t l => l = [] ∧ ((t = none ∧ ¬ Marked m) ∨ (Marked m ∧ t = some (markDecimal (captured m.out))))) fun m => ?_).weaken ?_
  · unfold Marked
    by_cases h1 : m.status ≠ 0
    · rw [if_pos h1]
      exact (does_pure _).weaken (by rintro _ _ ⟨rfl, rfl⟩; exact ⟨rfl, .inl ⟨rfl, fun h => h1 h.1⟩⟩)
    · rw [if_neg h1, chomp_eq]
      by_cases h2 : captured m.out = [] ∨ captured m.out = b!"off"
      · rw [if_pos h2]
        exact (does_pure _).weaken (by rintro _ _ ⟨rfl, rfl⟩; exact ⟨rfl, .inl ⟨rfl, fun h => h2.elim h.2.1 h.2.2⟩⟩)
      · rw [if_neg h2]
        rw [not_or] at h2
        exact (does_pure _).weaken (by rintro _ _ ⟨rfl, rfl⟩; exact ⟨rfl, .inr ⟨⟨by simpa using h1, h2⟩, rfl⟩⟩)
  · rintro t l ⟨m, l1, l2, rfl, ⟨rfl, h⟩, rfl⟩
    exact ⟨m, rfl, h⟩

theorem does_freeTable (n t : Nat) : Does X Z (freeTable n t) (fun k l => FreeTable t k l) := by
  induction n generalizing t with
  | zero =>
    intro w s
    exact ⟨[], by simp [freeTable, giveUp], answers_nil _ _, .inr ⟨[], [], t, _, _, rfl, rfl, by simp,
      .free (m := t) (r4 := ⟨0, [], false⟩) (r6 := ⟨0, [], false⟩) rfl rfl, rfl, List.nil_prefix⟩⟩
  | succ n ih =>
    unfold freeTable
    refine ((does_query _).bind (R := fun r4 k l => (captured r4.out ≠ [] ∧ FreeTable (t + 1) k l) ∨ (captured r4.out = [] ∧ ∃ r6 l',
        l = (.query [b!"ip", b!"-6", b!"route", b!"show", b!"table", showDec t], r6) :: l' ∧
        ((captured r6.out ≠ [] ∧ FreeTable (t + 1) k l') ∨ (captured r6.out = [] ∧ k = t ∧ l' = [])))) fun r4 => ?_).weaken ?_
    · rw [chomp_eq]
      by_cases h4 : captured r4.out ≠ []
      · rw [if_pos h4]
        exact (ih (t + 1)).weaken fun k l h => .inl ⟨h4, h⟩
      · rw [if_neg h4]
        refine ((does_query _).bind (R := fun r6 k l => (captured r6.out ≠ [] ∧ FreeTable (t + 1) k l) ∨ (captured r6.out = [] ∧ k = t ∧ l = [])) fun r6 => ?_).weaken ?_
        · rw [chomp_eq]
          by_cases h6 : captured r6.out ≠ []
          · rw [if_pos h6]
            exact (ih (t + 1)).weaken fun k l h => .inl ⟨h6, h⟩
          · rw [if_neg h6]
            exact (does_pure _).weaken (by rintro _ _ ⟨rfl, rfl⟩; exact .inr ⟨by simpa using h6, rfl, rfl⟩)
        · rintro k l ⟨r6, l1, l2, rfl, h, rfl⟩
          exact .inr ⟨by simpa using h4, r6, l2, rfl, h⟩
    · rintro k l ⟨r4, l1, l2, rfl, ⟨h4, h⟩ | ⟨h4, r6, l', rfl, ⟨h6, h⟩ | ⟨h6, rfl, rfl⟩⟩, rfl⟩
      · exact .used4 h4 h
      · exact .used6 h4 h6 h
      · exact .free h4 h6

theorem does_markTable (c : Cfg) : Does X Z (markTable c) (fun t l => MarkStep c t l) := by
  unfold markTable
  refine ((does_getFwmark c).bind (R := fun o t l => o = some t ∧ l = [] ∨ (o = none ∧ ∃ n lf r, FreeTable 51820 n lf ∧ t = showDec n ∧
      l = lf ++ [(cmd [b!"wg", b!"set", c.iface, b!"fwmark", t], r)])) fun o => ?_).weaken ?_
  · cases o with
    | some t => exact (does_pure _).weaken (by rintro _ _ ⟨rfl, rfl⟩; exact .inl ⟨rfl, rfl⟩)
    | none =>
      refine ((does_freeTable _ _).bind fun k => (does_runEv _ rfl).bind fun _ => does_pure _).weaken ?_
      rintro t l ⟨k, l1, l2, h1, ⟨_, l3, l4, ⟨r, rfl⟩, ⟨rfl, rfl⟩, rfl⟩, rfl⟩
      exact .inr ⟨rfl, k, l1, r, h1, rfl, rfl⟩
  · rintro t l ⟨o, l1, l2, ⟨m, rfl, hm⟩, h, rfl⟩
    rcases hm with ⟨rfl, hm⟩ | ⟨hm, rfl⟩
    · rcases h with ⟨h, _⟩ | ⟨_, n, lf, r, h1, h2, rfl⟩
      · cases h
      · exact ⟨m, .inr ⟨hm, n, lf, r, h1, h2, rfl⟩⟩
    · rcases h with ⟨h, rfl⟩ | ⟨h, _⟩
      · simp only [Option.some.injEq] at h
        subst h
        exact ⟨m, .inl ⟨hm, markDecimal_text m, rfl⟩⟩
      · cases h

theorem flatMap_append_assoc (a b : List (List UInt8)) : unlines (a ++ b) = unlines a ++ unlines b := by simp [unlines]
theorem unlines_map (f : CStr → CStr) (xs : List CStr) : unlines (xs.map f) = xs.flatMap fun x => f x ++ b!"\n" := by
  simp [unlines, List.flatMap_map]

set_option maxRecDepth 20000 in
theorem restoreText_eq (c : Cfg) (t : CStr) (addrs : List CStr) : restoreText c t addrs = unlines (iptRules c t addrs) := by
  unfold restoreText iptRules
  rw [flatMap_append_assoc, flatMap_append_assoc, unlines_map]
  simp only [unlines, List.flatMap_cons, List.flatMap_nil, List.append_nil, marker, ruleComment, List.append_assoc, List.cons_append, List.nil_append]

set_option maxRecDepth 20000 in
theorem nftText_eq (c : Cfg) (pf t : CStr) (addrs : List CStr) : nftText c pf t addrs = unlines (nftRules c pf t addrs) := by
  unfold nftText nftRules
  dsimp only
  rw [flatMap_append_assoc, flatMap_append_assoc, unlines_map]
  simp only [unlines, List.flatMap_cons, List.flatMap_nil, List.append_nil, List.append_assoc, List.cons_append, List.nil_append]

theorem iptOf_eq (r : CStr) : iptOf r ++ b!"-restore" = if c!":" ∈ r then b!"ip6tables-restore" else b!"iptables-restore" := by
  unfold iptOf; split <;> rfl

theorem does_firewall (c : Cfg) (r t : CStr) (addrs : List CStr) :
    Does X Z ((call (.query [b!"type", b!"-p", b!"nft"])).bind fun n =>
      (if n.status = 0 then run true (.act [b!"nft", b!"-f"] (nftText c (pfOf r) t addrs))
       else run true (.act [iptOf r ++ b!"-restore", b!"-n"] (restoreText c t addrs))).bind fun _ => setHaveFw)
      (fun _ l => FirewallStep c r t addrs l) := by
  refine ((does_query _).bind (R := fun n _ l => ∃ d, l = [(if n.status = 0 then .act [b!"nft", b!"-f"] (unlines (nftRules c (if c!":" ∈ r then b!"ip6" else b!"ip") t addrs))
     else .act [if c!":" ∈ r then b!"ip6tables-restore" else b!"iptables-restore", b!"-n"] (unlines (iptRules c t addrs)), d)]) fun n => ?_).weaken ?_
  · rw [nftText_eq, restoreText_eq, iptOf_eq]
    by_cases h : n.status = 0
    · simp only [if_pos h]
      refine ((does_runEv _ rfl).bind fun _ => does_setHaveFw).weaken ?_
      rintro _ l ⟨_, l1, l2, ⟨d, rfl⟩, rfl, rfl⟩
      exact ⟨d, rfl⟩
    · simp only [if_neg h]
      refine ((does_runEv _ rfl).bind fun _ => does_setHaveFw).weaken ?_
      rintro _ l ⟨_, l1, l2, ⟨d, rfl⟩, rfl, rfl⟩
      exact ⟨d, rfl⟩
  · rintro _ l ⟨n, l1, l2, rfl, ⟨d, rfl⟩, rfl⟩
    exact ⟨n, d, rfl⟩

theorem does_addDefault (c : Cfg) (r : CStr) : Does X Z (addDefault c r) (fun _ l => DefaultStep c r l) := by
  unfold addDefault
  have hsys : Does X Z (if c!":" ∈ r then Sh.pure () else run true (.act [b!"sysctl", b!"-q", b!"net.ipv4.conf.all.src_valid_mark=1"] []))
      (fun _ l => if c!":" ∈ r then l = [] else ∃ d, l = [(cmd [b!"sysctl", b!"-q", b!"net.ipv4.conf.all.src_valid_mark=1"], d)]) := by
    by_cases h : c!":" ∈ r
    · simp only [if_pos h]; exact (does_pure ()).weaken fun _ _ h => h.2
    · simp only [if_neg h]; exact does_runEv _ rfl
  refine ((does_markTable c).bind fun t => (does_runEv _ rfl).bind fun _ => (does_runEv _ rfl).bind fun _ => (does_runEv _ rfl).bind fun _ =>
    (does_query _).bind fun a => hsys.bind fun _ => does_firewall c r t _).weaken ?_
  rintro _ l ⟨t, lm, _, hm, ⟨_, _, _, ⟨r1, rfl⟩, ⟨_, _, _, ⟨r2, rfl⟩, ⟨_, _, _, ⟨r3, rfl⟩, ⟨a, _, _, rfl, ⟨_, ls, lf, hs, hf, rfl⟩, rfl⟩, rfl⟩, rfl⟩, rfl⟩, rfl⟩
  exact ⟨t, lm, r1, r2, r3, a, _, ls, lf, hm, inetAddrs_sound a.out, hf, hs, rfl⟩

theorem does_addRoute (c : Cfg) (r : CStr) : Does X Z (addRoute c r) (fun _ l => RouteStep c r l) := by
  unfold addRoute RouteStep
  by_cases h1 : c.opts.table = b!"off"
  · rw [if_pos h1]
    simp only [if_pos h1]
    exact (does_pure ()).weaken fun _ _ h => h.2
  rw [if_neg h1]
  simp only [if_neg h1]
  by_cases h2 : c.opts.table ≠ [] ∧ c.opts.table ≠ b!"auto"
  · rw [if_pos h2]
    simp only [if_pos h2]
    exact does_runEv _ rfl
  rw [if_neg h2]
  simp only [if_neg h2]
  by_cases h : b!"/0" <:+ r
  · rw [if_pos (List.isSuffixOf_iff_suffix.2 h)]
    simp only [if_pos h]
    exact does_addDefault c r
  · rw [if_neg (fun e => h (List.isSuffixOf_iff_suffix.1 e))]
    simp only [if_neg h]
    refine ((does_query _).bind (R := fun q _ l => if captured q.out ≠ [] then l = [] else
      ∃ d, l = [(cmd [b!"ip", family r, b!"route", b!"add", r, b!"dev", c.iface], d)]) fun q => ?_).weaken ?_
    · rw [chomp_eq]
      by_cases hq : captured q.out ≠ []
      · rw [if_pos hq]
        simp only [if_pos hq]
        exact (does_pure ()).weaken fun _ _ h => h.2
      · rw [if_neg hq]
        simp only [if_neg hq]
        exact does_runEv _ rfl
    · rintro _ l ⟨q, l1, l2, rfl, h, rfl⟩
      refine ⟨q, ?_⟩
      by_cases hq : captured q.out ≠ []
      · rw [if_pos hq] at h ⊢
        rw [h]; rfl
      · rw [if_neg hq] at h ⊢
        obtain ⟨d, rfl⟩ := h
        exact ⟨d, rfl⟩

/-- `up` after the interface was added. -/
def upRest (c : Cfg) : Sh Unit :=
  (executeHooks c c.opts.preUp).bind fun _ =>
  (setConfig c).bind fun _ =>
  (forEach (addAddr c) c.opts.addresses).bind fun _ =>
  (setMtuUp c).bind fun _ =>
  (setDns c).bind fun _ =>
  (call (.query [b!"wg", b!"show", c.iface, b!"allowed-ips"])).bind fun r =>
  (forEach (addRoute c) (c.sort (routesIn r.out))).bind fun _ =>
  executeHooks c c.opts.postUp

theorem upBody_eq (c : Cfg) : upBody c = (addIf c).bind fun _ => upRest c := rfl

theorem does_upRest (c : Cfg) : Does X Z (upRest c) (fun _ l => RestSteps c l) := by
  unfold upRest
  refine ((does_hookSteps c c.opts.preUp).bind fun _ => (does_runEv (.act [b!"wg", b!"setconf", c.iface] (stripText c.opts)) rfl).bind fun _ =>
    (does_addrSteps c c.opts.addresses).bind fun _ => (does_setMtuUp c).bind fun _ => (does_setDns c).bind fun _ =>
    (does_query [b!"wg", b!"show", c.iface, b!"allowed-ips"]).bind fun q =>
    (does_forEachEv (does_addRoute c) (c.sort (routesIn q.out))).bind fun _ => does_hookSteps c c.opts.postUp).weaken ?_
  rintro _ l ⟨_, hpre, _, hp, ⟨_, _, _, ⟨rset, rfl⟩, ⟨_, had, _, ha, ⟨_, hmtu, _, hm, ⟨_, hdns, _, hd, ⟨q, _, _, rfl, ⟨_, hr, hpost, hrr, hpo, rfl⟩, rfl⟩,
    rfl⟩, rfl⟩, rfl⟩, rfl⟩, rfl⟩
  exact ⟨hpre, rset, had, hmtu, hdns, q, _, hr, hpost, rfl, hp, ha, hm, hd, routesShown q.out, hrr, hpo⟩

theorem does_upBody (c : Cfg) (hX : X (linkAdd c)) (hZ : Z 0 []) : Does X Z (upBody c) (fun _ l => UpSteps c l) :=
  does_then (f := fun _ => upRest c) (does_addIf (X := X) (Z := Z) c hX hZ) (does_upRest c) (does_upRest (X := X) (Z := Z) c).inh |>.weaken
    (by rintro _ l ⟨l1, l2, h1, h2, rfl⟩; exact ⟨l1, l2, h1, h2, rfl⟩)

end WG.Quick
