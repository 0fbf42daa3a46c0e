import Verif.Proof.QuickDown
/-! `up` and its traps. -/
namespace WG.Quick
open WG.Spec.Quick

variable {α β : Type} {X : Call → Prop} {Z : Nat → List Ev → Prop}

/-! ### What the flags record -/

/-- A successful DNS or firewall command, and nothing else, has set its flag. -/
def Flagged (c : Cfg) (s : St) : Prop :=
  ((∃ e ∈ s.hist, IsDnsAdd c e.1 ∧ Succeeded e) ↔ s.haveDns = true) ∧
  ((∃ e ∈ s.hist, IsFwAdd e.1 ∧ Succeeded e) ↔ s.haveFw = true)

theorem exists_concat {γ : Type} {P : γ → Prop} (h : List γ) (e : γ) : (∃ x ∈ h ++ [e], P x) ↔ (∃ x ∈ h, P x) ∨ P e := by
  constructor
  · rintro ⟨x, hx, hp⟩
    rcases List.mem_append.1 hx with hx | hx
    · exact .inl ⟨x, hx, hp⟩
    · rw [List.mem_singleton] at hx; subst hx; exact .inr hp
  · rintro (⟨x, hx, hp⟩ | hp)
    · exact ⟨x, List.mem_append_left _ hx, hp⟩
    · exact ⟨e, by simp, hp⟩

def Pres (c : Cfg) (m : Sh α) : Prop := ∀ w s, Flagged c s → Flagged c (m w s).2

theorem pres_pure {c : Cfg} (a : α) : Pres c (Sh.pure a) := fun _ _ h => h
theorem pres_exit {c : Cfg} (n : Nat) : Pres c (exitWith n : Sh α) := fun _ _ h => h
theorem pres_giveUp {c : Cfg} : Pres c (giveUp : Sh α) := fun _ _ h => h

theorem pres_bind {c : Cfg} {m : Sh α} {f : α → Sh β} (hm : Pres c m) (hf : ∀ a, Pres c (f a)) : Pres c (m.bind f) := by
  intro w s hs
  unfold Sh.bind
  have h := hm w s hs
  rcases e : m w s with ⟨o, s'⟩
  rw [e] at h
  cases o with
  | ok a => exact hf a w s' h
  | exit n => exact h
  | signal n => exact h
  | running => exact h

theorem pres_call {c : Cfg} (a : Call) (h1 : ¬ IsDnsAdd c a) (h2 : ¬ IsFwAdd a) : Pres c (call a) := by
  intro w s hs
  have : (call a w s).2 = { s with hist := s.hist ++ [(a, w s.hist a)] } := by
    unfold call; dsimp only; split <;> rfl
  rw [this]
  constructor
  · rw [exists_concat, or_iff_left (fun h => h1 h.1)]; exact hs.1
  · rw [exists_concat, or_iff_left (fun h => h2 h.1)]; exact hs.2

theorem pres_query {c : Cfg} (argv : List CStr) : Pres c (call (.query argv)) :=
  pres_call _ (by rintro ⟨_, _, h⟩; simp at h) (by rintro ⟨_, _, h, _⟩; simp at h)

theorem pres_run {c : Cfg} (e : Bool) (a : Call) (h1 : ¬ IsDnsAdd c a) (h2 : ¬ IsFwAdd a) : Pres c (run e a) := by
  refine pres_bind (pres_call a h1 h2) fun r => ?_
  split
  · exact pres_exit _
  · exact pres_pure _

/-- Commands without input that are not the resolvconf command. -/
theorem pres_cmd {c : Cfg} (e : Bool) (argv : List CStr) (h : argv.head? ≠ some b!"resolvconf" ∨ argv.length ≠ 6) : Pres c (run e (.act argv [])) := by
  refine pres_run e _ ?_ ?_
  · rintro ⟨p, t, h'⟩
    simp only [Call.act.injEq] at h'
    rw [h'.1] at h
    rcases h with h | h <;> exact h rfl
  · rintro ⟨_, t, h', ht, _⟩
    simp only [Call.act.injEq] at h'
    exact ht h'.2.symm

theorem pres_hooks {c : Cfg} (hooks : List CStr) : Pres c (executeHooks c hooks) := by
  unfold executeHooks
  induction hooks with
  | nil => exact pres_pure _
  | cons h hs ih =>
    refine pres_bind (pres_run _ _ ?_ ?_) fun _ => ih
    · rintro ⟨_, _, h⟩; simp at h
    · rintro ⟨_, _, h, _⟩; simp at h

theorem pres_forEach {c : Cfg} {γ : Type} {f : γ → Sh Unit} (hf : ∀ x, Pres c (f x)) (xs : List γ) : Pres c (forEach f xs) := by
  induction xs with
  | nil => exact pres_pure _
  | cons x xs ih => exact pres_bind (hf x) fun _ => ih

theorem pres_addIf (c : Cfg) : Pres c (addIf c) := by
  unfold addIf
  refine pres_bind (pres_call _ ?_ ?_) fun r => ?_
  · rintro ⟨_, _, h⟩; simp [linkAdd] at h
  · rintro ⟨_, _, h, ht, _⟩
    simp only [linkAdd, Call.act.injEq] at h
    exact ht h.2.symm
  split
  · exact pres_pure _
  refine pres_bind (pres_query _) fun r => ?_
  split
  · exact pres_exit _
  refine pres_bind (pres_query _) fun r => ?_
  split
  · exact pres_exit _
  · exact pres_cmd _ _ (.inr (by simp))

theorem pres_ifacePrefix {c : Cfg} : Pres c ifacePrefix := by
  unfold ifacePrefix
  refine pres_bind (pres_query _) fun t => ?_
  split
  · exact pres_pure _
  · refine pres_bind (pres_query _) fun r => ?_
    split <;> exact pres_pure _

theorem pres_setConfig (c : Cfg) : Pres c (setConfig c) := by
  refine pres_run _ _ ?_ ?_
  · rintro ⟨_, _, h⟩; simp at h
  · rintro ⟨_, _, h, _, h2⟩
    simp only [Call.act.injEq] at h
    rw [← h.1] at h2
    simp at h2

theorem pres_mtuFrom {c : Cfg} (o : CStr) (mtu : Nat) : Pres c (mtuFrom o mtu) := by
  unfold mtuFrom
  split
  · exact pres_pure _
  · split
    · exact pres_pure _
    · refine pres_bind (pres_query _) fun r => ?_
      split <;> exact pres_pure _

theorem pres_mtuLoop {c : Cfg} (ls : List CStr) (mtu : Nat) : Pres c (mtuLoop ls mtu) := by
  induction ls generalizing mtu with
  | nil => exact pres_pure _
  | cons l ls ih =>
    unfold mtuLoop
    split
    · exact ih mtu
    · exact pres_bind (pres_query _) fun r => pres_bind (pres_mtuFrom _ _) fun m => ih m

theorem pres_setMtuUp (c : Cfg) : Pres c (setMtuUp c) := by
  unfold setMtuUp
  split
  · exact pres_cmd _ _ (.inl (by simp))
  · refine pres_bind (pres_query _) fun r => pres_bind (pres_mtuLoop _ _) fun m => pres_bind ?_ fun m => pres_cmd _ _ (.inl (by simp))
    unfold mtuDefault
    split
    · exact pres_bind (pres_query _) fun r => pres_mtuFrom _ _
    · exact pres_pure _

/-- The set-up commands themselves, with the flag set right after. -/
theorem pres_dns {c : Cfg} (a : Call) (h1 : IsDnsAdd c a) (h2 : ¬ IsFwAdd a) : Pres c ((run true a).bind fun _ => setHaveDns) := by
  intro w s hs
  unfold Sh.bind
  rw [run_eq]
  have hfw : ∀ d, ((∃ e ∈ s.hist ++ [(a, w s.hist a)], IsFwAdd e.1 ∧ Succeeded e) ↔ (St.mk (s.hist ++ [(a, w s.hist a)]) d s.haveFw).haveFw = true) := by
    intro d
    rw [exists_concat, or_iff_left (fun h => h2 h.1)]; exact hs.2
  have hbad : ¬ Succeeded (a, w s.hist a) → Flagged c { s with hist := s.hist ++ [(a, w s.hist a)] } := by
    intro hns
    refine ⟨?_, hfw _⟩
    rw [exists_concat, or_iff_left (fun h => hns h.2)]; exact hs.1
  by_cases h3 : (w s.hist a).sig = true
  · simp only [h3, if_true]
    exact hbad fun h => by have := h.2; simp [h3] at this
  · simp only [h3]
    by_cases h4 : (w s.hist a).status ≠ 0
    · rw [if_neg (by simp), if_pos ⟨trivial, h4⟩]
      exact hbad fun h => h4 h.1
    · rw [if_neg (by simp), if_neg (by simpa using h4)]
      refine ⟨iff_of_true ?_ rfl, hfw _⟩
      exact ⟨(a, w s.hist a), List.mem_append_right _ (List.mem_singleton_self _), h1, not_not.1 h4, by simpa using h3⟩

theorem pres_fw {c : Cfg} (a : Call) (h1 : IsFwAdd a) (h2 : ¬ IsDnsAdd c a) : Pres c ((run true a).bind fun _ => setHaveFw) := by
  intro w s hs
  unfold Sh.bind
  rw [run_eq]
  have hfw : ∀ d, ((∃ e ∈ s.hist ++ [(a, w s.hist a)], IsDnsAdd c e.1 ∧ Succeeded e) ↔ (St.mk (s.hist ++ [(a, w s.hist a)]) s.haveDns d).haveDns = true) := by
    intro d
    rw [exists_concat, or_iff_left (fun h => h2 h.1)]; exact hs.1
  have hbad : ¬ Succeeded (a, w s.hist a) → Flagged c { s with hist := s.hist ++ [(a, w s.hist a)] } := by
    intro hns
    refine ⟨hfw _, ?_⟩
    rw [exists_concat, or_iff_left (fun h => hns h.2)]; exact hs.2
  by_cases h3 : (w s.hist a).sig = true
  · simp only [h3, if_true]
    exact hbad fun h => by have := h.2; simp [h3] at this
  · simp only [h3]
    by_cases h4 : (w s.hist a).status ≠ 0
    · rw [if_neg (by simp), if_pos ⟨trivial, h4⟩]
      exact hbad fun h => h4 h.1
    · rw [if_neg (by simp), if_neg (by simpa using h4)]
      refine ⟨hfw _, iff_of_true ?_ rfl⟩
      exact ⟨(a, w s.hist a), List.mem_append_right _ (List.mem_singleton_self _), h1, not_not.1 h4, by simpa using h3⟩

theorem pres_setDns (c : Cfg) : Pres c (setDns c) := by
  unfold setDns
  split
  · exact pres_pure _
  · refine pres_bind pres_ifacePrefix fun pre => pres_dns _ ⟨pre, _, rfl⟩ ?_
    rintro ⟨_, _, h, _, h2⟩
    simp only [dnsAdd, Call.act.injEq] at h
    rw [← h.1] at h2
    simp at h2

theorem pres_getFwmark (c : Cfg) : Pres c (getFwmark c) := by
  unfold getFwmark
  refine pres_bind (pres_query _) fun t => ?_
  split
  · exact pres_pure _
  · split <;> exact pres_pure _

theorem pres_freeTable {c : Cfg} (n t : Nat) : Pres c (freeTable n t) := by
  induction n generalizing t with
  | zero => exact pres_giveUp
  | succ n ih =>
    unfold freeTable
    refine pres_bind (pres_query _) fun r => ?_
    split
    · exact ih _
    · refine pres_bind (pres_query _) fun r => ?_
      split
      · exact ih _
      · exact pres_pure _

theorem pres_markTable (c : Cfg) : Pres c (markTable c) := by
  unfold markTable
  refine pres_bind (pres_getFwmark c) fun t => ?_
  cases t with
  | some t => exact pres_pure _
  | none =>
    exact pres_bind (pres_freeTable _ _) fun t => pres_bind (pres_cmd _ _ (.inl (by simp))) fun _ => pres_pure _

theorem nftText_ne (c : Cfg) (pf t : CStr) (as : List CStr) : nftText c pf t as ≠ [] := by
  unfold nftText
  dsimp only
  simp only [List.append_assoc]
  exact List.append_ne_nil_of_left_ne_nil (List.cons_ne_nil _ _) _

theorem restoreText_ne (c : Cfg) (t : CStr) (as : List CStr) : restoreText c t as ≠ [] := by
  unfold restoreText
  simp only [List.append_assoc]
  exact List.append_ne_nil_of_left_ne_nil (List.cons_ne_nil _ _) _

theorem pres_addDefault (c : Cfg) (r : CStr) : Pres c (addDefault c r) := by
  unfold addDefault
  refine pres_bind (pres_markTable c) fun t => pres_bind (pres_cmd _ _ (.inl (by simp))) fun _ => pres_bind (pres_cmd _ _ (.inl (by simp))) fun _ =>
    pres_bind (pres_cmd _ _ (.inl (by simp))) fun _ => pres_bind (pres_query _) fun a => pres_bind ?_ fun _ => pres_bind (pres_query _) fun q => ?_
  · split
    · exact pres_pure _
    · exact pres_cmd _ _ (.inl (by simp))
  · split
    · exact pres_fw _ ⟨_, _, rfl, nftText_ne _ _ _ _, .inl rfl⟩ (by rintro ⟨_, _, h⟩; simp at h)
    · refine pres_fw _ ⟨_, _, rfl, restoreText_ne _ _ _, ?_⟩ (by rintro ⟨_, _, h⟩; simp at h)
      unfold iptOf
      split
      · exact .inr (.inr rfl)
      · exact .inr (.inl rfl)

theorem pres_addRoute (c : Cfg) (r : CStr) : Pres c (addRoute c r) := by
  unfold addRoute
  split
  · exact pres_pure _
  split
  · exact pres_cmd _ _ (.inl (by simp))
  split
  · exact pres_addDefault c r
  · refine pres_bind (pres_query _) fun q => ?_
    split
    · exact pres_pure _
    · exact pres_cmd _ _ (.inl (by simp))

theorem pres_upBody (c : Cfg) : Pres c (upBody c) := by
  unfold upBody
  refine pres_bind (pres_addIf c) fun _ => pres_bind (pres_hooks _) fun _ => pres_bind (pres_setConfig c) fun _ =>
    pres_bind (pres_forEach (fun a => pres_cmd _ _ (.inl (by simp))) _) fun _ => pres_bind (pres_setMtuUp c) fun _ =>
    pres_bind (pres_setDns c) fun _ => pres_bind (pres_query _) fun r => pres_bind (pres_forEach (pres_addRoute c) _) fun _ => pres_hooks _

/-! ### One run of the cleanup -/

theorem calm_sig {w : World} {h l : List Ev} (ha : Answers (calm w) h l) {e : Ev} (he : e ∈ l) : e.2.sig = false := by
  obtain ⟨h', h2⟩ := ha.mem he
  rw [h2]; rfl

/-- A run of the cleanup in a trap: its events, how it ends. -/
theorem cleanup_run (c : Cfg) (w : World) (s : St) :
    ∃ l, (delIf c (calm w) s).2.hist = s.hist ++ l ∧ (delIf c (calm w) s).2.haveDns = s.haveDns ∧ (delIf c (calm w) s).2.haveFw = s.haveFw ∧
      Answers (calm w) s.hist l ∧
      match (delIf c (calm w) s).1 with
      | .ok _ => CleanedUp c s.haveDns s.haveFw l ∧ ∀ e ∈ l, isAct e.1 = true → e.2.status = 0
      | .exit n => CleanedUp c s.haveDns s.haveFw l ∧ n ≠ 0 ∧ ∃ e ∈ l, e.2.status = n ∧ isAct e.1 = true
      | .signal _ => False
      | .running => True := by
  rw [delIf_eq]
  obtain ⟨l, h1, ha, h2⟩ := does_delWith (X := fun _ => False) (Z := fun _ _ => False) c s.haveDns s.haveFw (calm w) s
  have hk := keeps_delWith c s.haveDns s.haveFw (calm w) s
  refine ⟨l, h1, hk.1, hk.2, ha, ?_⟩
  rcases h2 with ⟨a, h2, h3, h4⟩ | ⟨pre, suf, a, full, rest, h2, rfl, h4, h5, rfl, h7⟩
  · rw [h2]
    have : ∀ e ∈ l, isAct e.1 = true → e.2.status = 0 := fun e he hact => ((h4 e he).2 hact).resolve_right (by simp)
    exact ⟨.inl ⟨h3, this⟩, this⟩
  · rcases e : (delWith c s.haveDns s.haveFw (calm w) s).1 with _ | n | n | _
    · rw [e] at h2; exact h2.elim
    · rw [e] at h2
      dsimp only
      rcases h2 with ⟨c', r, rfl, hc', hs, rfl, hn⟩ | h2
      · refine ⟨.inr ⟨pre, c', r, _, rfl, hc', hn, fun e he hact => ((h4 e he).2 hact).resolve_right (by simp), h5, ?_⟩, hn, (c', r), by simp, rfl, hc'⟩
        rw [acts_append, acts_append]
        exact List.prefix_append_right_inj _ |>.2 h7
      · exact h2.elim
    · rw [e] at h2
      obtain ⟨c', r, rfl, hs, _⟩ := h2
      have := calm_sig ha (e := (c', r)) (by simp)
      rw [hs] at this
      exact absurd this (by simp)
    · trivial

/-! ### Adding the interface -/

theorem call_eq (a : Call) (w : World) (s : St) :
    call a w s = (if (w s.hist a).sig = true then .signal (w s.hist a).status else .ok (w s.hist a),
      { s with hist := s.hist ++ [(a, w s.hist a)] }) := by
  unfold call
  dsimp only
  split <;> rfl

theorem bind_call (a : Call) (f : Reply → Sh α) (w : World) (s : St) :
    (call a).bind f w s = if (w s.hist a).sig = true then (.signal (w s.hist a).status, { s with hist := s.hist ++ [(a, w s.hist a)] })
      else f (w s.hist a) w { s with hist := s.hist ++ [(a, w s.hist a)] } := by
  unfold Sh.bind
  rw [call_eq]
  by_cases h : (w s.hist a).sig = true
  · simp only [h, if_true]
  · simp only [h]; rfl

theorem addIf_abs (A M U V : Call) (w : World) (s : St) :
    ∃ l, ((call A).bind fun r => if r.status = 0 then Sh.pure () else (call M).bind fun m => if m.status = 0 then exitWith 0
        else (call U).bind fun u => if u.status ≠ 0 then exitWith 0 else run true V) w s =
      (((call A).bind fun r => if r.status = 0 then Sh.pure () else (call M).bind fun m => if m.status = 0 then exitWith 0
        else (call U).bind fun u => if u.status ≠ 0 then exitWith 0 else run true V) w s |>.1, { s with hist := s.hist ++ l }) ∧
      match (((call A).bind fun r => if r.status = 0 then Sh.pure () else (call M).bind fun m => if m.status = 0 then exitWith 0
        else (call U).bind fun u => if u.status ≠ 0 then exitWith 0 else run true V) w s).1 with
      | .ok _ => (∃ r, l = [(A, r)] ∧ r.status = 0 ∧ r.sig = false) ∨
          (∃ r m u a, l = [(A, r), (M, m), (U, u), (V, a)] ∧ r.status ≠ 0 ∧ m.status ≠ 0 ∧ u.status = 0 ∧ a.status = 0 ∧
            r.sig = false ∧ m.sig = false ∧ u.sig = false ∧ a.sig = false)
      | .exit n => n = 0 → ∃ e ∈ l, e.1 = A ∧ e.2.status ≠ 0
      | .signal _ => ∃ e ∈ l, e.2.sig = true
      | .running => False := by
  rw [bind_call]
  by_cases h1 : (w s.hist A).sig = true
  · rw [if_pos h1]; exact ⟨[_], rfl, _, List.mem_singleton_self _, h1⟩
  rw [if_neg h1]
  by_cases h2 : (w s.hist A).status = 0
  · rw [if_pos h2]; exact ⟨[_], rfl, .inl ⟨_, rfl, h2, by simpa using h1⟩⟩
  rw [if_neg h2, bind_call]
  generalize hs1 : ({ s with hist := s.hist ++ [(A, w s.hist A)] } : St) = s1
  have e1 : s1.hist = s.hist ++ [(A, w s.hist A)] := by rw [← hs1]
  have q1 : ({ s1 with hist := s1.hist ++ [(M, w s1.hist M)] } : St) = { s with hist := s.hist ++ [(A, w s.hist A), (M, w s1.hist M)] } := by
    rw [e1, ← hs1]; simp
  by_cases h3 : (w s1.hist M).sig = true
  · rw [if_pos h3, q1]; exact ⟨_, rfl, (M, w s1.hist M), by simp, h3⟩
  rw [if_neg h3]
  by_cases h4 : (w s1.hist M).status = 0
  · rw [if_pos h4, q1]; exact ⟨_, rfl, fun _ => ⟨_, List.mem_cons_self .., rfl, h2⟩⟩
  rw [if_neg h4, bind_call]
  generalize hs2 : ({ s1 with hist := s1.hist ++ [(M, w s1.hist M)] } : St) = s2
  have e2 : s2.hist = s1.hist ++ [(M, w s1.hist M)] := by rw [← hs2]
  have q2 : ({ s2 with hist := s2.hist ++ [(U, w s2.hist U)] } : St) =
      { s with hist := s.hist ++ [(A, w s.hist A), (M, w s1.hist M), (U, w s2.hist U)] } := by
    rw [e2, ← hs2, e1, ← hs1]; simp
  by_cases h5 : (w s2.hist U).sig = true
  · rw [if_pos h5, q2]; exact ⟨_, rfl, (U, w s2.hist U), by simp, h5⟩
  rw [if_neg h5]
  by_cases h6 : (w s2.hist U).status ≠ 0
  · rw [if_pos h6, q2]; exact ⟨_, rfl, fun _ => ⟨_, List.mem_cons_self .., rfl, h2⟩⟩
  rw [if_neg h6, run_eq]
  generalize hs3 : ({ s2 with hist := s2.hist ++ [(U, w s2.hist U)] } : St) = s3
  have e3 : s3.hist = s2.hist ++ [(U, w s2.hist U)] := by rw [← hs3]
  have e0 : ({ s3 with hist := s3.hist ++ [(V, w s3.hist V)] } : St) =
      { s with hist := s.hist ++ [(A, w s.hist A), (M, w s1.hist M), (U, w s2.hist U), (V, w s3.hist V)] } := by
    rw [e3, e2, e1, ← hs3, ← hs2, ← hs1]; simp
  rw [e0]
  refine ⟨_, rfl, ?_⟩
  by_cases h7 : (w s3.hist V).sig = true
  · rw [if_pos h7]; exact ⟨(V, w s3.hist V), by simp, h7⟩
  rw [if_neg h7]
  by_cases h8 : (w s3.hist V).status ≠ 0
  · rw [if_pos ⟨rfl, h8⟩]; exact fun _ => ⟨_, List.mem_cons_self .., rfl, h2⟩
  · rw [if_neg (by simpa using h8)]
    exact .inr ⟨_, _, _, _, rfl, h2, h4, not_not.1 h6, not_not.1 h8, by simpa using h1, by simpa using h3, by simpa using h5, by simpa using h7⟩

theorem addIf_run (c : Cfg) (w : World) (s : St) :
    ∃ l, (addIf c w s).2.hist = s.hist ++ l ∧ Answers w s.hist l ∧ (∃ rest, AddActs c (acts (l ++ rest))) ∧
      match (addIf c w s).1 with
      | .ok _ => Added c l
      | .exit n => n = 0 → ∃ e ∈ l, e.1 = linkAdd c ∧ e.2.status ≠ 0
      | .signal _ => ∃ e ∈ l, e.2.sig = true
      | .running => False := by
  obtain ⟨l, h1, ha, h2⟩ := does_addIf (X := fun a => a = linkAdd c) (Z := fun n l => n = 0 ∧ l = []) c rfl ⟨rfl, rfl⟩ w s
  refine ⟨l, h1, ha, ?_, ?_⟩
  · rcases h2 with ⟨_, _, h3, _⟩ | ⟨pre, suf, _, full, rest, _, rfl, _, h5, rfl, h7⟩
    · exact ⟨[], by rw [List.append_nil]; exact h3⟩
    · obtain ⟨t, ht⟩ := h7
      obtain ⟨e, he⟩ := acts_of t (by
        intro c hc
        have : c ∈ acts rest := by rw [← ht]; exact List.mem_append_right _ hc
        exact (List.mem_filter.1 this).2)
      refine ⟨e, ?_⟩
      rw [acts_append] at h5
      rw [acts_append, acts_append, he, List.append_assoc, ht]
      exact h5
  · obtain ⟨l', h3, h4⟩ := addIf_abs (linkAdd c) (.query [b!"test", b!"-e", b!"/sys/module/wireguard"])
      (.query [b!"command", b!"-v", c.userspace]) (.act [c.userspace, c.iface] []) w s
    have h5 : (addIf c w s).2.hist = s.hist ++ l' := congrArg (fun p => p.2.hist) h3
    rw [h1] at h5
    have := List.append_cancel_left h5
    subst this
    exact h4

/-! ### `up` -/

/-- The body of `up`, from the start. -/
theorem upBody_run (c : Cfg) (w : World) (s : St) :
    ∃ l, (upBody c w s).2.hist = s.hist ++ l ∧
      (∃ full, UpSteps c full ∧ acts l <+: acts full) ∧
      match (upBody c w s).1 with
      | .ok _ => ∃ h1 h2, l = h1 ++ h2 ∧ Added c h1 ∧ RestSteps c h2 ∧
          (∀ e ∈ h2, e.2.sig = false ∧ (isAct e.1 = true → e.2.status = 0))
      | .exit n => n = 0 → ∃ e ∈ l, e.1 = linkAdd c ∧ e.2.status ≠ 0
      | .signal _ => ∃ e ∈ l, e.2.sig = true
      | .running => True := by
  obtain ⟨l1, h1, ha, ⟨x, hx⟩, h2⟩ := addIf_run c w s
  have hr := does_upRest (X := fun _ => False) (Z := fun _ _ => False) c
  rw [upBody_eq]
  unfold Sh.bind
  rcases e : addIf c w s with ⟨o, s1⟩
  rw [e] at h1 h2
  have hstop : ∃ full, UpSteps c full ∧ acts l1 <+: acts full := by
    obtain ⟨_, r, hr⟩ := hr.inh
    refine ⟨(l1 ++ x) ++ r, ⟨_, _, hx, hr, rfl⟩, ?_⟩
    rw [acts_append, acts_append, List.append_assoc]
    exact List.prefix_append _ _
  cases o with
  | exit n => exact ⟨l1, h1, hstop, h2⟩
  | signal n => exact ⟨l1, h1, hstop, h2⟩
  | running => exact h2.elim
  | ok a =>
    have hadd : AddActs c (acts l1) := by
      rcases h2 with ⟨r, rfl, _⟩ | ⟨r, m, u, a, rfl, _⟩
      · exact .inl rfl
      · exact .inr rfl
    dsimp only at h1 ⊢
    obtain ⟨l2, g1, ga, g2⟩ := hr w s1
    refine ⟨l1 ++ l2, by rw [g1, h1, List.append_assoc], ?_, ?_⟩
    · rcases g2 with ⟨b, g2, g3, g4⟩ | ⟨pre, suf, b, full, rest, g2, rfl, g4, g5, rfl, g7⟩
      · exact ⟨l1 ++ l2, ⟨_, _, hadd, g3, rfl⟩, List.prefix_refl _⟩
      · refine ⟨l1 ++ (pre ++ rest), ⟨_, _, hadd, g5, rfl⟩, ?_⟩
        rw [acts_append, acts_append, acts_append, acts_append]
        exact (List.prefix_append_right_inj _).2 ((List.prefix_append_right_inj _).2 g7)
    · rcases g2 with ⟨b, g2, g3, g4⟩ | ⟨pre, suf, b, full, rest, g2, rfl, g4, g5, rfl, g7⟩
      · rw [g2]
        exact ⟨l1, l2, rfl, h2, g3, fun e he => ⟨(g4 e he).1, fun hact => ((g4 e he).2 hact).resolve_right (by simp)⟩⟩
      · rcases e' : (upRest c w s1).1 with _ | n | n | _
        · rw [e'] at g2; exact g2.elim
        · rw [e'] at g2
          dsimp only
          rcases g2 with ⟨c', r, rfl, _, _, _, hn⟩ | g2
          · exact fun h => absurd h hn
          · exact g2.elim
        · rw [e'] at g2
          obtain ⟨c', r, rfl, hs, _⟩ := g2
          exact ⟨(c', r), by simp, hs⟩
        · trivial

/-- `up` after the check. -/
theorem up_run (c : Cfg) (w : World) (s : St) (hs : Flagged c s) :
    match (guarded (delIf c) (upBody c) w s).1 with
    | .ok _ => ∃ h1 h2, (guarded (delIf c) (upBody c) w s).2.hist = s.hist ++ (h1 ++ h2) ∧ Added c h1 ∧ RestSteps c h2 ∧
        (∀ e ∈ h2, e.2.sig = false ∧ (isAct e.1 = true → e.2.status = 0))
    | .exit n => ∃ hb l1 l2 dns fw, (guarded (delIf c) (upBody c) w s).2.hist = s.hist ++ (hb ++ (l1 ++ l2)) ∧
        (∃ full, UpSteps c full ∧ acts hb <+: acts full) ∧
        (l1 = [] ∨ CleanedUp c dns fw l1) ∧ CleanedUp c dns fw l2 ∧
        ((∃ e ∈ s.hist ++ hb, IsDnsAdd c e.1 ∧ Succeeded e) ↔ dns = true) ∧ ((∃ e ∈ s.hist ++ hb, IsFwAdd e.1 ∧ Succeeded e) ↔ fw = true) ∧
        (n = 0 → ∃ e ∈ hb, e.2.sig = true ∨ (e.1 = linkAdd c ∧ e.2.status ≠ 0))
    | .signal _ => False
    | .running => True := by
  obtain ⟨l, h1, h2, h3⟩ := upBody_run c w s
  have hf := pres_upBody c w s hs
  have hfl : ((∃ e ∈ s.hist ++ l, IsDnsAdd c e.1 ∧ Succeeded e) ↔ (upBody c w s).2.haveDns = true) ∧
      ((∃ e ∈ s.hist ++ l, IsFwAdd e.1 ∧ Succeeded e) ↔ (upBody c w s).2.haveFw = true) := by
    rw [← h1]; exact hf
  -- the EXIT trap
  have hexit : ∀ n s', (s'.haveDns = (upBody c w s).2.haveDns ∧ s'.haveFw = (upBody c w s).2.haveFw) →
      match (onExit (delIf c) n w s').1 with
      | .ok _ => False
      | .exit m => ∃ l2, (onExit (delIf c) n w s').2.hist = s'.hist ++ l2 ∧ CleanedUp c (upBody c w s).2.haveDns (upBody c w s).2.haveFw l2 ∧
          (m = 0 → n = 0)
      | .signal _ => False
      | .running => True := by
    intro n s' hk
    obtain ⟨l2, g1, _, _, _, g2⟩ := cleanup_run c w s'
    unfold onExit
    rcases e : delIf c (calm w) s' with ⟨o, s2⟩
    rw [e] at g1 g2
    rw [hk.1, hk.2] at g2
    cases o with
    | ok a => exact ⟨l2, g1, g2.1, id⟩
    | exit m => exact ⟨l2, g1, g2.1, fun h => absurd h g2.2.1⟩
    | signal m => exact g2
    | running => trivial
  unfold guarded
  rcases e : upBody c w s with ⟨o, s1⟩
  rw [e] at h1 h3 hfl hexit
  dsimp only at h1 h3 hfl hexit
  cases o with
  | ok a =>
    obtain ⟨x1, x2, rfl, h⟩ := h3
    exact ⟨x1, x2, h1, h⟩
  | running => trivial
  | exit n =>
    dsimp only
    have hx := hexit n s1 ⟨rfl, rfl⟩
    rcases e2 : onExit (delIf c) n w s1 with ⟨o2, s2⟩
    rw [e2] at hx
    cases o2 with
    | ok a => exact hx.elim
    | signal m => exact hx
    | running => trivial
    | exit m =>
      obtain ⟨l2, g1, g2, g3⟩ := hx
      refine ⟨l, [], l2, _, _, ?_, h2, .inl rfl, g2, hfl.1, hfl.2, fun hm => ?_⟩
      · dsimp only at g1 ⊢; rw [g1, h1]; simp
      · obtain ⟨e, he, h⟩ := h3 (g3 hm)
        exact ⟨e, he, .inr h⟩
  | signal n =>
    dsimp only
    obtain ⟨l1, g1, k1, k2, _, g2⟩ := cleanup_run c w s1
    rcases e2 : delIf c (calm w) s1 with ⟨o2, s2⟩
    rw [e2] at g1 g2 k1 k2
    dsimp only at g1 g2 k1 k2
    have hcl : ∀ m, (∃ a, o2 = .ok a) ∨ (∃ a, o2 = .exit a) → 
      match (onExit (delIf c) m w s2).1 with
      | .ok _ => False
      | .exit n => ∃ hb l1 l2 dns fw, (onExit (delIf c) m w s2).2.hist = s.hist ++ (hb ++ (l1 ++ l2)) ∧
        (∃ full, UpSteps c full ∧ acts hb <+: acts full) ∧
        (l1 = [] ∨ CleanedUp c dns fw l1) ∧ CleanedUp c dns fw l2 ∧
        ((∃ e ∈ s.hist ++ hb, IsDnsAdd c e.1 ∧ Succeeded e) ↔ dns = true) ∧ ((∃ e ∈ s.hist ++ hb, IsFwAdd e.1 ∧ Succeeded e) ↔ fw = true) ∧
        (n = 0 → ∃ e ∈ hb, e.2.sig = true ∨ (e.1 = linkAdd c ∧ e.2.status ≠ 0))
      | .signal _ => False
      | .running => True := by
      intro m ho
      have hx := hexit m s2 ⟨k1, k2⟩
      have hc1 : CleanedUp c s1.haveDns s1.haveFw l1 := by
        rcases ho with ⟨a, rfl⟩ | ⟨a, rfl⟩ <;> exact g2.1
      rcases e3 : onExit (delIf c) m w s2 with ⟨o3, s3⟩
      rw [e3] at hx
      cases o3 with
      | ok a => exact hx
      | signal m => exact hx
      | running => trivial
      | exit m =>
        obtain ⟨l2, x1, x2, x3⟩ := hx
        refine ⟨l, l1, l2, _, _, ?_, h2, .inr hc1, x2, hfl.1, hfl.2, fun _ => ?_⟩
        · dsimp only at x1 ⊢; rw [x1, g1, h1]; simp
        · obtain ⟨e, he, h⟩ := h3
          exact ⟨e, he, .inl h⟩
    cases o2 with
    | ok a =>
      have := hcl n (.inl ⟨a, rfl⟩)
      dsimp only
      revert this
      rcases (onExit (delIf c) n w s2) with ⟨_ | _ | _ | _, _⟩ <;> first | exact id | exact fun h => False.elim h
    | exit m =>
      have := hcl m (.inr ⟨m, rfl⟩)
      dsimp only
      revert this
      rcases (onExit (delIf c) m w s2) with ⟨_ | _ | _ | _, _⟩ <;> first | exact id | exact fun h => False.elim h
    | signal m => exact g2.elim
    | running => trivial

end WG.Quick
