import Verif.Spec.BsdUpEnd
import Verif.Proof.BsdRemove
import Verif.Proof.BsdUpDone
import Verif.Proof.BsdWhole
/-!
`up` on the BSDs: what holds when it stops anywhere.
-/
namespace WG.Bsd
open WG.Quick (Call Reply Ev World Out calm chomp readLoopLines afterFirst hasInfix endpointHost wordsAux routesIn)
open WG.Spec.Quick WG.Spec.Bsd

/-- Not zero, if it is an exit; at a signal, if it is one. -/
def Fine : Out α → List Ev → Prop
  | .exit n, _ => n ≠ 0
  | .signal _, l => ∃ pre v, l = pre ++ [v] ∧ v.2.sig = true
  | _, _ => True

theorem Fine.pre {o : Out α} {l : List Ev} (h : Fine o l) (a : List Ev) : Fine o (a ++ l) := by
  cases o with
  | signal n => obtain ⟨pre, v, rfl, hv⟩ := h; exact ⟨a ++ pre, v, by simp, hv⟩
  | _ => exact h
theorem Fine.stopped {o : Out α} {o' : Out β} {l : List Ev} (h : Fine o l) (hs : Stopped o o') : Fine o' l := by
  cases o <;> cases o' <;> first | exact hs.elim | trivial | skip
  · have : _ = _ := hs; subst this; exact h

/-- The command makes no route to a host and does not tell `resolvconf`. -/
def Mild (c : Cfg) (k : Call) : Prop :=
  k ≠ .act [b!"resolvconf", b!"-a", c.iface, b!"-x"] (resolvLines c.opts) ∧ ∀ fam d via, Host d → k ≠ addCmd fam d via

structure Unchanged (s : St) (l : List Ev) (s' : St) : Prop where
  hist : s'.hist = s.hist ++ l
  real : s'.real = s.real
  tmp : s'.tmp = s.tmp
  trap : s'.trap = s.trap
  dns : s'.haveDns = s.haveDns
  endpoints : s'.endpoints = s.endpoints

theorem unchanged_plus (s : St) (l : List Ev) : Unchanged s l (plus s l) := ⟨rfl, rfl, rfl, rfl, rfl, rfl⟩
theorem Unchanged.trans {s s1 s2 : St} {a b : List Ev} (h1 : Unchanged s a s1) (h2 : Unchanged s1 b s2) : Unchanged s (a ++ b) s2 :=
  ⟨by rw [h2.hist, h1.hist, List.append_assoc], h2.real.trans h1.real, h2.tmp.trans h1.tmp, h2.trap.trans h1.trap, h2.dns.trans h1.dns, h2.endpoints.trans h1.endpoints⟩

def Holds (c : Cfg) (m : Sh α) : Prop := ∀ w s, ∃ l, Unchanged s l (m w s).2 ∧ Fine (m w s).1 l ∧ ∀ v ∈ l, Mild c v.1

variable {c : Cfg}

theorem unchanged_nil (s : St) : Unchanged s [] s := ⟨by simp, rfl, rfl, rfl, rfl, rfl⟩
theorem holds_pure (a : α) : Holds c (Sh.pure a) := fun _ s => ⟨[], unchanged_nil s, trivial, by simp⟩
theorem holds_exit {n : Nat} (h : n ≠ 0) : Holds c (exitWith n : Sh α) := fun _ s => ⟨[], unchanged_nil s, h, by simp⟩
theorem holds_giveUp : Holds c (giveUp : Sh α) := fun _ s => ⟨[], unchanged_nil s, trivial, by simp⟩
theorem holds_get : Holds c get := fun _ s => ⟨[], unchanged_nil s, trivial, by simp⟩
theorem holds_modify {g : St → St} (h : ∀ s, Unchanged s [] (g s)) : Holds c (modify g) := fun _ s => ⟨[], h s, trivial, by simp⟩
theorem holds_call {k : Call} (h : Mild c k) : Holds c (call k) := by
  intro w s
  rw [call_eq]
  refine ⟨[(k, w s.hist k)], unchanged_plus s _, ?_, by simpa using h⟩
  dsimp only
  split
  · exact ⟨[], _, rfl, by assumption⟩
  · trivial
theorem holds_run {e : Bool} {k : Call} (h : Mild c k) : Holds c (run e k) := by
  intro w s
  rw [run_eq]
  refine ⟨[(k, w s.hist k)], unchanged_plus s _, ?_, by simpa using h⟩
  dsimp only
  split
  · exact ⟨[], _, rfl, by assumption⟩
  · split
    · rename_i h2; exact h2.2
    · trivial
theorem holds_bind {m : Sh α} {g : α → Sh β} (hm : Holds c m) (hg : ∀ a, Holds c (g a)) : Holds c (m.bind g) := by
  intro w s
  obtain ⟨l1, u1, f1, p1⟩ := hm w s
  unfold Sh.bind
  rcases h : m w s with ⟨o, s1⟩
  rw [h] at u1 f1
  cases o with
  | ok a =>
    obtain ⟨l2, u2, f2, p2⟩ := hg a w s1
    refine ⟨l1 ++ l2, u1.trans u2, f2.pre l1, fun v hv => ?_⟩
    rcases List.mem_append.1 hv with hv | hv
    · exact p1 v hv
    · exact p2 v hv
  | exit n => exact ⟨l1, u1, f1, p1⟩
  | signal n => exact ⟨l1, u1, f1, p1⟩
  | running => exact ⟨l1, u1, f1, p1⟩
theorem holds_forEach {γ : Type} {g : γ → Sh Unit} (hg : ∀ x, Holds c (g x)) (xs : List γ) : Holds c (forEach g xs) := by
  induction xs with
  | nil => exact holds_pure _
  | cons x xs ih => exact holds_bind (hg x) fun _ => ih
theorem holds_forEach_mem {γ : Type} {g : γ → Sh Unit} (xs : List γ) (hg : ∀ x ∈ xs, Holds c (g x)) : Holds c (forEach g xs) := by
  induction xs with
  | nil => exact holds_pure _
  | cons x xs ih => exact holds_bind (hg x (by simp)) fun _ => ih fun y hy => hg y (by simp [hy])
theorem holds_ite {p : Prop} [Decidable p] {a b : Sh α} (ha : p → Holds c a) (hb : ¬ p → Holds c b) : Holds c (if p then a else b) := by
  split
  · exact ha (by assumption)
  · exact hb (by assumption)
theorem holds_of {m : Sh α} (h : Holds c m) {w : World} {s s' : St} {o : Out α} (e : m w s = (o, s')) : ∃ l, Unchanged s l s' ∧ Fine o l ∧ ∀ v ∈ l, Mild c v.1 := by
  have := h w s
  rw [e] at this
  exact this

theorem mild_query (q : List CStr) : Mild c (.query q) := ⟨by simp, fun _ _ _ _ => by simp [addCmd, cmd]⟩
theorem mild_hook (t : CStr) : Mild c (.hook t) := ⟨by simp, fun _ _ _ _ => by simp [addCmd, cmd]⟩
theorem mild_act {a : List CStr} {i : List UInt8} (h1 : a.head? ≠ some b!"resolvconf") (h2 : a.head? ≠ some b!"route") : Mild c (.act a i) := by
  refine ⟨fun h => ?_, fun fam d via _ h => ?_⟩
  · simp only [Call.act.injEq] at h; rw [h.1] at h1; exact h1 rfl
  · simp only [addCmd, cmd, Call.act.injEq] at h; rw [h.1] at h2; exact h2 rfl
theorem mild_cmd {a : List CStr} (h1 : a.head? ≠ some b!"resolvconf") (h2 : a.head? ≠ some b!"route") : Mild c (act a) := mild_act h1 h2
theorem mild_net {fam r : CStr} {via : List CStr} (hr : c!"/" ∈ r) : Mild c (routeAdd fam r via) := by
  refine ⟨fun h => ?_, fun fam' d via' hd h => ?_⟩
  · simp only [routeAdd, act, Call.act.injEq, List.cons_append, List.cons.injEq] at h
    exact absurd h.1.1 (by decide)
  · simp only [routeAdd, act, addCmd, cmd, Call.act.injEq, List.cons_append, List.cons.injEq, and_true, true_and] at h
    exact slash_ne hd hr h.2.1
theorem mild_words {a : List CStr} (h0 : a.head? ≠ some b!"resolvconf") (h1 : ∀ fam d, Host d → a.take 6 ≠ [b!"route", b!"-q", b!"-n", b!"add", fam, d]) : Mild c (act a) := by
  refine ⟨fun h => ?_, fun fam d via hd h => ?_⟩
  · simp only [act, Call.act.injEq] at h; rw [h.1] at h0; exact h0 rfl
  · simp only [act, addCmd, cmd, Call.act.injEq, and_true] at h
    exact h1 fam d hd (by rw [h]; rfl)

theorem holds_hooks (hooks : List CStr) : Holds c (executeHooks c hooks) :=
  holds_forEach (fun _ => holds_bind holds_get fun _ => holds_run (mild_hook _)) _
theorem holds_setConfig : Holds c (setConfig c) := holds_bind holds_get fun s => holds_run (mild_act (by simp) (by simp))
theorem holds_addAddr (a : CStr) : Holds c (addAddr c a) := by
  refine holds_bind holds_get fun s => ?_
  dsimp only
  cases c.plat with
  | freebsd => exact holds_run (mild_cmd (by simp) (by simp))
  | openbsd =>
    refine holds_bind (holds_modify fun s => ?_) fun _ => holds_run (mild_cmd (by simp) (by simp))
    by_cases h : isV6 a = true
    · rw [if_pos h]; exact ⟨by simp, rfl, rfl, rfl, rfl, rfl⟩
    · rw [if_neg h]; exact ⟨by simp, rfl, rfl, rfl, rfl, rfl⟩
  | darwin => exact holds_ite (fun _ => holds_run (mild_cmd (by simp) (by simp))) fun _ => holds_run (mild_cmd (by simp) (by simp))
theorem holds_mtuFrom (o : CStr) (m : Nat) : Holds c (mtuFrom o m) := by
  unfold mtuFrom
  cases ifaceIn o with
  | none => exact holds_pure _
  | some i =>
    refine holds_bind (holds_call (mild_query _)) fun r => ?_
    cases WG.Quick.mtuIn (chomp r.out) with
    | none => exact holds_pure _
    | some d => exact holds_pure _
theorem holds_mtuLoop (ls : List CStr) (m : Nat) : Holds c (mtuLoop ls m) := by
  induction ls generalizing m with
  | nil => exact holds_pure _
  | cons l ls ih =>
    unfold mtuLoop
    cases endpointHost (afterFirst l) with
    | none => exact ih m
    | some h => exact holds_bind (holds_call (mild_query _)) fun r => holds_bind (holds_mtuFrom _ _) fun m => ih m
theorem holds_setMtu : Holds c (setMtu c) := by
  refine holds_bind holds_get fun s => holds_ite (fun _ => holds_run (mild_cmd (by simp) (by simp))) fun _ => ?_
  refine holds_ite (fun _ => ?_) fun _ => ?_
  · refine holds_bind (holds_call (mild_query _)) fun r => holds_bind (holds_ite (fun _ => holds_pure _) fun _ => holds_bind (holds_call (mild_query _)) fun _ => holds_pure _) fun m => ?_
    exact holds_bind (holds_call (mild_query _)) fun i => holds_ite (fun _ => holds_pure _) fun _ => holds_run (mild_cmd (by simp) (by simp))
  · refine holds_bind (holds_call (mild_query _)) fun r => holds_bind (holds_mtuLoop _ _) fun m => ?_
    refine holds_bind (holds_ite (fun _ => holds_bind (holds_call (mild_query _)) fun r => holds_mtuFrom _ _) fun _ => holds_pure _) fun m => ?_
    exact holds_run (mild_cmd (by simp) (by simp))
theorem holds_upIf : Holds c upIf := holds_bind holds_get fun s => holds_run (mild_cmd (by simp) (by simp))
theorem holds_addHalves (r : CStr) : Holds c (addHalves c r) := by
  refine holds_bind holds_get fun s => holds_ite (fun _ => ?_) fun _ => ?_
  · refine holds_bind (holds_modify fun s => ⟨by simp, rfl, rfl, rfl, rfl, rfl⟩) fun _ => ?_
    exact holds_bind (holds_run (mild_net (by decide))) fun _ => holds_run (mild_net (by decide))
  · refine holds_bind (holds_modify fun s => ⟨by simp, rfl, rfl, rfl, rfl, rfl⟩) fun _ => ?_
    exact holds_bind (holds_run (mild_net (by decide))) fun _ => holds_run (mild_net (by decide))
theorem holds_addNet (r : CStr) (hr : c!"/" ∈ r) : Holds c (addNet c r) :=
  holds_bind (holds_call (mild_query _)) fun _ => holds_bind holds_get fun _ => holds_ite (fun _ => holds_pure _) fun _ => holds_run (mild_net hr)
theorem holds_addRoute (r : CStr) (hr : c!"/" ∈ r) : Holds c (addRoute c r) := by
  refine holds_ite (fun _ => holds_pure _) fun _ => holds_bind holds_get fun s => ?_
  cases c.plat with
  | freebsd =>
    refine holds_ite (fun _ => holds_run (mild_words (by simp) fun fam d hd h => ?_)) fun _ => holds_ite (fun _ => holds_addHalves r) fun _ => holds_addNet r hr
    simp only [List.take_succ_cons, List.take_zero, List.cons.injEq, and_true, true_and] at h
    exact host_no hd c!"-" (by decide) (by rw [← h.2]; decide)
  | openbsd =>
    refine holds_ite (fun _ => holds_exit (by simp)) fun _ => holds_ite (fun _ => holds_run (mild_words (by simp) fun fam d hd h => ?_)) fun _ =>
      holds_ite (fun _ => holds_addHalves r) fun _ => holds_addNet r hr
    simp only [List.cons_append, List.take_succ_cons, List.cons.injEq, true_and] at h
    exact absurd h.1 (by decide)
  | darwin =>
    exact holds_ite (fun _ => holds_addHalves r) fun _ => holds_ite (fun _ => holds_addNet r hr) fun _ => holds_exit (by simp)
theorem holds_setDnsOpenbsd : Holds c (setDnsOpenbsd c) := by
  refine holds_ite (fun _ => holds_pure _) fun _ => holds_bind (holds_call (mild_query _)) fun u =>
    holds_bind (holds_ite (fun _ => holds_pure _) fun _ => holds_bind (holds_call (mild_query _)) fun _ => holds_pure _) fun b => holds_ite (fun _ => ?_) fun _ => holds_pure _
  refine holds_bind (holds_run (mild_cmd (by simp) (by simp))) fun _ => holds_bind (holds_ite (fun _ => holds_pure _) fun _ => holds_run (mild_act (by simp) (by simp))) fun _ =>
    holds_bind holds_get fun s => holds_run (mild_words (by simp) fun fam d hd h => ?_)
  simp only [List.cons_append, List.take_succ_cons, List.cons.injEq, true_and] at h
  exact absurd h.1 (by decide)
theorem holds_setDnsDarwin : Holds c (setDnsDarwin c) := by
  refine holds_bind ?_ fun _ => holds_bind holds_get fun s => holds_forEach (fun x => ?_) _
  · refine holds_bind (holds_call (mild_query _)) fun r => holds_bind (holds_forEach (fun x => ?_) _) fun _ => holds_modify fun _ => ⟨by simp, rfl, rfl, rfl, rfl, rfl⟩
    refine holds_ite (fun _ => holds_exit (by decide)) fun _ => ?_
    refine holds_bind holds_get fun s => holds_ite (fun _ => holds_pure _) fun _ => holds_bind (holds_call (mild_query _)) fun r => holds_ite (fun h => holds_exit h) fun _ => ?_
    refine holds_bind (holds_ite (fun _ => holds_pure _) fun _ => holds_modify fun _ => ⟨by simp, rfl, rfl, rfl, rfl, rfl⟩) fun _ => holds_bind (holds_call (mild_query _)) fun r => ?_
    exact holds_ite (fun h => holds_exit h) fun _ => holds_ite (fun _ => holds_pure _) fun _ => holds_modify fun _ => ⟨by simp, rfl, rfl, rfl, rfl, rfl⟩
  · exact holds_bind (holds_call (mild_cmd (by simp) (by simp))) fun r => holds_ite (fun _ => holds_pure _) fun _ => holds_run (mild_cmd (by simp) (by simp))
theorem holds_upDnsLate : Holds c (upDnsLate c) := by
  unfold upDnsLate
  cases c.plat with
  | freebsd => exact holds_pure _
  | openbsd => exact holds_pure _
  | darwin => exact holds_ite (fun _ => holds_pure _) fun _ => holds_setDnsDarwin

/-! ### Making the interface -/

/-- Ended with something that failed or was interrupted. -/
def Badly (l : List Ev) : Prop := ∃ pre v, l = pre ++ [v] ∧ (v.2.status ≠ 0 ∨ v.2.sig = true)

theorem Badly.pre {l : List Ev} (h : Badly l) (a : List Ev) : Badly (a ++ l) := by
  obtain ⟨pre, v, rfl, hv⟩ := h
  exact ⟨a ++ pre, v, by simp, hv⟩

/-- Normal, or not at an end. -/
def Free : Out α → Prop
  | .ok _ => True
  | .running => True
  | _ => False

/-- Either normal, or: nothing of the variables has changed, and the last command failed or was interrupted. With `t` the last command
may be one before this program. -/
def Breaks (c : Cfg) (t : Prop) (m : Sh α) : Prop := ∀ w s,
  Free (m w s).1 ∨ ∃ l, Unchanged s l (m w s).2 ∧ Fine (m w s).1 l ∧ (∀ v ∈ l, Mild c v.1) ∧ (Badly l ∨ (t ∧ l = []))

variable {t : Prop}

theorem breaks_pure (a : α) : Breaks c t (Sh.pure a) := fun _ _ => .inl trivial
theorem breaks_giveUp : Breaks c t (giveUp : Sh α) := fun _ _ => .inl trivial
theorem breaks_modify (g : St → St) : Breaks c t (modify g) := fun _ _ => .inl trivial
theorem breaks_modify_bind (g : St → St) {f : Unit → Sh α} (h : ∀ w s, Free (f () w s).1) : Breaks c t ((modify g).bind f) := fun w s => .inl (h w (g s))
theorem breaks_exit {n : Nat} (h : n ≠ 0) (ht : t) : Breaks c t (exitWith n : Sh α) := fun _ s => .inr ⟨[], unchanged_nil s, h, by simp, .inr ⟨ht, rfl⟩⟩
theorem breaks_ite {p : Prop} [Decidable p] {a b : Sh α} (ha : p → Breaks c t a) (hb : ¬ p → Breaks c t b) : Breaks c t (if p then a else b) := by
  split
  · exact ha (by assumption)
  · exact hb (by assumption)
theorem breaks_call_bind {k : Call} (hk : Mild c k) {g : Reply → Sh α} (hg : ∀ r, Breaks c (r.status ≠ 0) (g r)) : Breaks c t ((call k).bind g) := by
  intro w s
  unfold Sh.bind
  rw [call_eq]
  by_cases hs : (w s.hist k).sig = true
  · rw [if_pos hs]
    exact .inr ⟨[(k, w s.hist k)], unchanged_plus s _, ⟨[], _, rfl, hs⟩, by simpa using hk, .inl ⟨[], _, rfl, .inr hs⟩⟩
  · rw [if_neg hs]
    dsimp only
    rcases hg (w s.hist k) w (push s k (w s.hist k)) with h | ⟨l, u, f, m, b⟩
    · exact .inl h
    · refine .inr ⟨[(k, w s.hist k)] ++ l, (unchanged_plus s _).trans u, f.pre _, fun v hv => ?_, .inl ?_⟩
      · rcases List.mem_append.1 hv with hv | hv
        · simp only [List.mem_singleton] at hv; subst hv; exact hk
        · exact m v hv
      · rcases b with b | ⟨b, rfl⟩
        · exact b.pre _
        · exact ⟨[], _, rfl, .inl b⟩
theorem breaks_run_bind {e : Bool} {k : Call} (hk : Mild c k) {g : Unit → Sh α} (hg : Breaks c False (g ())) : Breaks c t ((run e k).bind g) := by
  have : (run e k).bind g = (call k).bind fun r => (if e && r.status ≠ 0 then exitWith r.status else Sh.pure ()).bind g := by
    funext w s
    unfold run Sh.bind
    rcases call k w s with ⟨o, s1⟩
    cases o <;> rfl
  rw [this]
  refine breaks_call_bind hk fun r => ?_
  split
  · rename_i h
    have hr : r.status ≠ 0 := by simpa using (Bool.and_eq_true_iff.1 h).2
    intro w s
    exact .inr ⟨[], unchanged_nil s, hr, by simp, .inr ⟨hr, rfl⟩⟩
  · intro w s
    rcases hg w s with h | ⟨l, u, f, m, b⟩
    · exact .inl h
    · exact .inr ⟨l, u, f, m, b.imp id (fun x => x.1.elim)⟩
theorem breaks_run {k : Call} (hk : Mild c k) {e : Bool} : Breaks c t (run e k) := by
  have : run e k = (run e k).bind fun _ => Sh.pure () := by
    funext w s
    rcases h : run e k w s with ⟨o, s1⟩
    unfold Sh.bind
    rw [h]
    cases o <;> rfl
  rw [this]
  exact breaks_run_bind hk (breaks_pure _)

theorem realDarwin_breaks (e : Bool) : Breaks c False (realDarwin c e) := by
  refine breaks_run_bind (mild_query _) (breaks_call_bind (mild_query _) fun t => breaks_ite (fun _ => breaks_pure _) fun _ => ?_)
  refine breaks_call_bind (mild_query _) fun n => breaks_ite (fun h => ?_) fun _ => breaks_ite (fun _ => breaks_pure _) fun _ => ?_
  · have hr : n.status ≠ 0 := by simpa using (Bool.and_eq_true_iff.1 h).2
    exact breaks_exit hr hr
  · refine breaks_call_bind (mild_query _) fun t => breaks_ite (fun _ => breaks_pure _) fun _ => ?_
    refine breaks_call_bind (mild_query _) fun a => breaks_call_bind (mild_query _) fun b => ?_
    dsimp only
    exact breaks_ite (fun _ => breaks_pure _) fun _ => breaks_modify_bind _ fun _ _ => trivial

theorem addIfOpenbsd_breaks (n : Nat) (t : Prop) : Breaks c t (addIfOpenbsd c n) := by
  induction n generalizing t with
  | zero => exact breaks_giveUp
  | succ n ih =>
    refine breaks_call_bind (mild_query _) fun q => ?_
    dsimp only
    refine breaks_call_bind (mild_cmd (by simp) (by simp)) fun r => breaks_ite (fun _ => breaks_modify _) fun h => breaks_ite (fun _ => ih _) fun _ => ?_
    exact breaks_exit (by simp) h

theorem addIfFreebsd_breaks : Breaks c False (addIfFreebsd c) := by
  refine breaks_call_bind (mild_cmd (by simp) (by simp)) fun r => breaks_ite (fun _ => breaks_pure _) fun h => breaks_ite (fun _ => breaks_pure _) fun _ => ?_
  refine breaks_run ⟨by simp [act], fun fam d via _ => by simp [act, addCmd, cmd]⟩

theorem nameLookup_queries {f : Option CStr} {l : List Ev} (h : NameLookup c f l) : ∀ v ∈ l, ∃ q, v.1 = .query q := by
  obtain ⟨i, t, l', rfl, h⟩ := h
  rcases h with ⟨_, _, rfl⟩ | ⟨_, n, l'', rfl, h⟩
  · intro v hv; simp at hv; rcases hv with rfl | rfl <;> exact ⟨_, rfl⟩
  · rcases h with ⟨_, _, rfl⟩ | ⟨_, k, l3, rfl, h⟩
    · intro v hv; simp at hv; rcases hv with rfl | rfl | rfl <;> exact ⟨_, rfl⟩
    · rcases h with ⟨_, _, rfl⟩ | ⟨_, a, b, _, _, rfl, _⟩
      · intro v hv; simp at hv; rcases hv with rfl | rfl | rfl | rfl <;> exact ⟨_, rfl⟩
      · intro v hv; simp at hv; rcases hv with rfl | rfl | rfl | rfl | rfl | rfl <;> exact ⟨_, rfl⟩

theorem breaks_of {m : Sh α} (hm : Breaks c False m) {w : World} {s s' : St} {o : Out α} (h : m w s = (o, s')) (ho : ¬ Free o) :
    ∃ l, Unchanged s l s' ∧ Fine o l ∧ (∀ v ∈ l, Mild c v.1) ∧ Badly l := by
  rcases hm w s with h1 | ⟨l, u, f, m, b⟩
  · rw [h] at h1; exact absurd h1 ho
  · rw [h] at u f
    rcases b with b | b
    · exact ⟨l, u, f, m, b⟩
    · exact b.1.elim

theorem stopped_free {o : Out α} {o' : Out β} (h : Stopped o o') (ho : ¬ Free o') : ¬ Free o := by
  cases o <;> cases o' <;> first | exact h.elim | exact ho

/-- Making the interface fails or is interrupted. -/
theorem addIf_fails {w : World} {s s' : St} {o : Out Unit} (h : addIf c w s = (o, s')) (ho : ¬ Free o) :
    ∃ l, Unchanged s l s' ∧ Fine o l ∧ (∀ v ∈ l, Mild c v.1) ∧ AddFailed c l := by
  have key : ∀ {m : Sh Unit}, Breaks c False m → m w s = (o, s') → ∃ l, Unchanged s l s' ∧ Fine o l ∧ (∀ v ∈ l, Mild c v.1) ∧ AddFailed c l := by
    intro m hm hw
    obtain ⟨l, u, f, m, b⟩ := breaks_of hm hw ho
    exact ⟨l, u, f, m, .inl b⟩
  unfold addIf at h
  cases hp : c.plat with
  | freebsd => rw [hp] at h; exact key addIfFreebsd_breaks h
  | openbsd => rw [hp] at h; exact key (addIfOpenbsd_breaks _ _) h
  | darwin =>
    rw [hp] at h
    dsimp only at h
    unfold addIfDarwin at h
    rcases bind_inv h with ⟨_, s1, h1, h⟩ | ⟨o1, h1, h2⟩
    case inr =>
      obtain ⟨l, u, f, m, b⟩ := breaks_of (breaks_run (c := c) (mild_cmd (by simp) (by simp))) h1 (stopped_free h2 ho)
      exact ⟨l, u, f.stopped h2, m, .inl b⟩
    obtain ⟨d, hd, rfl⟩ := run_did h1
    have md : Mild c d.1 := by rw [hd.1]; exact mild_cmd (by simp) (by simp)
    rcases bind_inv h with ⟨_, s2, h2, h⟩ | ⟨o1, h2, h3⟩
    case inr =>
      obtain ⟨l, u, f, m, b⟩ := breaks_of (breaks_run (c := c) (mild_cmd (by simp) (by simp))) h2 (stopped_free h3 ho)
      refine ⟨[d] ++ l, (unchanged_plus s [d]).trans u, (f.stopped h3).pre _, ?_, .inl (b.pre _)⟩
      intro v hv
      rcases List.mem_append.1 hv with hv | hv
      · rw [List.mem_singleton.1 hv]; exact md
      · exact m v hv
    obtain ⟨e, he, rfl⟩ := run_did h2
    have me : Mild c e.1 := by rw [he.1]; exact mild_cmd (by simp) (by simp)
    rw [plus_plus] at h
    have mm : ∀ {l : List Ev}, (∀ v ∈ l, Mild c v.1) → ∀ v ∈ ([d] ++ [e]) ++ l, Mild c v.1 := by
      intro l hl v hv
      rcases List.mem_append.1 hv with hv | hv
      · simp only [List.cons_append, List.nil_append, List.mem_cons, List.not_mem_nil, or_false] at hv
        rcases hv with rfl | rfl
        · exact md
        · exact me
      · exact hl v hv
    rcases bind_inv h with ⟨b, s3, h3, h⟩ | ⟨o1, h3, h4⟩
    case inr =>
      obtain ⟨l, u, f, m, b⟩ := breaks_of (realDarwin_breaks true) h3 (stopped_free h4 ho)
      exact ⟨_, (unchanged_plus s _).trans u, (f.stopped h4).pre _, mm m, .inl (b.pre _)⟩
    cases b with
    | true =>
      rw [if_pos rfl] at h
      simp only [Sh.pure, Prod.mk.injEq] at h
      rw [← h.1] at ho
      exact absurd trivial ho
    | false =>
      rw [if_neg (by simp)] at h
      simp only [exitWith, Prod.mk.injEq] at h
      obtain ⟨rfl, rfl⟩ := h
      obtain ⟨l, ⟨hf, _⟩ | ⟨_, h4, rfl⟩⟩ := realDarwin_ok h3
      · exact absurd hf (by simp)
      · refine ⟨_, (unchanged_plus s _).trans (unchanged_plus _ l), by unfold Fine; simp, mm fun v hv => ?_, .inr ⟨hp, d, e, l, rfl, hd, he, h4⟩⟩
        obtain ⟨q, hq⟩ := nameLookup_queries h4 v hv
        rw [hq]; exact mild_query _

/-! ### The rest -/

/-- What holds between making the interface and the end, when `l` was done since the check. -/
structure Base (c : Cfg) (s0 s : St) (l : List Ev) : Prop where
  hist : s.hist = s0.hist ++ l
  tmp : s.tmp = s0.tmp
  trap : s.trap = s0.trap
  made : ∃ ladd rest, l = ladd ++ rest ∧ AddStep c s.real ladd
  dns : s.haveDns = true ↔ ToldDns c l

/-- No route to a host yet. -/
def Early0 (c : Cfg) (s0 s : St) (l : List Ev) : Prop := Base c s0 s l ∧ ∀ fam d via, Host d → addCmd fam d via ∉ l.map (·.1)

/-- Hosts with routes are among the endpoints. -/
def Late0 (c : Cfg) (s0 s : St) (l : List Ev) : Prop := Base c s0 s l ∧ ∀ fam d via, Host d → addCmd fam d via ∈ l.map (·.1) → d ∈ s.endpoints

theorem Base.unchanged {s0 s s' : St} {l l' : List Ev} (h : Base c s0 s l) (u : Unchanged s l' s') (m : ∀ v ∈ l', Mild c v.1) : Base c s0 s' (l ++ l') := by
  refine ⟨by rw [u.hist, h.hist, List.append_assoc], u.tmp.trans h.tmp, u.trap.trans h.trap, ?_, ?_⟩
  · obtain ⟨a, b, rfl, h2⟩ := h.made
    exact ⟨a, b ++ l', by simp, by rw [u.real]; exact h2⟩
  · rw [u.dns, h.dns]
    constructor
    · rintro ⟨hp, v, hv, h1⟩
      exact ⟨hp, v, List.mem_append_left _ hv, h1⟩
    · rintro ⟨hp, v, hv, h1⟩
      rcases List.mem_append.1 hv with hv | hv
      · exact ⟨hp, v, hv, h1⟩
      · exact absurd h1.1.1 (m v hv).1

theorem mild_no_add {l : List Ev} (m : ∀ v ∈ l, Mild c v.1) {fam d : CStr} {via : Via} (hd : Host d) : addCmd fam d via ∉ l.map (·.1) := by
  intro h
  obtain ⟨v, hv, e⟩ := List.mem_map.1 h
  exact (m v hv).2 fam d via hd e

theorem Early0.unchanged {s0 s s' : St} {l l' : List Ev} (h : Early0 c s0 s l) (u : Unchanged s l' s') (m : ∀ v ∈ l', Mild c v.1) : Early0 c s0 s' (l ++ l') := by
  refine ⟨h.1.unchanged u m, fun fam d via hd hx => ?_⟩
  rw [List.map_append] at hx
  rcases List.mem_append.1 hx with hx | hx
  · exact h.2 fam d via hd hx
  · exact mild_no_add m hd hx

theorem Late0.unchanged {s0 s s' : St} {l l' : List Ev} (h : Late0 c s0 s l) (u : Unchanged s l' s') (m : ∀ v ∈ l', Mild c v.1) : Late0 c s0 s' (l ++ l') := by
  refine ⟨h.1.unchanged u m, fun fam d via hd hx => ?_⟩
  rw [List.map_append] at hx
  rcases List.mem_append.1 hx with hx | hx
  · rw [u.endpoints]; exact h.2 fam d via hd hx
  · exact absurd hx (mild_no_add m hd)

theorem Early0.late {s0 s : St} {l : List Ev} (h : Early0 c s0 s l) : Late0 c s0 s l := ⟨h.1, fun fam d via hd hx => absurd hx (h.2 fam d via hd)⟩

/-- From `I` to `J`, and if it stops somewhere, then `Late0` holds there. -/
def Goes (c : Cfg) (s0 : St) (I J : St → List Ev → Prop) (m : Sh α) : Prop := ∀ w s l, I s l → ∃ l', Fine (m w s).1 (l ++ l') ∧ Late0 c s0 (m w s).2 (l ++ l') ∧
  ∀ a, (m w s).1 = .ok a → J (m w s).2 (l ++ l')

variable {s0 : St} {I J L : St → List Ev → Prop}

theorem goes_bind {m : Sh α} {g : α → Sh β} (hm : Goes c s0 I J m) (hg : ∀ a, Goes c s0 J L (g a)) : Goes c s0 I L (m.bind g) := by
  intro w s l hi
  obtain ⟨l1, f1, p1, q1⟩ := hm w s l hi
  unfold Sh.bind
  rcases h : m w s with ⟨o, s1⟩
  rw [h] at f1 p1 q1
  cases o with
  | ok a =>
    obtain ⟨l2, f2, p2, q2⟩ := hg a w s1 (l ++ l1) (q1 a rfl)
    rw [List.append_assoc] at f2 p2 q2
    exact ⟨l1 ++ l2, f2, p2, q2⟩
  | exit n => exact ⟨l1, f1, p1, nofun⟩
  | signal n => exact ⟨l1, f1, p1, nofun⟩
  | running => exact ⟨l1, f1, p1, nofun⟩
theorem goes_early {m : Sh α} (hm : Holds c m) : Goes c s0 (Early0 c s0) (Early0 c s0) m := by
  intro w s l hi
  obtain ⟨l', u, f, p⟩ := hm w s
  exact ⟨l', f.pre _, (hi.unchanged u p).late, fun _ _ => hi.unchanged u p⟩
theorem goes_late {m : Sh α} (hm : Holds c m) : Goes c s0 (Late0 c s0) (Late0 c s0) m := by
  intro w s l hi
  obtain ⟨l', u, f, p⟩ := hm w s
  exact ⟨l', f.pre _, hi.unchanged u p, fun _ _ => hi.unchanged u p⟩

theorem goes_dns : Goes c s0 (Early0 c s0) (Early0 c s0) (upDnsEarly c) := by
  unfold upDnsEarly
  cases hp : c.plat with
  | openbsd => exact goes_early holds_setDnsOpenbsd
  | darwin => exact goes_early (holds_pure _)
  | freebsd =>
    dsimp only
    unfold setDnsFreebsd
    split
    · exact goes_early (holds_pure _)
    · intro w s l hi
      have hre : WG.Quick.resolvText c.opts = resolvLines c.opts := WG.Quick.resolvText_eq _
      rw [hre]
      let k : Call := .act [b!"resolvconf", b!"-a", c.iface, b!"-x"] (resolvLines c.opts)
      have noadd : ∀ r : Reply, ∀ fam d via, Host d → addCmd fam d via ∉ (l ++ [(k, r)]).map (·.1) := by
        intro r fam d via hd hx
        rw [List.map_append] at hx
        rcases List.mem_append.1 hx with hx | hx
        · exact hi.2 fam d via hd hx
        · simp [k, addCmd, cmd] at hx
      have base : ∀ r (b : Bool), (b = true ↔ ToldDns c (l ++ [(k, r)])) → Early0 c s0 { plus s [(k, r)] with haveDns := b } (l ++ [(k, r)]) := by
        intro r b hb
        refine ⟨⟨by rw [← List.append_assoc, ← hi.1.hist]; rfl, hi.1.tmp, hi.1.trap, ?_, hb⟩, noadd r⟩
        obtain ⟨x, y, rfl, h2⟩ := hi.1.made
        exact ⟨x, y ++ [(k, r)], by simp, h2⟩
      have bad : ∀ r : Reply, (r.status ≠ 0 ∨ r.sig = true) → Early0 c s0 (plus s [(k, r)]) (l ++ [(k, r)]) := by
        intro r hr
        refine base r s.haveDns ?_
        rw [hi.1.dns]
        constructor
        · rintro ⟨_, v, hv, h1⟩
          exact ⟨hp, v, List.mem_append_left _ hv, h1⟩
        · rintro ⟨_, v, hv, h1⟩
          rcases List.mem_append.1 hv with hv | hv
          · exact ⟨hp, v, hv, h1⟩
          · rw [List.mem_singleton.1 hv] at h1
            rcases hr with hr | hr
            · exact absurd h1.1.2 hr
            · rw [h1.2] at hr; cases hr
      unfold Sh.bind
      rw [run_eq]
      refine ⟨[(k, w s.hist k)], ?_⟩
      by_cases h1 : (w s.hist k).sig = true
      · rw [if_pos h1]
        exact ⟨⟨l, _, rfl, h1⟩, (bad _ (.inr h1)).late, nofun⟩
      · rw [if_neg h1]
        by_cases h2 : (w s.hist k).status = 0
        · rw [if_neg (by simpa using h2)]
          have := base (w s.hist k) true ⟨fun _ => ⟨hp, _, List.mem_append_right _ (List.mem_singleton_self _), ⟨rfl, h2⟩, by simpa using h1⟩, fun _ => rfl⟩
          exact ⟨trivial, this.late, fun _ _ => this⟩
        · rw [if_pos ⟨rfl, h2⟩]
          exact ⟨h2, (bad _ (.inl h2)).late, nofun⟩

/-! ### Routes to the endpoints -/

theorem mild_delete (fam d : CStr) : Mild c (routeDelete fam d) := by
  refine mild_words (by simp) fun f x hx h => ?_
  simp only [List.take_succ_cons, List.take_zero, List.cons.injEq, and_true, true_and] at h
  exact absurd h.1 (by decide)

theorem holds_dropDirect (all : Bool) (e : CStr) : Holds c (dropDirect all e) := by
  refine holds_bind holds_get fun s => holds_ite (fun _ => holds_pure _) fun _ => ?_
  cases directFam s e with
  | none => exact holds_pure _
  | some fam => exact holds_run (mild_delete _ _)

theorem holds_collectGateways : Holds c (collectGateways c) :=
  holds_bind (holds_call (mild_query _)) fun _ => holds_bind (holds_modify fun _ => ⟨by simp, rfl, rfl, rfl, rfl, rfl⟩) fun _ =>
    holds_bind (holds_call (mild_query _)) fun _ => holds_modify fun _ => ⟨by simp, rfl, rfl, rfl, rfl, rfl⟩

/-- Only routes to hosts of `es` are added, and those are in the result. -/
theorem addDirect_goes (all : Bool) (old added es : List CStr) (w : World) (s : St) :
    ∃ l, Unchanged s l (addDirect all old added es w s).2 ∧ Fine (addDirect all old added es w s).1 l ∧
      (∀ v ∈ l, v.1 ≠ .act [b!"resolvconf", b!"-a", c.iface, b!"-x"] (resolvLines c.opts) ∧ ∀ fam d via, v.1 = addCmd fam d via → d ∈ es) ∧
      ∀ a, (addDirect all old added es w s).1 = .ok a → (∀ x ∈ added, x ∈ a) ∧ ∀ v ∈ l, ∀ fam d via, v.1 = addCmd fam d via → d ∈ a := by
  induction es generalizing added s with
  | nil => exact ⟨[], unchanged_nil s, trivial, by simp, fun a ha => by cases ha; simp⟩
  | cons e es ih =>
    unfold addDirect
    by_cases hx : all = false ∧ listed e old
    · rw [if_pos hx]
      obtain ⟨l, u, f, p, q⟩ := ih (added ++ [e]) s
      exact ⟨l, u, f, fun v hv => ⟨(p v hv).1, fun fam d via h => List.mem_cons_of_mem _ ((p v hv).2 fam d via h)⟩,
        fun a ha => ⟨fun x hx => (q a ha).1 x (by simp [hx]), (q a ha).2⟩⟩
    · rw [if_neg hx, get_bind]
      cases directFam s e with
      | none =>
        obtain ⟨l, u, f, p, q⟩ := ih added s
        exact ⟨l, u, f, fun v hv => ⟨(p v hv).1, fun fam d via h => List.mem_cons_of_mem _ ((p v hv).2 fam d via h)⟩, q⟩
      | some fam =>
        dsimp only
        unfold Sh.bind
        rw [run_eq]
        have hev : ∀ r : Reply, (routeAdd fam e (directVia s fam), r).1 ≠ .act [b!"resolvconf", b!"-a", c.iface, b!"-x"] (resolvLines c.opts) ∧
            ∀ fam' d via, (routeAdd fam e (directVia s fam), r).1 = addCmd fam' d via → d = e := by
          intro r
          refine ⟨fun h => ?_, fun fam' d via h => ?_⟩
          · simp only [routeAdd, act, Call.act.injEq, List.cons_append, List.cons.injEq] at h
            exact absurd h.1.1 (by decide)
          · simp only [routeAdd, act, addCmd, cmd, Call.act.injEq, List.cons_append, List.cons.injEq, and_true, true_and] at h
            exact h.2.1.symm
        by_cases h1 : (w s.hist (routeAdd fam e (directVia s fam))).sig = true
        · rw [if_pos h1]
          refine ⟨[_], unchanged_plus s _, ⟨[], _, rfl, h1⟩, ?_, nofun⟩
          intro v hv
          rw [List.mem_singleton.1 hv]
          exact ⟨(hev _).1, fun fam d via h => by rw [(hev _).2 fam d via h]; simp⟩
        · rw [if_neg h1, if_neg (by simp)]
          obtain ⟨l, u, f, p, q⟩ := ih (added ++ [e]) (push s (routeAdd fam e (directVia s fam)) (w s.hist (routeAdd fam e (directVia s fam))))
          refine ⟨[_] ++ l, (unchanged_plus s _).trans u, f.pre _, ?_, ?_⟩
          · intro v hv
            rcases List.mem_append.1 hv with hv | hv
            · rw [List.mem_singleton.1 hv]
              exact ⟨(hev _).1, fun fam d via h => by rw [(hev _).2 fam d via h]; simp⟩
            · exact ⟨(p v hv).1, fun fam d via h => List.mem_cons_of_mem _ ((p v hv).2 fam d via h)⟩
          · intro a ha
            obtain ⟨q1, q2⟩ := q a ha
            refine ⟨fun x hx => q1 x (by simp [hx]), fun v hv => ?_⟩
            rcases List.mem_append.1 hv with hv | hv
            · rw [List.mem_singleton.1 hv]
              exact fun fam d via h => by rw [(hev _).2 fam d via h]; exact q1 e (by simp)
            · exact q2 v hv

/-- Changing only the endpoints, while there are no routes to hosts. -/
theorem Early0.endpoints {s : St} {l : List Ev} (h : Early0 c s0 s l) (es : List CStr) : Early0 c s0 { s with endpoints := es } l :=
  ⟨⟨h.1.hist, h.1.tmp, h.1.trap, h.1.made, h.1.dns⟩, h.2⟩

theorem goes_collectEndpoints : Goes c s0 (Early0 c s0) (Early0 c s0) collectEndpoints := by
  have hm : ∀ es : St → List CStr, Goes c s0 (Early0 c s0) (Early0 c s0) (modify fun s => { s with endpoints := es s }) := by
    intro es w s l hi
    refine ⟨[], ?_⟩
    rw [List.append_nil]
    exact ⟨trivial, (hi.endpoints _).late, fun _ _ => hi.endpoints _⟩
  exact goes_bind (goes_early holds_get) fun s => goes_bind (hm fun _ => []) fun _ => goes_bind (goes_early (holds_call (mild_query _))) fun r => hm _

theorem goes_setDirect : Goes c s0 (Early0 c s0) (Late0 c s0) (setDirect c) := by
  refine goes_bind (goes_early holds_get) fun s1 => goes_bind (goes_early holds_collectGateways) fun _ => goes_bind goes_collectEndpoints fun _ => ?_
  intro w s l hi
  rw [get_bind]
  generalize decide (s1.gw4 ≠ s.gw4 ∨ s1.gw6 ≠ s.gw6) = all
  generalize (if all = true then addMissing s1.endpoints s.endpoints else s1.endpoints) = old
  have hdrop := holds_forEach (c := c) (holds_dropDirect all) old w s
  obtain ⟨l1, u1, f1, m1⟩ := hdrop
  unfold Sh.bind
  rcases hd : forEach (dropDirect all) old w s with ⟨o, s2⟩
  rw [hd] at u1 f1
  have hi2 := hi.unchanged u1 m1
  cases o with
  | exit n => exact ⟨l1, f1, hi2.late, nofun⟩
  | signal n => exact ⟨l1, f1.pre _, hi2.late, nofun⟩
  | running => exact ⟨l1, f1, hi2.late, nofun⟩
  | ok a =>
    dsimp only
    obtain ⟨l2, u2, f2, p2, q2⟩ := addDirect_goes (c := c) all old [] s.endpoints w s2
    rcases ha : addDirect all old [] s.endpoints w s2 with ⟨o, s3⟩
    rw [ha] at u2 f2 q2
    have base : Base c s0 s3 (l ++ (l1 ++ l2)) := by
      rw [← List.append_assoc]
      have h := hi2.1
      refine ⟨by rw [u2.hist, h.hist, List.append_assoc], u2.tmp.trans h.tmp, u2.trap.trans h.trap, ?_, ?_⟩
      · obtain ⟨x, y, e, h2⟩ := h.made
        exact ⟨x, y ++ l2, by rw [e]; simp, by rw [u2.real]; exact h2⟩
      · rw [u2.dns, h.dns]
        constructor
        · rintro ⟨hp, v, hv, h1⟩
          exact ⟨hp, v, List.mem_append_left _ hv, h1⟩
        · rintro ⟨hp, v, hv, h1⟩
          rcases List.mem_append.1 hv with hv | hv
          · exact ⟨hp, v, hv, h1⟩
          · exact absurd h1.1.1 (p2 v hv).1
    have adds : ∀ es : List CStr, (∀ v ∈ l2, ∀ fam d via, v.1 = addCmd fam d via → d ∈ es) → ∀ fam d via, Host d → addCmd fam d via ∈ (l ++ (l1 ++ l2)).map (·.1) → d ∈ es := by
      intro es h fam d via hd hx
      rw [← List.append_assoc, List.map_append] at hx
      rcases List.mem_append.1 hx with hx | hx
      · exact absurd hx (hi2.2 fam d via hd)
      · obtain ⟨v, hv, e⟩ := List.mem_map.1 hx
        exact h v hv fam d via e
    have hep : s3.endpoints = s.endpoints := u2.endpoints.trans u1.endpoints
    have late : Late0 c s0 s3 (l ++ (l1 ++ l2)) := ⟨base, by rw [hep]; exact adds _ fun v hv fam d via h => (p2 v hv).2 fam d via h⟩
    cases o with
    | exit n => exact ⟨l1 ++ l2, f2, late, nofun⟩
    | signal n => exact ⟨l1 ++ l2, (f2.pre _).pre _, late, nofun⟩
    | running => exact ⟨l1 ++ l2, f2, late, nofun⟩
    | ok added =>
      have : Late0 c s0 { s3 with endpoints := added } (l ++ (l1 ++ l2)) :=
        ⟨⟨base.hist, base.tmp, base.trap, base.made, base.dns⟩, adds _ (q2 added rfl).2⟩
      exact ⟨l1 ++ l2, trivial, this, fun _ _ => this⟩

theorem goes_weaken {m : Sh α} (h : Goes c s0 I (Early0 c s0) m) : Goes c s0 I (Late0 c s0) m := by
  intro w s l hi
  obtain ⟨l', f, p, q⟩ := h w s l hi
  exact ⟨l', f, p, fun a ha => (q a ha).late⟩

/-- After the interface is made. -/
theorem goes_rest (hsort : ∀ l, (c.sort l).Perm l) : Goes c s0 (Early0 c s0) (Late0 c s0)
    ((executeHooks c c.opts.preUp).bind fun _ => (setConfig c).bind fun _ => (forEach (addAddr c) c.opts.addresses).bind fun _ => (setMtu c).bind fun _ =>
      upIf.bind fun _ => (upDnsEarly c).bind fun _ => get.bind fun s => (call (.query [b!"wg", b!"show", s.real, b!"allowed-ips"])).bind fun r =>
      (forEach (addRoute c) (c.sort (routesIn r.out))).bind fun _ => (directIfAuto c).bind fun _ => (upDnsLate c).bind fun _ => (run true forkMonitor).bind fun _ =>
      executeHooks c c.opts.postUp) := by
  refine goes_bind (goes_early (holds_hooks _)) fun _ => goes_bind (goes_early holds_setConfig) fun _ => goes_bind (goes_early (holds_forEach holds_addAddr _)) fun _ => ?_
  refine goes_bind (goes_early holds_setMtu) fun _ => goes_bind (goes_early holds_upIf) fun _ => goes_bind goes_dns fun _ => goes_bind (goes_early holds_get) fun s => ?_
  refine goes_bind (goes_early (holds_call (mild_query _))) fun r => ?_
  refine goes_bind (goes_early (holds_forEach_mem _ fun x hx => holds_addRoute x (routesIn_slash r.out x ((hsort _).mem_iff.1 hx)))) fun _ => ?_
  refine goes_bind (J := Late0 c s0) ?_ fun _ => goes_bind (goes_late holds_upDnsLate) fun _ => goes_bind (goes_late (holds_run (mild_cmd (by simp) (by simp)))) fun _ => goes_late (holds_hooks _)
  refine goes_bind (goes_early holds_get) fun s => ?_
  split
  · exact goes_setDirect
  · exact goes_weaken (goes_early (holds_pure _))

theorem stopped_not_ok {o : Out α} {o' : Out β} (h : Stopped o o') : ∀ a, o ≠ .ok a := by
  rintro a rfl
  cases o' <;> exact h.elim

theorem addOpenbsd_mild {real : CStr} {l : List Ev} (h : AddOpenbsd c real l) : ∀ v ∈ l, Mild c v.1 := by
  induction h with
  | done h1 h2 =>
    intro v hv
    simp only [List.mem_cons, List.not_mem_nil, or_false] at hv
    rcases hv with rfl | rfl
    · exact mild_query _
    · exact mild_cmd (by simp) (by simp)
  | again h1 h2 h3 _ ih =>
    intro v hv
    simp only [List.mem_cons] at hv
    rcases hv with rfl | rfl | hv
    · exact mild_query _
    · exact mild_cmd (by simp) (by simp)
    · exact ih v hv

/-- The commands that make the interface are mild. -/
theorem addStep_mild {real : CStr} {l : List Ev} (h : AddStep c real l) : ∀ v ∈ l, Mild c v.1 := by
  unfold AddStep at h
  cases hp : c.plat with
  | freebsd =>
    rw [hp] at h
    obtain ⟨_, r, l', rfl, h⟩ := h
    intro v hv
    rcases List.mem_cons.1 hv with rfl | hv
    · exact mild_cmd (by simp) (by simp)
    · rcases h with ⟨_, rfl⟩ | ⟨_, _, rfl⟩ | ⟨_, _, e, he, rfl⟩
      · cases hv
      · cases hv
      · rw [List.mem_singleton.1 hv, he.1]
        exact ⟨by simp [cmd], fun fam d via _ => by simp [addCmd, cmd]⟩
  | openbsd => rw [hp] at h; exact addOpenbsd_mild h
  | darwin =>
    rw [hp] at h
    obtain ⟨d, u, l', rfl, hd, hu, h⟩ := h
    intro v hv
    simp only [List.mem_cons] at hv
    rcases hv with rfl | rfl | hv
    · rw [hd.1]; exact mild_cmd (by simp) (by simp)
    · rw [hu.1]; exact mild_cmd (by simp) (by simp)
    · obtain ⟨q, hq⟩ := nameLookup_queries h v hv
      rw [hq]; exact mild_query _

/-- What holds when the body of `up` stops. -/
theorem upBody_stops (hsort : ∀ l, (c.sort l).Perm l) {w : World} {s s' : St} (hreal : s.real = if c.plat = .freebsd then c.iface else []) (hd : s.haveDns = false)
    {o : Out Unit} (h : upBody c w s = (o, s')) (hr : o ≠ .running) :
    ∃ l, Fine o l ∧ s'.hist = s.hist ++ l ∧ s'.tmp = s.tmp ∧ s'.trap = s.trap ∧ MadeAs c s'.real l ∧ (s'.haveDns = true ↔ ToldDns c l) ∧
      ∀ fam d via, Host d → addCmd fam d via ∈ l.map (·.1) → d ∈ s'.endpoints := by
  unfold upBody at h
  rcases bind_inv h with ⟨_, s1, h1, h⟩ | ⟨o1, h1, h2⟩
  · obtain ⟨ladd, real, p1, e1⟩ := addIf_ok (by intro hp; rw [hreal, if_pos hp]) h1
    have hm := addStep_mild p1
    have hi : Early0 c s s1 ladd := by
      refine ⟨⟨by rw [e1]; rfl, by rw [e1]; rfl, by rw [e1]; rfl, ⟨ladd, [], by simp, by rw [e1]; exact p1⟩, ?_⟩, fun fam d via hd => mild_no_add hm hd⟩
      have : s1.haveDns = false := by rw [e1]; exact hd
      rw [this]
      refine ⟨nofun, ?_⟩
      rintro ⟨_, v, hv, h1⟩
      exact absurd h1.1.1 (hm v hv).1
    obtain ⟨l', f, p, _⟩ := goes_rest hsort w s1 ladd hi
    rw [h] at f p
    exact ⟨_, f, p.1.hist, p.1.tmp, p.1.trap, .inl p.1.made, p.1.dns, p.2⟩
  · have hf : ¬ Free o1 := by
      intro hf
      cases o1 with
      | ok a => exact stopped_not_ok h2 a rfl
      | running => cases o <;> first | exact h2.elim | exact hr rfl
      | exit n => exact hf
      | signal n => exact hf
    obtain ⟨l, u, f, m, b⟩ := addIf_fails h1 hf
    refine ⟨l, f.stopped h2, u.hist, u.tmp, u.trap, .inr ⟨b, by rw [u.real, hreal]⟩, ?_, fun fam d via hd hx => absurd hx (mild_no_add m hd)⟩
    rw [u.dns, hd]
    refine ⟨nofun, ?_⟩
    rintro ⟨_, v, hv, h1⟩
    exact absurd h1.1.1 (m v hv).1

end WG.Bsd
