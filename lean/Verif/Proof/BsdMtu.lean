import Verif.Proof.BsdNets
/-!
The MTU after `up`, and while the monitor runs.
-/
namespace WG.Bsd
open WG.Quick (Call Reply Ev World Out calm chomp readLoopLines readLine trim isIfs)
open WG.Spec.Quick WG.Spec.Bsd

/-- Neither a change of the MTU nor reading a message. -/
def NoM (real : CStr) (k : Call) : Prop := (∀ m, k ≠ cmd [b!"ifconfig", real, b!"mtu", m]) ∧ k ≠ .query [b!"read", b!"-u", b!"19"]

variable {real : CStr} {c : Cfg}

theorem noM_query {q : List CStr} (h : q.head? ≠ some b!"read") : NoM real (.query q) :=
  ⟨fun m => by simp [cmd], fun e => by simp only [Call.query.injEq] at e; rw [e] at h; simp at h⟩
theorem noM_hook (t : CStr) : NoM real (.hook t) := ⟨fun m => by simp [cmd], by simp⟩
theorem noM_act {a : List CStr} {i : List UInt8} (h : a.head? ≠ some b!"ifconfig") : NoM real (.act a i) := by
  refine ⟨fun m e => ?_, by simp⟩
  simp only [cmd, Call.act.injEq] at e
  rw [e.1] at h; simp at h

def NoMs (real : CStr) (l : List Ev) : Prop := ∀ e ∈ l, NoM real e.1

theorem noMs_nil : NoMs real [] := by intro e he; cases he
theorem noMs_cons {e : Ev} {l : List Ev} (h1 : NoM real e.1) (h2 : NoMs real l) : NoMs real (e :: l) := by
  intro x hx
  rcases List.mem_cons.1 hx with rfl | hx
  · exact h1
  · exact h2 x hx
theorem noMs_append {a b : List Ev} (h1 : NoMs real a) (h2 : NoMs real b) : NoMs real (a ++ b) := by
  intro x hx
  rcases List.mem_append.1 hx with hx | hx
  · exact h1 x hx
  · exact h2 x hx
theorem noMs_did {k : Call} {e : Ev} (h : Did k e) (hn : NoM real k) : NoM real e.1 := by rw [h.1]; exact hn
theorem noMs_forall {α : Type} {P : α → Ev → Prop} (hP : ∀ a e, P a e → NoM real e.1) {xs : List α} {l : List Ev} (h : List.Forall₂ P xs l) : NoMs real l := by
  induction h with
  | nil => exact noMs_nil
  | cons h1 _ ih => exact noMs_cons (hP _ _ h1) ih
theorem noMs_flatten {α : Type} {P : α → List Ev → Prop} (hP : ∀ a e, P a e → NoMs real e) {xs : List α} {l : List (List Ev)} (h : List.Forall₂ P xs l) : NoMs real l.flatten := by
  induction h with
  | nil => exact noMs_nil
  | cons h1 _ ih => exact noMs_append (hP _ _ h1) ih

theorem noMs_hooks {r : CStr} {hooks : List CStr} {l : List Ev} (h : HooksDone c r hooks l) : NoMs real l :=
  noMs_forall (fun a e he => by obtain ⟨t, _, he⟩ := he; exact noMs_did he (noM_hook t)) h

theorem noMs_dns {r : CStr} {l : List Ev} (h : DnsSet c r l) : NoMs real l := by
  unfold DnsSet at h
  split at h
  · subst h; exact noMs_nil
  · split at h
    · obtain ⟨e, he, rfl⟩ := h; exact noMs_cons (noMs_did he (noM_act (by simp))) noMs_nil
    · obtain ⟨b, l1, l2, h1, rfl, h2⟩ := h
      refine noMs_append ?_ ?_
      · rcases h1 with ⟨u, _, _, rfl⟩ | ⟨u, r, _, _, rfl⟩
        · exact noMs_cons (noM_query (by simp)) noMs_nil
        · exact noMs_cons (noM_query (by simp)) (noMs_cons (noM_query (by simp)) noMs_nil)
      · split at h2
        · obtain ⟨cp, ls, ns, h3, h4, h5, rfl⟩ := h2
          refine noMs_cons (noMs_did h3 (noM_act (by simp))) (noMs_append ?_ (noMs_cons (noMs_did h5 (noM_act (by simp))) noMs_nil))
          split at h4
          · subst h4; exact noMs_nil
          · obtain ⟨e, he, rfl⟩ := h4; exact noMs_cons (noMs_did he (noM_act (by simp))) noMs_nil
        · subst h2; exact noMs_nil
    · subst h; exact noMs_nil

theorem noMs_asked {m m' : Memory} {ks : List CStr} {l : List Ev} (h : Asked m ks m' l) : NoMs real l := by
  induction h with
  | nil => exact noMs_nil
  | known _ _ _ ih => exact ih
  | ask _ _ _ _ _ _ _ ih => exact noMs_cons (noM_query (by simp)) (noMs_cons (noM_query (by simp)) ih)

theorem noMs_late {l : List Ev} (h : DnsLate c l) : NoMs real l := by
  unfold DnsLate at h
  split at h
  · obtain ⟨m, r, found, asked, lq, ks, ls, rfl, _, h1, _, _, h2⟩ := h
    refine noMs_cons (noM_query (by simp)) (noMs_append (noMs_asked h1) (noMs_flatten (fun k l hl => ?_) h2))
    obtain ⟨r, ⟨_, rfl⟩ | ⟨_, r', rfl⟩⟩ := hl
    · exact noMs_cons (noM_act (by simp)) noMs_nil
    · exact noMs_cons (noM_act (by simp)) (noMs_cons (noM_act (by simp)) noMs_nil)
  · subst h; exact noMs_nil

theorem noMs_net {r : CStr} {x : CStr} {via : Via} {l : List Ev} (h : NetDone r x via l) : NoMs real l := by
  obtain ⟨q, l', rfl, h1, _⟩ := h
  refine noMs_cons (noM_query (by simp)) ?_
  rcases h1 with rfl | ⟨e, he, rfl⟩
  · exact noMs_nil
  · exact noMs_cons (noMs_did he (noM_act (by simp))) noMs_nil

theorem noMs_route {r : CStr} {x : CStr} {l : List Ev} (h : RouteDone c r x l) : NoMs real l := by
  unfold RouteDone at h
  split at h
  · subst h; exact noMs_nil
  · obtain ⟨via, _, h⟩ := h
    split at h
    · split at h
      · obtain ⟨e1, e2, rfl, h⟩ := h
        split at h
        · exact noMs_cons (noMs_did h.1 (noM_act (by simp))) (noMs_cons (noMs_did h.2 (noM_act (by simp))) noMs_nil)
        · exact noMs_cons (noMs_did h.1 (noM_act (by simp))) (noMs_cons (noMs_did h.2 (noM_act (by simp))) noMs_nil)
      · exact noMs_net h
    · split at h
      · obtain ⟨e, he, rfl⟩ := h; exact noMs_cons (noMs_did he (noM_act (by simp))) noMs_nil
      · obtain ⟨e, he, rfl⟩ := h; exact noMs_cons (noMs_did he (noM_act (by simp))) noMs_nil
      · exact noMs_net h.2

theorem noMs_direct {r : CStr} {l : List Ev} {out : List UInt8} (h : DirectDone c r out l) : NoMs real l := by
  rcases h with ⟨_, r4, r6, re, hosts, l', hh, rfl, h⟩ | ⟨_, rfl⟩
  · refine noMs_cons (noM_query (by simp)) (noMs_cons (noM_query (by simp)) (noMs_cons (noM_query (by simp)) fun e he => ?_))
    obtain ⟨fam, x, hx, h⟩ := h e he
    rcases h with h | ⟨via, h⟩
    · rw [h]; exact noM_act (by simp)
    · rw [h]; exact noM_act (by simp)
  · exact noMs_nil

/-- The MTU is right, and nothing was read since. -/
def Fresh79 (c : Cfg) (real : CStr) (h : List Ev) : Prop := ∃ a l b, h = a ++ (l ++ b) ∧ MtuSet c real l ∧ NoMs real b

theorem upDone_mtu {dir : CStr} {h : List Ev} (hu : UpDone c dir real h) : Fresh79 c real h := by
  obtain ⟨ltemp, lcheck, ladd, lpre, conf, laddrs, lmtu, up, ldns, q, routes, lroutes, ldirect, llate, mon, lpost, e, h1, h2, h3, h4, h5, h6, h7, h8, h9, h10, ⟨ls, h11, rfl⟩, h12, h13, h14, h15⟩ := hu
  refine ⟨ltemp ++ (lcheck ++ (ladd ++ (lpre ++ conf :: laddrs))), lmtu, up :: (ldns ++ (allowedOf real, q) :: (ls.flatten ++ (ldirect ++ (llate ++ mon :: lpost)))), by rw [e]; simp, h7, ?_⟩
  refine noMs_cons (noMs_did h8 ⟨fun m => by simp [cmd], by simp [cmd]⟩) <| noMs_append (noMs_dns h9) <| noMs_cons (noM_query (by simp)) <|
    noMs_append (noMs_flatten (fun _ _ h => noMs_route h) h11) <| noMs_append (noMs_direct h12) <| noMs_append (noMs_late h13) <| noMs_cons (noMs_did h14 (noM_act (by simp))) (noMs_hooks h15)

/-! ### The monitor -/

theorem adds_setDirect (c : Cfg) {P : Call → Prop} (hq : ∀ q : List CStr, q.head? ≠ some b!"read" → P (.query q)) (ha : ∀ a : List CStr, a.head? = some b!"route" → P (.act a [])) :
    Adds P (setDirect c) := by
  refine adds_bind adds_get fun s0 => adds_bind ?_ fun _ => adds_bind ?_ fun _ => adds_bind adds_get fun s => ?_
  · exact adds_bind (adds_call (hq _ (by simp))) fun _ => adds_bind (adds_modify fun _ => rfl) fun _ => adds_bind (adds_call (hq _ (by simp))) fun _ => adds_modify fun _ => rfl
  · exact adds_bind adds_get fun _ => adds_bind (adds_modify fun _ => rfl) fun _ => adds_bind (adds_call (hq _ (by simp))) fun _ => adds_modify fun _ => rfl
  · refine adds_bind (adds_forEach (fun e => ?_) _) fun _ => adds_bind ?_ fun _ => adds_modify fun _ => rfl
    · unfold dropDirect
      refine adds_bind adds_get fun s => adds_ite (fun _ => adds_pure _) fun _ => ?_
      split
      · exact adds_run (ha _ (by simp))
      · exact adds_pure _
    · generalize s.endpoints = es
      suffices ∀ all old added, Adds P (addDirect all old added es) from this _ _ _
      intro all old
      induction es with
      | nil => intro added; exact adds_pure _
      | cons x xs ih =>
        intro added
        unfold addDirect
        refine adds_ite (fun _ => ih _) fun _ => adds_bind adds_get fun s => ?_
        split
        · exact adds_bind (adds_run (ha _ (by simp))) fun _ => ih _
        · exact ih _

theorem adds_setDnsDarwin (c : Cfg) {P : Call → Prop} (hq : ∀ q : List CStr, q.head? ≠ some b!"read" → P (.query q)) (ha : ∀ a : List CStr, a.head? = some b!"networksetup" → P (.act a [])) :
    Adds P (setDnsDarwin c) := by
  refine adds_bind (adds_bind (adds_call (hq _ (by simp))) fun r => adds_bind (adds_forEach (fun k => ?_) _) fun _ => adds_modify fun s => rfl) fun _ => adds_bind adds_get fun s => adds_forEach (fun k => ?_) _
  · refine adds_ite (fun _ => adds_exit _) fun _ => ?_
    refine adds_bind adds_get fun s => adds_ite (fun _ => adds_pure _) fun _ => adds_bind (adds_call (hq _ (by simp))) fun r => adds_ite (fun _ => adds_exit _) fun _ => ?_
    refine adds_bind (adds_ite (fun _ => adds_pure _) fun _ => adds_modify fun s => rfl) fun _ => adds_bind (adds_call (hq _ (by simp))) fun r => adds_ite (fun _ => adds_exit _) fun _ => ?_
    exact adds_ite (fun _ => adds_pure _) fun _ => adds_modify fun s => rfl
  · exact adds_bind (adds_call (ha _ (by simp))) fun r => adds_ite (fun _ => adds_pure _) fun _ => adds_run (ha _ (by simp))

theorem rtm_prefix {out : List UInt8} (h : b!"RTM_" <+: out) : b!"RTM_".isPrefixOf (readLine out) = true := by
  obtain ⟨t, rfl⟩ := h
  rw [List.isPrefixOf_iff_prefix]
  have e : readLine (b!"RTM_" ++ t) = b!"RTM_" ++ ((t.filter (· ≠ 0)).reverse.dropWhile isIfs).reverse := by
    unfold readLine trim
    have e1 : (b!"RTM_" ++ t).filter (fun x => decide (x ≠ 0)) = b!"RTM_" ++ t.filter (fun x => decide (x ≠ 0)) := by
      rw [List.filter_append]; rfl
    rw [e1]
    generalize t.filter (fun x => decide (x ≠ 0)) = u
    have e2 : (b!"RTM_" ++ u).dropWhile isIfs = b!"RTM_" ++ u := by rfl
    rw [e2, List.reverse_append]
    have key : ∀ x : List UInt8, ((x ++ b!"RTM_".reverse).dropWhile isIfs) = x.dropWhile isIfs ++ b!"RTM_".reverse := by
      intro x
      induction x with
      | nil => rfl
      | cons a x ih =>
        simp only [List.cons_append, List.dropWhile_cons]
        split
        · exact ih
        · rfl
    rw [key, List.reverse_append, List.reverse_reverse]
  rw [e]
  exact List.prefix_append _ _

/-- `m` ends. -/
def Ends {α : Type} (m : Sh α) : Prop := ∀ w s, (m w s).1 ≠ .running

variable {α β : Type}
theorem ends_pure (a : α) : Ends (Sh.pure a) := fun _ _ h => by cases h
theorem ends_exit (n : Nat) : Ends (exitWith n : Sh α) := fun _ _ h => by cases h
theorem ends_get : Ends get := fun _ _ h => by cases h
theorem ends_modify (g : St → St) : Ends (modify g) := fun _ _ h => by cases h
theorem ends_call (k : Call) : Ends (call k) := by
  intro w s
  rw [call_eq]
  dsimp only
  split <;> simp
theorem ends_bind {m : Sh α} {g : α → Sh β} (hm : Ends m) (hg : ∀ a, Ends (g a)) : Ends (m.bind g) := by
  intro w s
  unfold Sh.bind
  have := hm w s
  rcases h : m w s with ⟨o, s1⟩
  rw [h] at this
  cases o with
  | ok a => exact hg a w s1
  | exit n => simp
  | signal n => simp
  | running => exact absurd rfl this
theorem ends_ite {p : Prop} [Decidable p] {a b : Sh α} (ha : Ends a) (hb : Ends b) : Ends (if p then a else b) := by
  split
  · exact ha
  · exact hb
theorem ends_run (e : Bool) (k : Call) : Ends (run e k) := ends_bind (ends_call k) fun _ => ends_ite (ends_exit _) (ends_pure _)
theorem ends_forEach {γ : Type} {g : γ → Sh Unit} (hg : ∀ x, Ends (g x)) (xs : List γ) : Ends (forEach g xs) := by
  induction xs with
  | nil => exact ends_pure _
  | cons x xs ih => exact ends_bind (hg x) fun _ => ih

theorem ends_setDirect (c : Cfg) : Ends (setDirect c) := by
  refine ends_bind ends_get fun s0 => ends_bind ?_ fun _ => ends_bind ?_ fun _ => ends_bind ends_get fun s => ?_
  · exact ends_bind (ends_call _) fun _ => ends_bind (ends_modify _) fun _ => ends_bind (ends_call _) fun _ => ends_modify _
  · exact ends_bind ends_get fun _ => ends_bind (ends_modify _) fun _ => ends_bind (ends_call _) fun _ => ends_modify _
  · refine ends_bind (ends_forEach (fun e => ?_) _) fun _ => ends_bind ?_ fun _ => ends_modify _
    · unfold dropDirect
      refine ends_bind ends_get fun s => ends_ite (ends_pure _) ?_
      split
      · exact ends_run _ _
      · exact ends_pure _
    · generalize s.endpoints = es
      suffices ∀ all old added, Ends (addDirect all old added es) from this _ _ _
      intro all old
      induction es with
      | nil => intro added; exact ends_pure _
      | cons x xs ih =>
        intro added
        unfold addDirect
        refine ends_ite (ih _) (ends_bind ends_get fun s => ?_)
        split
        · exact ends_bind (ends_run _ _) fun _ => ih _
        · exact ih _

theorem ends_setDnsDarwin (c : Cfg) : Ends (setDnsDarwin c) := by
  refine ends_bind (ends_bind (ends_call _) fun r => ends_bind (ends_forEach (fun k => ?_) _) fun _ => ends_modify _) fun _ => ends_bind ends_get fun s => ends_forEach (fun k => ?_) _
  · refine ends_ite (ends_exit _) ?_
    refine ends_bind ends_get fun s => ends_ite (ends_pure _) (ends_bind (ends_call _) fun r => ends_ite (ends_exit _) ?_)
    refine ends_bind (ends_ite (ends_pure _) (ends_modify _)) fun _ => ends_bind (ends_call _) fun r => ends_ite (ends_exit _) ?_
    exact ends_ite (ends_pure _) (ends_modify _)
  · exact ends_bind (ends_call _) fun r => ends_ite (ends_pure _) (ends_run _ _)

theorem ends_setMtuDarwin (c : Cfg) (h : c.plat = .darwin) : Ends (setMtu c) := by
  refine ends_bind ends_get fun s => ends_ite (ends_run _ _) ?_
  rw [if_pos h]
  exact ends_bind (ends_call _) fun r => ends_bind (ends_ite (ends_pure _) (ends_bind (ends_call _) fun _ => ends_pure _)) fun m =>
    ends_bind (ends_call _) fun i => ends_ite (ends_pure _) (ends_run _ _)

theorem ends_monitorStep (c : Cfg) : Ends (monitorStep c) := by
  refine ends_bind ?_ fun _ => ends_bind (ends_call _) fun r => ends_ite (ends_pure _) (ends_ite (ends_bind ends_get fun s => ends_bind (ends_call _) fun i => ends_ite (ends_pure _) ?_) (ends_pure _))
  · unfold monitorAlarm
    split
    · exact ends_ite (ends_pure _) (ends_bind (ends_call _) fun r => ends_ite (ends_setDnsDarwin c) (ends_pure _))
    · exact ends_pure _
  · refine ends_bind (ends_bind ends_get fun s => ends_ite (ends_setDirect c) (ends_pure _)) fun _ => ends_bind ?_ fun _ => ends_pure _
    unfold monitorDarwin
    split
    · rename_i hp
      exact ends_bind (ends_ite (ends_setMtuDarwin c hp) (ends_pure _)) fun _ => ends_ite (ends_pure _) (ends_setDnsDarwin c)
    · exact ends_pure _

/-- The MTU is right; on Darwin, if it is not configured, no message came since. -/
def Fresh' (c : Cfg) (real : CStr) (h : List Ev) : Prop :=
  ∃ a l b, h = a ++ (l ++ b) ∧ MtuSet c real l ∧ ∀ e ∈ b, ¬ SetsMtu real e ∧ (c.plat = .darwin → c.opts.mtu = [] → ¬ MessageCame e)

theorem Fresh79.weak {h : List Ev} (hh : Fresh79 c real h) : Fresh' c real h := by
  obtain ⟨a, l, b, e, h1, h2⟩ := hh
  exact ⟨a, l, b, e, h1, fun x hx => ⟨fun ⟨m, hm⟩ => (h2 x hx).1 m hm, fun _ _ hm => (h2 x hx).2 hm.1⟩⟩

theorem Fresh'.more {h b' : List Ev} (hh : Fresh' c real h) (hb : NoMs real b') : Fresh' c real (h ++ b') := by
  obtain ⟨a, l, b, rfl, h1, h2⟩ := hh
  refine ⟨a, l, b ++ b', by simp, h1, fun x hx => ?_⟩
  rcases List.mem_append.1 hx with hx | hx
  · exact h2 x hx
  · exact ⟨fun ⟨m, hm⟩ => (hb x hx).1 m hm, fun _ _ hm => (hb x hx).2 hm.1⟩

theorem adds_noMs {m : Sh α} (hm : Adds (NoM real) m) {w : World} {s s' : St} {o : Out α} (h : m w s = (o, s')) : ∃ b, s'.hist = s.hist ++ b ∧ NoMs real b := by
  obtain ⟨b, hb, hp⟩ := hm w s
  rw [h] at hb
  exact ⟨b, hb, hp⟩

theorem hadds_q : ∀ q : List CStr, q.head? ≠ some b!"read" → NoM real (.query q) := fun _ h => noM_query h
theorem hadds_r : ∀ a : List CStr, a.head? = some b!"route" → NoM real (.act a []) := fun a h => noM_act (by rw [h]; simp)
theorem hadds_n : ∀ a : List CStr, a.head? = some b!"networksetup" → NoM real (.act a []) := fun a h => noM_act (by rw [h]; simp)

theorem real_of_late {f : Family} {d : CStr} {v : Option Via} {m : Sh α} (hm : Rel (Late f d v) m) {w : World} {s s' : St} {o : Out α} (h : m w s = (o, s')) : s'.real = s.real :=
  (rel_of hm h).1.1

def SameReal (s s' : St) : Prop := s'.real = s.real
theorem preReal : Pre SameReal := ⟨fun _ => rfl, fun h1 h2 => Eq.trans h2 h1⟩
theorem real_call (k : Call) : Rel SameReal (call k) := rel_call fun _ _ => rfl
theorem real_run (e : Bool) (k : Call) : Rel SameReal (run e k) := rel_run fun _ _ => rfl
theorem real_setDirect (c : Cfg) : Rel SameReal (setDirect c) := by
  refine rel_bind preReal (rel_get preReal) fun s0 => rel_bind preReal ?_ fun _ => rel_bind preReal ?_ fun _ => rel_bind preReal (rel_get preReal) fun s => ?_
  · exact rel_bind preReal (real_call _) fun _ => rel_bind preReal (rel_modify fun _ => rfl) fun _ => rel_bind preReal (real_call _) fun _ => rel_modify fun _ => rfl
  · exact rel_bind preReal (rel_get preReal) fun _ => rel_bind preReal (rel_modify fun _ => rfl) fun _ => rel_bind preReal (real_call _) fun _ => rel_modify fun _ => rfl
  · refine rel_bind preReal (rel_forEach preReal (fun e => ?_) _) fun _ => rel_bind preReal ?_ fun _ => rel_modify fun _ => rfl
    · unfold dropDirect
      refine rel_bind preReal (rel_get preReal) fun s => rel_ite (fun _ => rel_pure preReal _) fun _ => ?_
      split
      · exact real_run _ _
      · exact rel_pure preReal _
    · generalize s.endpoints = es
      suffices ∀ all old added, Rel SameReal (addDirect all old added es) from this _ _ _
      intro all old
      induction es with
      | nil => intro added; exact rel_pure preReal _
      | cons x xs ih =>
        intro added
        unfold addDirect
        refine rel_ite (fun _ => ih _) fun _ => rel_bind preReal (rel_get preReal) fun s => ?_
        split
        · exact rel_bind preReal (real_run _ _) fun _ => ih _
        · exact ih _

/-- One round of the loop. -/
theorem step_fresh {w : World} {s s' : St} (hf : Fresh' c s.real s.hist) (h : monitorStep c w s = (.ok true, s')) : s'.real = s.real ∧ Fresh' c s.real s'.hist := by
  unfold monitorStep at h
  obtain ⟨_, s1, h1, h⟩ := bind_ok h
  have r1 : s1.real = s.real := real_of_late (rel_monitorAlarm (f := .v4) (d := []) (v0 := none) c) h1
  have f1 : Fresh' c s.real s1.hist := by
    obtain ⟨b, hb, hn⟩ := adds_noMs (real := s.real) (by
      unfold monitorAlarm
      split
      · exact adds_ite (fun _ => adds_pure _) fun _ => adds_bind (adds_call (noM_query (by simp))) fun r => adds_ite (fun _ => adds_setDnsDarwin c hadds_q hadds_n) fun _ => adds_pure _
      · exact adds_pure _) h1
    rw [hb]; exact hf.more hn
  obtain ⟨r, s2, h2, h⟩ := bind_ok h
  have q2 := call_plus h2
  have r2 : s2.real = s.real := by rw [q2]; exact r1
  have e2 : s2.hist = s1.hist ++ [(.query [b!"read", b!"-u", b!"19"], r)] := by rw [q2]; rfl
  by_cases hst : r.status = 0
  swap
  · rw [if_pos hst] at h; cases (pure_inv h).1
  rw [if_neg (by simpa using hst)] at h
  by_cases hp : b!"RTM_".isPrefixOf (readLine r.out) = true
  swap
  · rw [if_neg hp] at h
    have q3 := (pure_inv h).2
    subst q3
    refine ⟨r2, ?_⟩
    rw [e2]
    obtain ⟨a, l, b, e, g1, g2⟩ := f1
    refine ⟨a, l, b ++ [(.query [b!"read", b!"-u", b!"19"], r)], by rw [e]; simp, g1, fun x hx => ?_⟩
    rcases List.mem_append.1 hx with hx | hx
    · exact g2 x hx
    · rw [List.mem_singleton] at hx
      subst hx
      exact ⟨fun ⟨m, hm⟩ => by simp [cmd] at hm, fun _ _ hm => hp (rtm_prefix hm.2.2)⟩
  rw [if_pos hp, get_bind] at h
  obtain ⟨i, s3, h3, h⟩ := bind_ok h
  have q3 := call_plus h3
  have r3 : s3.real = s.real := by rw [q3]; exact r2
  by_cases hi : i.status = 0
  swap
  · rw [if_pos hi] at h; cases (pure_inv h).1
  rw [if_neg (by simpa using hi)] at h
  obtain ⟨_, s4, h4, h⟩ := bind_ok h
  have r4 : s4.real = s.real := by
    rw [← r3]
    exact rel_of (Q := SameReal) (rel_bind preReal (rel_get preReal) fun s => rel_ite (fun _ => real_setDirect c) fun _ => rel_pure preReal _) h4
  obtain ⟨b4, e4, n4⟩ := adds_noMs (real := s.real) (adds_bind adds_get fun s => adds_ite (fun _ => adds_setDirect c hadds_q hadds_r) fun _ => adds_pure _) h4
  obtain ⟨_, s5, h5, h⟩ := bind_ok h
  have q6 := (pure_inv h).2
  subst q6
  have e4' : s4.hist = s1.hist ++ ((.query [b!"read", b!"-u", b!"19"], r) :: (.query [b!"ifconfig", s2.real], i) :: b4) := by
    rw [e4, q3, plus_hist, e2]; simp
  have keep : ¬ (c.plat = .darwin ∧ c.opts.mtu = []) → Fresh' c s.real s4.hist := by
    intro hn
    rw [e4']
    obtain ⟨a, l, b, e, g1, g2⟩ := f1
    refine ⟨a, l, b ++ ((.query [b!"read", b!"-u", b!"19"], r) :: (.query [b!"ifconfig", s2.real], i) :: b4), by rw [e]; simp, g1, fun x hx => ⟨?_, fun a b => absurd ⟨a, b⟩ hn⟩⟩
    rcases List.mem_append.1 hx with hx | hx
    · exact (g2 x hx).1
    · rcases List.mem_cons.1 hx with rfl | hx
      · exact fun ⟨m, hm⟩ => by simp [cmd] at hm
      · rcases List.mem_cons.1 hx with rfl | hx
        · exact fun ⟨m, hm⟩ => by simp [cmd] at hm
        · exact fun ⟨m, hm⟩ => (n4 x hx).1 m hm
  unfold monitorDarwin at h5
  cases hpl : c.plat with
  | freebsd =>
    rw [hpl] at h5
    have := (pure_inv h5).2
    subst this
    exact ⟨r4, keep (by simp [hpl])⟩
  | openbsd =>
    rw [hpl] at h5
    have := (pure_inv h5).2
    subst this
    exact ⟨r4, keep (by simp [hpl])⟩
  | darwin =>
    rw [hpl] at h5
    dsimp only at h5
    obtain ⟨_, s6, h6, h5⟩ := bind_ok h5
    have k6 : s6.real = s.real ∧ Fresh' c s.real s6.hist := by
      by_cases hm : c.opts.mtu = []
      · rw [if_pos hm] at h6
        obtain ⟨l, hl, q⟩ := setMtu_ok h6
        rw [r4] at hl
        refine ⟨by rw [q]; exact r4, s4.hist, l, [], by rw [q]; simp [plus_hist], hl, by simp⟩
      · rw [if_neg hm] at h6
        have := (pure_inv h6).2
        subst this
        exact ⟨r4, keep fun h => hm h.2⟩
    by_cases hd : c.opts.dns = []
    · rw [if_pos hd] at h5
      have := (pure_inv h5).2
      subst this
      exact k6
    · rw [if_neg hd] at h5
      obtain ⟨b, hb, hn⟩ := adds_noMs (real := s.real) (adds_setDnsDarwin c hadds_q hadds_n) h5
      refine ⟨(real_of_late (rel_setDnsDarwin (f := .v4) (d := []) (v0 := none) c) h5).trans k6.1, ?_⟩
      rw [hb]; exact k6.2.more hn

theorem loop_fresh (n : Nat) {w : World} {s s' : St} (hf : Fresh' c s.real s.hist) (h : monitorLoop c n w s = (.running, s')) : s'.real = s.real ∧ Fresh' c s.real s'.hist := by
  induction n generalizing s with
  | zero =>
    have : s' = s := by
      have := congrArg Prod.snd h
      exact this.symm
    subst this
    exact ⟨rfl, hf⟩
  | succ n ih =>
    unfold monitorLoop at h
    rcases bind_inv h with ⟨b, s1, h1, h⟩ | ⟨o1, h1, hs⟩
    · cases b with
      | false => rw [if_neg (by simp)] at h; cases congrArg Prod.fst h
      | true =>
        rw [if_pos rfl] at h
        obtain ⟨g1, g2⟩ := step_fresh hf h1
        obtain ⟨k1, k2⟩ := ih (s := s1) (by rw [g1]; exact g2) h
        rw [g1] at k1 k2
        exact ⟨k1, k2⟩
    · exfalso
      have := ends_monitorStep c w s
      rw [h1] at this
      cases o1 <;> simp_all [Stopped]

theorem monitor_fresh (n : Nat) {w : World} {s s' : St} (hf : Fresh' c s.real s.hist) (h : monitor c n w s = (.running, s')) : s'.real = s.real ∧ Fresh' c s.real s'.hist := by
  unfold monitor at h
  have stop : ∀ {α : Type} {m : Sh α} {s : St} {o1 : Out α}, Ends m → m w s = (o1, s') → Stopped o1 (.running : Out Unit) → False := by
    intro α m s o1 he h1 hs
    have := he w s
    rw [h1] at this
    cases o1 <;> simp_all [Stopped]
  have et : Ends (if c.plat = .freebsd then makeTemp else Sh.pure ()) :=
    ends_ite (ends_bind (ends_call _) fun _ => ends_bind (ends_call _) fun _ => ends_ite (ends_exit _) (ends_modify _)) (ends_pure _)
  rcases bind_inv h with ⟨_, s1, h1, h⟩ | ⟨o1, h1, hs⟩
  swap
  · exact (stop et h1 hs).elim
  have r1 : s1.real = s.real := real_of_late (f := .v4) (d := []) (v := none) (rel_ite (fun _ => rel_makeTemp) fun _ => rel_pure preLate _) h1
  have at' : Adds (NoM s.real) (if c.plat = .freebsd then makeTemp else Sh.pure ()) :=
    adds_ite (fun _ => adds_bind (adds_call (noM_act (by simp))) fun _ => adds_bind (adds_call (noM_query (by simp))) fun _ =>
      adds_ite (fun _ => adds_exit _) fun _ => adds_modify fun _ => rfl) fun _ => adds_pure _
  obtain ⟨b1, e1, n1⟩ := adds_noMs at' h1
  rw [setTrap_bind] at h
  rcases bind_inv h with ⟨_, s2, h2, h⟩ | ⟨o1, h2, hs⟩
  swap
  · exact (stop (ends_call _) h2 hs).elim
  have q2 := call_plus h2
  have r2 : s2.real = s.real := by rw [q2]; exact r1
  have f2 : Fresh' c s2.real s2.hist := by
    rw [r2, q2, plus_hist]
    show Fresh' c s.real (s1.hist ++ _)
    rw [e1]
    exact (hf.more n1).more (noMs_cons (noM_act (by simp)) noMs_nil)
  rcases bind_inv h with ⟨_, s3, h3, h⟩ | ⟨o1, h3, hs⟩
  · have := ends_run true (act [b!"kill", b!"route", b!"-n", b!"monitor"]) w s3
    rw [h] at this
    exact absurd rfl this
  · have ho : o1 = .running := by cases o1 <;> simp_all [Stopped]
    subst ho
    obtain ⟨k1, k2⟩ := loop_fresh n f2 h3
    rw [r2] at k1 k2
    exact ⟨k1, k2⟩

end WG.Bsd
