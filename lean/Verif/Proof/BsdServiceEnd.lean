import Verif.Proof.BsdServiceRun
/-! The DNS settings of one service on macOS: `up`, the monitor and its end. -/
namespace WG.Bsd
open WG.Quick (Call Reply Ev World Out calm chomp readLoopLines wordsAux routesIn readLine)
open WG.Spec WG.Spec.Quick WG.Spec.Bsd

variable {α β : Type} {k : CStr} {t : Setting} {c : Cfg} {w : World}

theorem safe_pure (a : α) : Safe c k t w (Sh.pure a) := safe_hush (rel_pure preHush _)

theorem safe_upDnsLate (g : Given k t w) (hord : ∀ l, (c.order l).Perm l) : Safe c k t w (upDnsLate c) := by
  unfold upDnsLate
  split
  · exact safe_ite (fun _ => safe_pure _) fun h => safe_setDns g hord h
  · exact safe_pure _

theorem safe_setTrap (x : Trap) : Safe c k t w (setTrap x) := safe_hush (rel_modify fun _ => hush_same rfl rfl rfl)

theorem safe_up (g : Given k t w) (hord : ∀ l, (c.order l).Perm l) (hp : c.plat = .darwin) : Safe c k t w (commands c (cmdUp c)) := by
  unfold commands cmdUp
  rw [if_neg (by rw [hp]; decide)]
  refine safe_bind (safe_pure _) fun _ => safe_bind (safe_setTrap _) fun _ => safe_bind ?_ fun b => safe_ite (fun _ => safe_hush (rel_exit preHush _)) fun _ =>
    safe_bind (safe_setTrap _) fun _ => safe_bind ?_ fun _ => safe_setTrap _
  · unfold upCheck; rw [hp]; exact safe_hush (hush_realDarwin c false)
  · unfold upBody
    refine safe_bind (safe_hush (hush_addIf hp)) fun _ => safe_bind (safe_hush (hush_hooks c _)) fun _ => safe_bind (safe_hush (hush_setConfig c)) fun _ =>
      safe_bind (safe_hush (rel_forEach preHush (hush_addAddr hp) _)) fun _ => safe_bind (safe_hush (hush_setMtu hp)) fun _ => safe_bind (safe_hush hush_upIf) fun _ =>
      safe_bind (safe_hush (hush_upDnsEarly hp)) fun _ => safe_bind (safe_hush (rel_get preHush)) fun s =>
      safe_bind (safe_hush (rel_call (fun s r => by exact hush_query (by simp) s r))) fun r => safe_bind (safe_hush (rel_forEach preHush (hush_addRoute hp) _)) fun _ =>
      safe_bind (safe_hush (hush_directIfAuto c)) fun _ => safe_bind (safe_upDnsLate g hord) fun _ =>
      safe_bind (safe_hush (rel_run (fun s r => by exact hush_act (by simp) s r))) fun _ => safe_hush (hush_hooks c _)

theorem inv_start : Inv k t (St.start c) := ⟨tidy_nil, .inl ⟨rfl, rfl, rfl⟩⟩
theorem ours_start : Ours c k t (St.start c) := by
  rintro ⟨r, hr, _⟩
  cases hr

/-! ### The last listing -/

/-- No routing message came since the services were listed. -/
def Recent (h : List Ev) : Prop := ∃ a r b, h = a ++ (listServices, r) :: b ∧ ∀ e ∈ b, ¬ MessageCame e

/-- Not a message. -/
def NoRead (q : Call) : Prop := q ≠ .query [b!"read", b!"-u", b!"19"]

theorem Recent.more {h b : List Ev} (hh : Recent h) (hb : ∀ e ∈ b, ¬ MessageCame e) : Recent (h ++ b) := by
  obtain ⟨a, r, b1, rfl, hb1⟩ := hh
  refine ⟨a, r, b1 ++ b, by simp, fun e he => ?_⟩
  rcases List.mem_append.1 he with he | he
  · exact hb1 e he
  · exact hb e he

theorem Recent.adds {m : Sh α} (hm : Adds NoRead m) {s s' : St} {o : Out α} (h : m w s = (o, s')) (hh : Recent s.hist) : Recent s'.hist := by
  obtain ⟨b, hb, hb'⟩ := hm w s
  rw [h] at hb
  rw [hb]
  exact hh.more fun e he hm => hb' e he hm.1

theorem noRead_query {q : List CStr} (h : q.head? ≠ some b!"read") : NoRead (.query q) := by
  intro e
  cases e
  exact h rfl

theorem asked_noRead {m m' : Memory} {ks : List CStr} {l : List Ev} (h : Asked m ks m' l) : ∀ e ∈ l, NoRead e.1 := by
  induction h with
  | nil => simp
  | known _ _ _ ih => exact ih
  | ask _ _ _ _ _ _ _ ih =>
    intro e he
    rcases List.mem_cons.1 he with rfl | he
    · exact noRead_query (by simp)
    rcases List.mem_cons.1 he with rfl | he
    · exact noRead_query (by simp)
    exact ih e he

theorem noRead_act (a : List CStr) (i : List UInt8) : NoRead (.act a i) := by intro e; cases e
theorem noRead_hook (x : CStr) : NoRead (.hook x) := by intro e; cases e

theorem recent_setDns {s s' : St} {u : Unit} (h : setDnsDarwin c w s = (.ok u, s')) : Recent s'.hist := by
  unfold setDnsDarwin collectServices at h
  obtain ⟨_, s1, h1, h⟩ := bind_ok h
  obtain ⟨r, s2, h2, h1⟩ := bind_ok h1
  obtain rfl := call_plus h2
  have r2 : Recent (plus s [(listServices, r)]).hist := ⟨s.hist, r, [], rfl, by simp⟩
  dsimp only at h1
  have a1 : Adds NoRead (fun w s => ((forEach collectService (((readLoopLines r.out).drop 1).map svcName)).bind fun _ =>
      modify fun s => { s with svcDns := s.svcDns.filter (fun p => p.1 ∉ (s.svcDns.map (·.1)).filter fun k => k ∉ ((readLoopLines r.out).drop 1).map svcName), svcSearch := s.svcSearch.filter (fun p => p.1 ∉ (s.svcDns.map (·.1)).filter fun k => k ∉ ((readLoopLines r.out).drop 1).map svcName) }) w s) := by
    refine adds_bind (adds_forEach (fun k => ?_) _) fun _ => adds_modify fun s => rfl
    unfold collectService
    refine adds_ite (fun _ => adds_exit _) fun _ => ?_
    refine adds_bind adds_get fun s => adds_ite (fun _ => adds_pure _) fun _ => adds_bind (adds_call (noRead_query (by simp))) fun r => adds_ite (fun _ => adds_exit _) fun _ => ?_
    refine adds_bind (adds_ite (fun _ => adds_pure _) fun _ => adds_modify fun s => rfl) fun _ => adds_bind (adds_call (noRead_query (by simp))) fun r => adds_ite (fun _ => adds_exit _) fun _ => ?_
    exact adds_ite (fun _ => adds_pure _) fun _ => adds_modify fun s => rfl
  have r3 := r2.adds a1 h1
  refine r3.adds (m := get.bind fun s => _) ?_ h
  refine adds_bind adds_get fun s => adds_forEach (fun k => ?_) _
  exact adds_bind (adds_call (noRead_act _ _)) fun r => adds_ite (fun _ => adds_pure _) fun _ => adds_run (noRead_act _ _)

theorem recent_up (hp : c.plat = .darwin) (hd : c.opts.dns ≠ []) {s' : St} {s : St} (h : commands c (cmdUp c) w s = (.ok (), s')) : Recent s'.hist := by
  unfold commands cmdUp upBody at h
  obtain ⟨_, s1, _, h⟩ := bind_ok h
  rw [setTrap_bind] at h
  obtain ⟨b, s2, _, h⟩ := bind_ok h
  cases b with
  | true => rw [if_pos rfl] at h; exact (exitWith_ok h).elim
  | false =>
  rw [if_neg (by decide), setTrap_bind] at h
  obtain ⟨_, s3, hb, h3⟩ := bind_ok h
  obtain rfl := modify_inv h3
  obtain ⟨_, _, _, hb⟩ := bind_ok hb
  obtain ⟨_, _, _, hb⟩ := bind_ok hb
  obtain ⟨_, _, _, hb⟩ := bind_ok hb
  obtain ⟨_, _, _, hb⟩ := bind_ok hb
  obtain ⟨_, _, _, hb⟩ := bind_ok hb
  obtain ⟨_, _, _, hb⟩ := bind_ok hb
  obtain ⟨_, _, _, hb⟩ := bind_ok hb
  rw [get_bind] at hb
  obtain ⟨_, _, _, hb⟩ := bind_ok hb
  obtain ⟨_, _, _, hb⟩ := bind_ok hb
  obtain ⟨_, _, _, hb⟩ := bind_ok hb
  obtain ⟨_, s4, h4, hb⟩ := bind_ok hb
  unfold upDnsLate at h4
  rw [hp] at h4
  dsimp only at h4
  rw [if_neg hd] at h4
  have r4 := recent_setDns h4
  change Recent s3.hist
  refine Recent.adds (m := (run true forkMonitor).bind fun _ => executeHooks c c.opts.postUp) ?_ hb r4
  exact adds_bind (adds_run (noRead_act _ _)) fun _ => adds_forEach (fun x => adds_bind adds_get fun s => adds_run (noRead_hook _)) _

/-! ### The monitor -/

theorem safe_monitorStep (g : Given k t w) (hord : ∀ l, (c.order l).Perm l) (hp : c.plat = .darwin) : Safe c k t w (monitorStep c) := by
  unfold monitorStep
  refine safe_bind ?_ fun _ => safe_bind (safe_hush (rel_call (fun s r => by exact hush_query (by simp) s r))) fun r => safe_ite (fun _ => safe_pure _) fun _ =>
    safe_ite (fun _ => ?_) fun _ => safe_pure _
  · unfold monitorAlarm
    rw [hp]
    refine safe_ite (fun _ => safe_pure _) fun hd => safe_bind (safe_hush (rel_call (fun s r => by exact hush_query (by simp) s r))) fun r => ?_
    exact safe_ite (fun _ => safe_setDns g hord hd) fun _ => safe_pure _
  · refine safe_bind (safe_hush (rel_get preHush)) fun s => safe_bind (safe_hush (rel_call (fun s r => by exact hush_query (by simp) s r))) fun i => ?_
    refine safe_ite (fun _ => safe_pure _) fun _ => safe_bind (safe_hush (hush_directIfAuto c)) fun _ => safe_bind ?_ fun _ => safe_pure _
    unfold monitorDarwin
    rw [hp]
    refine safe_bind (safe_ite (fun _ => safe_hush (hush_setMtu hp)) fun _ => safe_pure _) fun _ => safe_ite (fun _ => safe_pure _) fun hd => safe_setDns g hord hd

theorem recent_step (hp : c.plat = .darwin) (hd : c.opts.dns ≠ []) {s s' : St} (h : monitorStep c w s = (.ok true, s')) (hr : Recent s.hist) : Recent s'.hist := by
  unfold monitorStep at h
  obtain ⟨_, s1, h1, h⟩ := bind_ok h
  have r1 : Recent s1.hist := by
    unfold monitorAlarm at h1
    rw [hp] at h1
    dsimp only at h1
    rw [if_neg hd] at h1
    obtain ⟨r, s2, h2, h1⟩ := bind_ok h1
    obtain rfl := call_plus h2
    by_cases hr0 : r.status = 0
    · rw [if_pos hr0] at h1; exact recent_setDns h1
    · rw [if_neg hr0] at h1
      obtain ⟨_, rfl⟩ := pure_inv h1
      exact hr.more (b := [_]) fun e he hm => by rw [List.mem_singleton.1 he] at hm; exact absurd hm.1 (by simp)
  obtain ⟨r, s2, h2, h⟩ := bind_ok h
  obtain rfl := call_plus h2
  by_cases hst : r.status ≠ 0
  · rw [if_pos hst] at h
    exact absurd (pure_inv h).1 (by decide)
  rw [if_neg hst] at h
  by_cases hrtm : b!"RTM_".isPrefixOf (readLine r.out) = true
  · rw [if_pos hrtm, get_bind] at h
    obtain ⟨i, s3, h3, h⟩ := bind_ok h
    by_cases hi : i.status ≠ 0
    · rw [if_pos hi] at h
      exact absurd (pure_inv h).1 (by decide)
    rw [if_neg hi] at h
    obtain ⟨_, s4, _, h⟩ := bind_ok h
    obtain ⟨_, s5, h5, h⟩ := bind_ok h
    obtain ⟨_, rfl⟩ := pure_inv h
    unfold monitorDarwin at h5
    rw [hp] at h5
    dsimp only at h5
    obtain ⟨_, s6, _, h5⟩ := bind_ok h5
    rw [if_neg hd] at h5
    exact recent_setDns h5
  · rw [if_neg hrtm] at h
    obtain ⟨_, rfl⟩ := pure_inv h
    refine r1.more (b := [_]) fun e he hm => ?_
    rw [List.mem_singleton.1 he] at hm
    exact hrtm (rtm_prefix hm.2.2)

/-- The loop of the monitor. -/
theorem loop_service (g : Given k t w) (hord : ∀ l, (c.order l).Perm l) (hp : c.plat = .darwin) (n : Nat) {s s' : St} {o : Out Unit}
    (h : monitorLoop c n w s = (o, s')) (hi : Inv k t s) :
    Weak k t s' ∧ (o = .running → Ours c k t s → Ours c k t s') ∧ (o = .running → c.opts.dns ≠ [] → Recent s.hist → Recent s'.hist) := by
  induction n generalizing s with
  | zero =>
    unfold monitorLoop giveUp at h
    simp only [Prod.mk.injEq] at h
    rw [← h.2]
    exact ⟨hi.weak, fun _ h => h, fun _ _ h => h⟩
  | succ n ih =>
    unfold monitorLoop at h
    rcases bind_inv h with ⟨b, s1, h1, h⟩ | ⟨o1, h1, hst⟩
    · obtain ⟨a1, b1, d1⟩ := safe_monitorStep g hord hp s _ s1 h1 hi
      cases b with
      | true =>
        rw [if_pos rfl] at h
        obtain ⟨a, b, d⟩ := ih h (b1 (by simp [Signalled]))
        exact ⟨a, fun ho hs => b ho (d1 ⟨_, rfl⟩ hs), fun ho hd hr => d ho hd (recent_step hp hd h1 hr)⟩
      | false =>
        rw [if_neg (by decide)] at h
        unfold Sh.pure at h
        simp only [Prod.mk.injEq] at h
        rw [← h.2, ← h.1]
        exact ⟨a1, by simp, by simp⟩
    · obtain ⟨a1, _, _⟩ := safe_monitorStep g hord hp s _ s' h1 hi
      have hnr : o ≠ .running := by
        rintro rfl
        have := ends_monitorStep c w s
        rw [h1] at this
        cases o1 <;> first | exact hst | exact this rfl
      exact ⟨a1, fun ho => absurd ho hnr, fun ho => absurd ho hnr⟩

theorem monitor_service (g : Given k t w) (hord : ∀ l, (c.order l).Perm l) (hp : c.plat = .darwin) (n : Nat) {s s' : St} {o : Out Unit}
    (h : monitor c n w s = (o, s')) (hi : Inv k t s) :
    Weak k t s' ∧ (o = .running → Ours c k t s → Ours c k t s') ∧ (o = .running → c.opts.dns ≠ [] → Recent s.hist → Recent s'.hist) := by
  unfold monitor at h
  rw [if_neg (by rw [hp]; decide), pure_bind, setTrap_bind] at h
  have q0 : Hush s { s with trap := .daemon } := hush_same rfl rfl rfl
  have q1 : Hush { s with trap := .daemon } (push { s with trap := .daemon } (act [b!"route", b!"-n", b!"monitor", b!"&"]) (w s.hist (act [b!"route", b!"-n", b!"monitor", b!"&"]))) :=
    by exact hush_act (by simp) _ _
  have q := preHush.trans q0 q1
  rcases bind_inv h with ⟨r, s1, h1, h⟩ | ⟨o1, h1, hst⟩
  swap
  · obtain ⟨rfl, ho⟩ := call_any h1
    have hnr : o ≠ .running := by
      rintro rfl
      rcases ho with rfl | ho
      · exact hst
      · cases o1 <;> first | exact hst | exact ho
    exact ⟨hi.weak.hush q, fun ho => absurd ho hnr, fun ho => absurd ho hnr⟩
  obtain ⟨rfl, _⟩ := call_any h1
  have i1 := hi.hush q
  have rr : Recent s.hist → Recent (push { s with trap := .daemon } (act [b!"route", b!"-n", b!"monitor", b!"&"]) (w s.hist (act [b!"route", b!"-n", b!"monitor", b!"&"]))).hist := by
    intro hr
    exact hr.more (b := [_]) fun e he hm => noRead_act _ _ (by rw [List.mem_singleton.1 he] at hm; exact hm.1)
  rcases bind_inv h with ⟨_, s2, h2, h⟩ | ⟨o1, h2, hst⟩
  · obtain ⟨a, _, _⟩ := loop_service g hord hp n h2 i1
    have qr : Hush s2 s' := rel_of (rel_run (fun s r => by exact hush_act (by simp) s r)) h
    have hnr : o ≠ .running := by
      rintro rfl
      rw [run_eq] at h
      simp only [Prod.mk.injEq] at h
      have := h.1
      split at this
      · cases this
      · split at this <;> cases this
    exact ⟨a.hush qr, fun ho => absurd ho hnr, fun ho => absurd ho hnr⟩
  · obtain ⟨a, b, d⟩ := loop_service g hord hp n h2 i1
    have hor : o = .running → o1 = .running := by
      rintro rfl
      cases o1 <;> first | exact hst.elim | rfl
    exact ⟨a, fun ho hs => b (hor ho) (hs.hush q), fun ho hd hr => d (hor ho) hd (rr hr)⟩

/-! ### The end -/

theorem restore_loop (hw : KeepsSetting k t w) (hs : PlainValues t.servers) (hd : PlainValues t.domains) (dns search : List (CStr × CStr))
    (h1 : lookup dns k = enc t.servers) (xs : List CStr) {s s' : St} {o : Out Unit}
    (h2 : lookup search k = enc t.domains ∨ (lookup search k = [] ∧ (settingAfter k t s.hist).domains = t.domains))
    (hcalm : ∀ h q, (w h q).sig = false)
    (h : forEach (fun x => (run false (setDnsCmd x (wordsAux [] (lookup dns x)))).bind fun _ => run false (setSearchCmd x (wordsAux [] (lookup search x)))) xs w s = (o, s')) :
    o = .ok () ∧ SameSvc (k := k) s s' ∧ s'.trap = s.trap ∧ (k ∉ xs → settingAfter k t s'.hist = settingAfter k t s.hist) ∧
      (k ∈ xs ∨ settingAfter k t s.hist = t → settingAfter k t s'.hist = t) := by
  induction xs generalizing s with
  | nil =>
    unfold forEach Sh.pure at h
    simp only [Prod.mk.injEq] at h
    rw [← h.2]
    exact ⟨h.1.symm, sameSvc_refl s, rfl, fun _ => rfl, fun hx => hx.resolve_left (by simp)⟩
  | cons x xs ih =>
    have e1 : run false (setDnsCmd x (wordsAux [] (lookup dns x))) w s = (.ok (), push s (setDnsCmd x (wordsAux [] (lookup dns x))) (w s.hist (setDnsCmd x (wordsAux [] (lookup dns x))))) := by
      rw [run_eq, if_neg (by rw [hcalm]; decide), if_neg (by simp)]
    generalize hs1 : push s (setDnsCmd x (wordsAux [] (lookup dns x))) (w s.hist (setDnsCmd x (wordsAux [] (lookup dns x)))) = s1 at e1
    have e2 : run false (setSearchCmd x (wordsAux [] (lookup search x))) w s1 = (.ok (), push s1 (setSearchCmd x (wordsAux [] (lookup search x))) (w s1.hist (setSearchCmd x (wordsAux [] (lookup search x))))) := by
      rw [run_eq, if_neg (by rw [hcalm]; decide), if_neg (by simp)]
    unfold forEach at h
    rw [bind_of_ok (by rw [bind_of_ok e1]; exact e2)] at h
    have same : SameSvc (k := k) s (push s1 (setSearchCmd x (wordsAux [] (lookup search x))) (w s1.hist (setSearchCmd x (wordsAux [] (lookup search x))))) := by
      refine SameSvc.trans ?_ (sameSvc_act s1 _ _ _)
      rw [← hs1]; exact sameSvc_act s _ _ _
    generalize hs2 : push s1 (setSearchCmd x (wordsAux [] (lookup search x))) (w s1.hist (setSearchCmd x (wordsAux [] (lookup search x)))) = s2 at h same
    have htrap : s2.trap = s.trap := by rw [← hs2, ← hs1]; rfl
    have hset1 : settingAfter k t s1.hist = settingStep k (settingAfter k t s.hist) (setDnsCmd x (wordsAux [] (lookup dns x)), w s.hist (setDnsCmd x (wordsAux [] (lookup dns x)))) := by rw [← hs1, push_setting]
    have hset2 : settingAfter k t s2.hist = settingStep k (settingAfter k t s1.hist) (setSearchCmd x (wordsAux [] (lookup search x)), w s1.hist (setSearchCmd x (wordsAux [] (lookup search x)))) := by rw [← hs2, push_setting]
    by_cases hx : x = k
    · subst hx
      have p1 := wordsAux_enc hs
      have ok1 : (w s.hist (setDnsCmd x (wordsAux [] (lookup dns x)))).status = 0 := by
        rw [h1]
        generalize wordsAux [] (enc t.servers) = vs at p1
        cases vs with
        | nil => exact absurd rfl p1.1
        | cons v vs => exact hw.obeysDns _ _ _
      rw [step_dns_self (by rw [h1]; exact p1.1) ok1, h1, p1.2] at hset1
      have hset : settingAfter x t s2.hist = t := by
        rcases h2 with h2 | ⟨h2, h3⟩
        · have p2 := wordsAux_enc hd
          have ok2 : (w s1.hist (setSearchCmd x (wordsAux [] (lookup search x)))).status = 0 := by
            rw [h2]
            generalize wordsAux [] (enc t.domains) = vs at p2
            cases vs with
            | nil => exact absurd rfl p2.1
            | cons v vs => exact hw.obeysSearch _ _ _
          rw [hset2, step_search_self (by rw [h2]; exact p2.1) ok2, hset1, h2, p2.2]
        · rw [hset2, h2]
          have : wordsAux [] ([] : CStr) = [] := rfl
          rw [this, step_search_none, hset1, h3]
      obtain ⟨a, b, tr, _, e⟩ := ih (h2.imp id fun h => ⟨h.1, by rw [hset]⟩) h
      exact ⟨a, same.trans b, tr.trans htrap, fun hn => absurd (List.mem_cons_self ..) hn, fun _ => e (.inr hset)⟩
    · rw [step_dns hx] at hset1
      rw [step_search hx, hset1] at hset2
      obtain ⟨a, b, tr, d, e⟩ := ih (h2.imp id fun h => ⟨h.1, by rw [hset2]; exact h.2⟩) h
      refine ⟨a, same.trans b, tr.trans htrap, fun hn => (d fun hm => hn (List.mem_cons_of_mem _ hm)).trans hset2, fun hm => e ?_⟩
      rcases hm with hm | hm
      · exact .inl ((List.mem_cons.1 hm).resolve_left (fun e => hx e.symm))
      · exact .inr (hset2.trans hm)

/-- A program that always succeeds when there are no signals. -/
def Oks (w : World) (m : Sh Unit) : Prop := ∀ s, (m w s).1 = .ok ()

theorem oks_forEach {γ : Type} {g : γ → Sh Unit} (hg : ∀ x, Oks w (g x)) (xs : List γ) : Oks w (forEach g xs) := by
  induction xs with
  | nil => exact fun s => rfl
  | cons x xs ih =>
    intro s
    have h1 := hg x s
    rcases e : g x w s with ⟨o, s1⟩
    rw [e] at h1
    obtain rfl : o = .ok () := h1
    unfold forEach
    rw [bind_of_ok e]
    exact ih s1

theorem oks_delRoutes (hcalm : ∀ h q, (w h q).sig = false) : Oks w (delRoutes c) := by
  have hrun : ∀ q, Oks w (run false q) := by
    intro q s
    rw [run_eq, if_neg (by rw [hcalm]; decide), if_neg (by simp)]
  have hcall : ∀ q s, call q w s = (.ok (w s.hist q), push s q (w s.hist q)) := by
    intro q s
    rw [call_eq, if_neg (by rw [hcalm]; decide)]
  have hb : ∀ {α : Type} (m : Sh α) (g : α → Sh Unit) s a s1, m w s = (.ok a, s1) → (g a w s1).1 = .ok () → ((m.bind g) w s).1 = .ok () := by
    intro α m g s a s1 h1 h2
    rw [bind_of_ok h1]; exact h2
  have hb' : ∀ (m : Sh Unit) (g : Unit → Sh Unit) s, Oks w m → (∀ s, (g () w s).1 = .ok ()) → ((m.bind g) w s).1 = .ok () := by
    intro m g s h1 h2
    have h1 := h1 s
    rcases e : m w s with ⟨o, s1⟩
    rw [e] at h1
    obtain rfl : o = .ok () := h1
    rw [bind_of_ok e]
    exact h2 s1
  intro s
  unfold delRoutes
  rw [get_bind]
  by_cases h0 : c.plat ≠ .freebsd ∧ s.real = []
  · rw [if_pos h0]; rfl
  · rw [if_neg h0]
    refine hb _ _ _ _ _ (hcall _ _) (hb' _ _ _ (oks_forEach (fun d => hrun _) _) fun s2 => hb _ _ _ _ _ (hcall _ _) (hb' _ _ _ (oks_forEach (fun d => hrun _) _) fun s3 => ?_))
    exact oks_forEach (fun d => hrun _) _ _

theorem keeps_calm (h : KeepsSetting k t w) : KeepsSetting k t (calm w) := ⟨h.servers, h.domains, h.obeysDns, h.obeysSearch, h.stays⟩

/-- The commands of the monitor's trap restore the settings. -/
theorem daemonTrap_service (g : Given k t w) (hord : ∀ l, (c.order l).Perm l) (hp : c.plat = .darwin) {s : St} (hi : Weak k t s) {o : Out Unit} {s' : St}
    (h : trapBody c .daemon (calm w) s = (o, s')) : o = .ok () ∧ Weak k t s' ∧ settingAfter k t s'.hist = t ∧ s'.trap = s.trap := by
  change ((delRoutes c).bind fun _ => (if c.plat = .darwin then delDns c else Sh.pure ()).bind fun _ => cleanIf c) (calm w) s = (o, s') at h
  have hok := oks_delRoutes (c := c) (w := calm w) (fun _ _ => rfl) s
  rcases e : delRoutes c (calm w) s with ⟨o1, s1⟩
  rw [e] at hok
  obtain rfl : o1 = .ok () := hok
  have q1 : Hush s s1 := rel_of (hush_delRoutes c) e
  have t1 : s1.trap = s.trap := by
    have : Rel Trapped (delRoutes c) := by
      unfold delRoutes
      refine rel_bind preTrapped (rel_get preTrapped) fun s => rel_ite (fun _ => rel_pure preTrapped _) fun _ => ?_
      exact rel_bind preTrapped (trapped_call _) fun _ => rel_bind preTrapped (rel_forEach preTrapped (fun _ => trapped_run _ _) _) fun _ =>
        rel_bind preTrapped (trapped_call _) fun _ => rel_bind preTrapped (rel_forEach preTrapped (fun _ => trapped_run _ _) _) fun _ => rel_forEach preTrapped (fun _ => trapped_run _ _) _
    exact rel_of this e
  rw [bind_of_ok e, if_pos hp] at h
  have i1 := hi.hush q1
  rcases e2 : delDns c (calm w) s1 with ⟨o2, s2⟩
  have e2' := e2
  unfold delDns at e2
  rw [get_bind] at e2
  have key : o2 = .ok () ∧ SameSvc (k := k) s1 s2 ∧ s2.trap = s1.trap ∧ settingAfter k t s2.hist = t := by
    have hkeys : k ∈ c.order (s1.svcDns.map (·.1)) ↔ lookup s1.svcDns k ≠ [] := by rw [(hord _).mem_iff, tidy_keys i1.tidy]
    rcases i1.known with ⟨a, b⟩ | ⟨a, b⟩
    · have hno : k ∉ c.order (s1.svcDns.map (·.1)) := fun hm => hkeys.1 hm a
      generalize c.order (s1.svcDns.map (·.1)) = xs at e2 hno
      clear hkeys e2'
      have : ∀ (xs : List CStr) (u u' : St) (o : Out Unit), k ∉ xs →
          forEach (fun x => (run false (setDnsCmd x (wordsAux [] (lookup s1.svcDns x)))).bind fun _ => run false (setSearchCmd x (wordsAux [] (lookup s1.svcSearch x)))) xs (calm w) u = (o, u') →
          o = .ok () ∧ SameSvc (k := k) u u' ∧ u'.trap = u.trap ∧ settingAfter k t u'.hist = settingAfter k t u.hist := by
        intro xs
        induction xs with
        | nil =>
          intro u u' o _ h
          unfold forEach Sh.pure at h
          simp only [Prod.mk.injEq] at h
          rw [← h.2]
          exact ⟨h.1.symm, sameSvc_refl u, rfl, rfl⟩
        | cons x xs ih =>
          intro u u' o hn h
          have hx : x ≠ k := fun e => hn (by rw [e]; exact List.mem_cons_self ..)
          have f1 : ∀ (q : Call) (u : St), run false q (calm w) u = (.ok (), push u q (calm w u.hist q)) := by
            intro q u
            rw [run_eq, if_neg (by simp [calm]), if_neg (by simp)]
          unfold forEach at h
          rw [bind_of_ok (by rw [bind_of_ok (f1 _ _)]; exact f1 _ _)] at h
          obtain ⟨a, b, tr, d⟩ := ih _ _ _ (fun hm => hn (List.mem_cons_of_mem _ hm)) h
          refine ⟨a, SameSvc.trans (SameSvc.trans (sameSvc_act u _ _ _) (sameSvc_act _ _ _ _)) b, tr, d.trans ?_⟩
          rw [push_setting, step_search hx, push_setting, step_dns hx]
      obtain ⟨x1, x2, x3, x4⟩ := this xs s1 s2 o2 hno e2
      exact ⟨x1, x2, x3, x4.trans b⟩
    · have hm : k ∈ c.order (s1.svcDns.map (·.1)) := hkeys.2 (by rw [a]; exact enc_ne g.servers)
      obtain ⟨x1, x2, x3, _, x5⟩ := restore_loop (keeps_calm g.keeps) g.servers g.domains s1.svcDns s1.svcSearch a _ b (fun _ _ => rfl) e2
      exact ⟨x1, x2, x3, x5 (.inl hm)⟩
  obtain ⟨rfl, k2, k3, k4⟩ := key
  rw [bind_of_ok e2'] at h
  unfold cleanIf at h
  rw [if_neg (by rw [hp]; decide)] at h
  unfold Sh.pure at h
  simp only [Prod.mk.injEq] at h
  rw [← h.2, ← h.1]
  refine ⟨rfl, ⟨by rw [k2.dns]; exact i1.tidy, ?_⟩, k4, k3.trans t1⟩
  rw [k2.dns, k2.search, k4]
  rcases i1.known with ⟨a, _⟩ | ⟨a, b⟩
  · exact .inl ⟨a, rfl⟩
  · exact .inr ⟨a, b.imp id fun h => ⟨h.1, rfl⟩⟩

theorem daemonExit_service (g : Given k t w) (hord : ∀ l, (c.order l).Perm l) (hp : c.plat = .darwin) {s : St} (ht : s.trap = .daemon) (hi : Weak k t s) (n : Nat) {e : End} {s' : St}
    (h : exitTrap (trapBody c) trapStatus n w s = (e, s')) : settingAfter k t s'.hist = t := by
  unfold exitTrap at h
  rw [ht] at h
  dsimp only at h
  rcases h2 : trapBody c .daemon (calm w) s with ⟨o, s2⟩
  rw [h2] at h
  obtain ⟨_, _, h3, _⟩ := daemonTrap_service g hord hp hi h2
  cases o <;> (simp only [Prod.mk.injEq] at h; rw [← h.2]; exact h3)

/-! ### In terms of the history -/

theorem right_of_ours {s : St} (h : Ours c k t s) (hr : Recent s.hist) : ServiceRight c k t s.hist := by
  obtain ⟨a, r, b, e, hb⟩ := hr
  refine ⟨a, r, b, e, hb, fun hl => h ⟨r, ?_, hl⟩⟩
  rw [e]
  simp

theorem hush_setTrap (x : Trap) : Rel Hush (setTrap x) := rel_modify fun _ => hush_same rfl rfl rfl

theorem hush_up (hp : c.plat = .darwin) (hd : c.opts.dns = []) : Rel Hush (commands c (cmdUp c)) := by
  unfold commands cmdUp
  rw [if_neg (by rw [hp]; decide)]
  refine rel_bind preHush (rel_pure preHush _) fun _ => rel_bind preHush (hush_setTrap _) fun _ => rel_bind preHush ?_ fun b => rel_ite (fun _ => rel_exit preHush _) fun _ =>
    rel_bind preHush (hush_setTrap _) fun _ => rel_bind preHush ?_ fun _ => hush_setTrap _
  · unfold upCheck; rw [hp]; exact hush_realDarwin c false
  · unfold upBody
    refine rel_bind preHush (hush_addIf hp) fun _ => rel_bind preHush (hush_hooks c _) fun _ => rel_bind preHush (hush_setConfig c) fun _ =>
      rel_bind preHush (rel_forEach preHush (hush_addAddr hp) _) fun _ => rel_bind preHush (hush_setMtu hp) fun _ => rel_bind preHush hush_upIf fun _ =>
      rel_bind preHush (hush_upDnsEarly hp) fun _ => rel_bind preHush (rel_get preHush) fun s =>
      rel_bind preHush (rel_call (fun s r => by exact hush_query (by simp) s r)) fun r => rel_bind preHush (rel_forEach preHush (hush_addRoute hp) _) fun _ =>
      rel_bind preHush (hush_directIfAuto c) fun _ => rel_bind preHush ?_ fun _ =>
      rel_bind preHush (rel_run (fun s r => by exact hush_act (by simp) s r)) fun _ => hush_hooks c _
    unfold upDnsLate
    rw [hp]
    dsimp only
    rw [if_pos hd]
    exact rel_pure preHush _

theorem hush_step (hp : c.plat = .darwin) (hd : c.opts.dns = []) : Rel Hush (monitorStep c) := by
  unfold monitorStep
  refine rel_bind preHush ?_ fun _ => rel_bind preHush (rel_call (fun s r => by exact hush_query (by simp) s r)) fun r => rel_ite (fun _ => rel_pure preHush _) fun _ =>
    rel_ite (fun _ => ?_) fun _ => rel_pure preHush _
  · unfold monitorAlarm
    rw [hp]
    dsimp only
    rw [if_pos hd]
    exact rel_pure preHush _
  · refine rel_bind preHush (rel_get preHush) fun s => rel_bind preHush (rel_call (fun s r => by exact hush_query (by simp) s r)) fun i => ?_
    refine rel_ite (fun _ => rel_pure preHush _) fun _ => rel_bind preHush (hush_directIfAuto c) fun _ => rel_bind preHush ?_ fun _ => rel_pure preHush _
    unfold monitorDarwin
    rw [hp]
    dsimp only
    rw [if_pos hd]
    exact rel_bind preHush (rel_ite (fun _ => hush_setMtu hp) fun _ => rel_pure preHush _) fun _ => rel_pure preHush _

theorem hush_monitor (hp : c.plat = .darwin) (hd : c.opts.dns = []) (n : Nat) : Rel Hush (monitor c n) := by
  unfold monitor
  rw [if_neg (by rw [hp]; decide)]
  refine rel_bind preHush (rel_pure preHush _) fun _ => rel_bind preHush (hush_setTrap _) fun _ => rel_bind preHush (rel_call (fun s r => by exact hush_act (by simp) s r)) fun _ =>
    rel_bind preHush ?_ fun _ => rel_run (fun s r => by exact hush_act (by simp) s r)
  induction n with
  | zero => exact fun w s => preHush.refl s
  | succ n ih =>
    unfold monitorLoop
    exact rel_bind preHush (hush_step hp hd) fun b => rel_ite (fun _ => ih) fun _ => rel_pure preHush _

end WG.Bsd
