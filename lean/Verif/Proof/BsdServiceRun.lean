import Verif.Proof.BsdService
/-! The DNS settings of one service on macOS: `up`, the monitor and its end. -/
namespace WG.Bsd
open WG.Quick (Call Reply Ev World Out calm chomp readLoopLines wordsAux endedLines_iff blankWords words_unique endpointHost afterFirst routesIn chomp_eq)
open WG.Spec WG.Spec.Quick WG.Spec.Bsd

variable {α β : Type} {k : CStr} {t : Setting} {c : Cfg} {w : World}

/-! ### Commands that do not concern the services -/

macro "hush" : tactic => `(tactic| repeat' first
  | exact rel_pure preHush _ | exact rel_exit preHush _ | exact rel_get preHush | exact rel_giveUp preHush
  | exact rel_modify fun s => hush_same rfl rfl rfl
  | exact rel_call (fun s r => by exact hush_query (by simp) s r)
  | exact rel_call (fun s r => by exact hush_act (by simp) s r)
  | exact rel_run (fun s r => by exact hush_query (by simp) s r)
  | exact rel_run (fun s r => by exact hush_act (by simp) s r)
  | exact rel_run (fun s r => by exact hush_push (apart_hook _) s r)
  | refine rel_bind preHush ?_ fun _ => ?_
  | refine rel_forEach preHush (fun _ => ?_) _
  | refine rel_ite (fun _ => ?_) fun _ => ?_)

theorem hush_realDarwin (c : Cfg) (e : Bool) : Rel Hush (realDarwin c e) := by unfold realDarwin; hush
theorem hush_addIf (hp : c.plat = .darwin) : Rel Hush (addIf c) := by
  unfold addIf
  rw [hp]
  refine rel_bind preHush (by hush) fun _ => rel_bind preHush (by hush) fun _ => rel_bind preHush (hush_realDarwin c true) fun _ => by hush
theorem hush_hooks (c : Cfg) (hooks : List CStr) : Rel Hush (executeHooks c hooks) := by unfold executeHooks; hush
theorem hush_setConfig (c : Cfg) : Rel Hush (setConfig c) := by unfold setConfig; hush
theorem hush_addAddr (hp : c.plat = .darwin) (a : CStr) : Rel Hush (addAddr c a) := by
  unfold addAddr
  refine rel_bind preHush (by hush) fun s => ?_
  rw [hp]
  dsimp only
  hush
theorem hush_setMtu (hp : c.plat = .darwin) : Rel Hush (setMtu c) := by
  unfold setMtu
  refine rel_bind preHush (by hush) fun s => rel_ite (fun _ => ?_) fun _ => ?_
  · exact rel_run (fun s r => by exact hush_act (by simp) s r)
  · rw [if_pos hp]
    unfold autoMtuDarwin mtuAct
    hush
theorem hush_upIf : Rel Hush upIf := by unfold upIf; hush
theorem hush_addHalves (c : Cfg) (r : CStr) : Rel Hush (addHalves c r) := by unfold addHalves routeAdd; hush
theorem hush_addNet (c : Cfg) (r : CStr) : Rel Hush (addNet c r) := by unfold addNet routeAdd; hush
theorem hush_addRoute (hp : c.plat = .darwin) (r : CStr) : Rel Hush (addRoute c r) := by
  unfold addRoute
  refine rel_ite (fun _ => by hush) fun _ => rel_bind preHush (by hush) fun s => ?_
  rw [hp]
  exact rel_ite (fun _ => hush_addHalves c r) fun _ => rel_ite (fun _ => hush_addNet c r) fun _ => by hush
theorem hush_dropDirect (all : Bool) (e : CStr) : Rel Hush (dropDirect all e) := by
  unfold dropDirect
  refine rel_bind preHush (by hush) fun s => rel_ite (fun _ => by hush) fun _ => ?_
  split
  · unfold routeDelete; hush
  · hush
theorem hush_addDirect (all : Bool) (old added es : List CStr) : Rel Hush (addDirect all old added es) := by
  induction es generalizing added with
  | nil => unfold addDirect; hush
  | cons e es ih =>
    unfold addDirect
    refine rel_ite (fun _ => ih _) fun _ => rel_bind preHush (by hush) fun s => ?_
    split
    · unfold routeAdd; exact rel_bind preHush (by hush) fun _ => ih _
    · exact ih _
theorem hush_setDirect (c : Cfg) : Rel Hush (setDirect c) := by
  unfold setDirect
  refine rel_bind preHush (by hush) fun _ => rel_bind preHush (by unfold collectGateways; hush) fun _ => rel_bind preHush (by unfold collectEndpoints; hush) fun _ =>
    rel_bind preHush (by hush) fun s => ?_
  dsimp only
  exact rel_bind preHush (rel_forEach preHush (hush_dropDirect _) _) fun _ => rel_bind preHush (hush_addDirect _ _ _ _) fun _ => by hush
theorem hush_directIfAuto (c : Cfg) : Rel Hush (directIfAuto c) := by
  unfold directIfAuto
  exact rel_bind preHush (by hush) fun s => rel_ite (fun _ => hush_setDirect c) fun _ => by hush
theorem hush_delRoutes (c : Cfg) : Rel Hush (delRoutes c) := by unfold delRoutes routeDelete; hush
theorem hush_upDnsEarly (hp : c.plat = .darwin) : Rel Hush (upDnsEarly c) := by unfold upDnsEarly; rw [hp]; hush

/-! ### Remembering -/

theorem call_any {q : Call} {w : World} {s s' : St} {o : Out Reply} (h : call q w s = (o, s')) :
    s' = push s q (w s.hist q) ∧ ((o = .ok (w s.hist q)) ∨ Signalled o) := by
  rw [call_eq] at h
  simp only [Prod.mk.injEq] at h
  obtain ⟨h1, h2⟩ := h
  refine ⟨h2.symm, ?_⟩
  by_cases hs : (w s.hist q).sig = true
  · rw [if_pos hs] at h1; rw [← h1]; exact .inr trivial
  · rw [if_neg hs] at h1; exact .inl h1.symm

/-- All names are asked for except that of the service itself. -/
theorem hush_ask (s : St) (q : List CStr) (h : q ≠ [b!"networksetup", b!"-listallnetworkservices"]) : Hush s (push s (.query q) (w s.hist (.query q))) := hush_query h s _

theorem Inv.assignDns {s : St} (h : Inv k t s) {x v : CStr} (hx : x ≠ k) (hv : v ≠ []) : Inv k t { s with svcDns := assign s.svcDns x v } := by
  refine ⟨tidy_assign h.tidy x hv, ?_⟩
  show (lookup (assign s.svcDns x v) k = [] ∧ _) ∨ (lookup (assign s.svcDns x v) k = _ ∧ _)
  rw [lookup_assign, if_neg (fun e => hx e.symm)]
  exact h.known

theorem Inv.assignSearch {s : St} (h : Inv k t s) {x v : CStr} (hx : x ≠ k) : Inv k t { s with svcSearch := assign s.svcSearch x v } := by
  refine ⟨h.tidy, ?_⟩
  show (lookup s.svcDns k = [] ∧ lookup (assign s.svcSearch x v) k = [] ∧ _) ∨ (_ ∧ lookup (assign s.svcSearch x v) k = _ ∧ _)
  rw [lookup_assign, if_neg (fun e => hx e.symm)]
  exact h.known

/-- Asking another service. -/
theorem collect_other {x : CStr} (hx : x ≠ k) {s s' : St} {o : Out Unit} (h : collectService x w s = (o, s')) (hi : Inv k t s) :
    Inv k t s' ∧ lookup s'.svcDns k = lookup s.svcDns k ∧ ∃ b, s'.hist = s.hist ++ b ∧ ∀ e ∈ b, Apart e.1 := by
  have hrel : ∀ (s : St) (q : List CStr) r, q ≠ [b!"networksetup", b!"-listallnetworkservices"] → Hush s (push s (.query q) r) := fun s q r h => hush_query h s r
  unfold collectService at h
  by_cases h0 : x = []
  · rw [if_pos h0] at h
    unfold exitWith at h
    simp only [Prod.mk.injEq] at h
    rw [← h.2]
    exact ⟨hi, rfl, [], by simp, by simp⟩
  rw [if_neg h0, get_bind] at h
  by_cases h1 : lookup s.svcDns x ≠ []
  · rw [if_pos h1] at h
    unfold Sh.pure at h
    simp only [Prod.mk.injEq] at h
    rw [← h.2]
    exact ⟨hi, rfl, [], by simp, by simp⟩
  rw [if_neg h1] at h
  rcases bind_inv h with ⟨r1, s1, h2, h⟩ | ⟨o1, h2, _⟩
  swap
  · obtain ⟨rfl, _⟩ := call_any h2
    have q := hrel s [b!"networksetup", b!"-getdnsservers", x] (w s.hist (.query [b!"networksetup", b!"-getdnsservers", x])) (by simp)
    exact ⟨hi.hush q, rfl, q.2.2⟩
  obtain ⟨rfl, _⟩ := call_any h2
  have q1 := hrel s [b!"networksetup", b!"-getdnsservers", x] (w s.hist (.query [b!"networksetup", b!"-getdnsservers", x])) (by simp)
  have i1 := hi.hush q1
  by_cases e1 : r1.status ≠ 0
  · rw [if_pos e1] at h
    unfold exitWith at h
    simp only [Prod.mk.injEq] at h
    rw [← h.2]
    exact ⟨i1, rfl, q1.2.2⟩
  rw [if_neg e1] at h
  generalize hs1 : push s (.query [b!"networksetup", b!"-getdnsservers", x]) (w s.hist (.query [b!"networksetup", b!"-getdnsservers", x])) = s1 at h q1 i1
  rcases bind_inv h with ⟨_, s2, h3, h⟩ | ⟨o1, h3, _⟩
  swap
  · exfalso
    rename_i hst
    by_cases ha : svcAnswer r1.out = []
    · rw [if_pos ha] at h3; unfold Sh.pure at h3; simp only [Prod.mk.injEq] at h3; rw [← h3.1] at hst; cases o <;> exact hst
    · rw [if_neg ha] at h3; unfold modify at h3; simp only [Prod.mk.injEq] at h3; rw [← h3.1] at hst; cases o <;> exact hst
  have k2 : Inv k t s2 ∧ lookup s2.svcDns k = lookup s.svcDns k ∧ s2.hist = s1.hist := by
    by_cases ha : svcAnswer r1.out = []
    · rw [if_pos ha] at h3
      obtain ⟨_, rfl⟩ := pure_inv h3
      exact ⟨i1, by rw [← hs1]; rfl, rfl⟩
    · rw [if_neg ha] at h3
      obtain rfl := modify_inv h3
      refine ⟨i1.assignDns hx ha, ?_, rfl⟩
      show lookup (assign s1.svcDns x _) k = _
      rw [lookup_assign, if_neg (fun e => hx e.symm), ← hs1]
      rfl
  obtain ⟨i2, l2, hh2⟩ := k2
  have q2 := hrel s2 [b!"networksetup", b!"-getsearchdomains", x] (w s2.hist (.query [b!"networksetup", b!"-getsearchdomains", x])) (by simp)
  have grow : ∀ s3 : St, (∃ b, s3.hist = s2.hist ++ b ∧ ∀ e ∈ b, Apart e.1) → ∃ b, s3.hist = s.hist ++ b ∧ ∀ e ∈ b, Apart e.1 := by
    rintro s3 ⟨b, hb, hb'⟩
    obtain ⟨b1, hb1, hb1'⟩ := q1.2.2
    refine ⟨b1 ++ b, by rw [hb, hh2, hb1, List.append_assoc], fun e he => ?_⟩
    rcases List.mem_append.1 he with he | he
    · exact hb1' e he
    · exact hb' e he
  rcases bind_inv h with ⟨r2, s3, h4, h⟩ | ⟨o1, h4, _⟩
  swap
  · obtain ⟨rfl, _⟩ := call_any h4
    exact ⟨i2.hush q2, l2, grow _ q2.2.2⟩
  obtain ⟨rfl, _⟩ := call_any h4
  by_cases e2 : r2.status ≠ 0
  · rw [if_pos e2] at h
    unfold exitWith at h
    simp only [Prod.mk.injEq] at h
    rw [← h.2]
    exact ⟨i2.hush q2, l2, grow _ q2.2.2⟩
  rw [if_neg e2] at h
  by_cases ha : svcAnswer r2.out = []
  · rw [if_pos ha] at h
    unfold Sh.pure at h
    simp only [Prod.mk.injEq] at h
    rw [← h.2]
    exact ⟨i2.hush q2, l2, grow _ q2.2.2⟩
  · rw [if_neg ha] at h
    unfold modify at h
    simp only [Prod.mk.injEq] at h
    rw [← h.2]
    exact ⟨(i2.hush q2).assignSearch hx, l2, grow _ q2.2.2⟩

/-- Asking the service itself. -/
theorem collect_self (hk : k ≠ []) (hw : KeepsSetting k t w) (hs : PlainValues t.servers) (hd : PlainValues t.domains) {s s' : St} {o : Out Unit}
    (h : collectService k w s = (o, s')) (hi : Inv k t s) (hl : SeenListed k s.hist) :
    Weak k t s' ∧ (¬ Signalled o → Inv k t s' ∧ lookup s'.svcDns k ≠ []) ∧ (∃ b, s'.hist = s.hist ++ b ∧ ∀ e ∈ b, Apart e.1) ∧ (∀ n, o ≠ .exit n) ∧ o ≠ .running := by
  unfold collectService at h
  rw [if_neg hk, get_bind] at h
  by_cases h1 : lookup s.svcDns k ≠ []
  · rw [if_pos h1] at h
    unfold Sh.pure at h
    simp only [Prod.mk.injEq] at h
    rw [← h.2, ← h.1]
    exact ⟨hi.weak, fun _ => ⟨hi, h1⟩, ⟨[], by simp, by simp⟩, by simp, by simp⟩
  rw [if_neg h1] at h
  have h1' : lookup s.svcDns k = [] := not_not.1 h1
  have hset : lookup s.svcSearch k = [] ∧ settingAfter k t s.hist = t := by
    rcases hi.known with ⟨_, a, b⟩ | ⟨a, _⟩
    · exact ⟨a, b⟩
    · rw [h1'] at a; exact absurd a.symm (enc_ne hs)
  have q1 : Hush s (push s (dnsQuery k) (w s.hist (dnsQuery k))) := hush_push (apart_query (by simp)) s _
  have a1 := hw.servers s.hist (by rw [hset.2]; exact hs)
  rw [hset.2] at a1
  rcases bind_inv h with ⟨r1, s1, h2, h⟩ | ⟨o1, h2, hst⟩
  swap
  · obtain ⟨rfl, ho⟩ := call_any h2
    have hsig : Signalled o := by
      rcases ho with rfl | ho
      · cases o <;> exact hst.elim
      · exact signalled_of hst ho
    refine ⟨hi.weak.hush q1, fun hn => absurd hsig hn, q1.2.2, ?_, ?_⟩
    · rintro n rfl; exact hsig
    · rintro rfl; exact hsig
  obtain ⟨rfl, ho⟩ := call_any h2
  obtain rfl : r1 = w s.hist (dnsQuery k) := by
    rcases ho with ho | ho
    · exact (WG.Quick.Out.ok.inj ho)
    · exact ho.elim
  have e1 : ¬ (w s.hist (dnsQuery k)).status ≠ 0 := not_not.2 a1.1
  have ans1 := tells_enc hs a1.2
  have h : ((if svcAnswer (w s.hist (dnsQuery k)).out = [] then Sh.pure () else modify fun u => { u with svcDns := assign u.svcDns k (svcAnswer (w s.hist (dnsQuery k)).out) }).bind fun _ =>
      (call (searchQuery k)).bind fun r => if r.status ≠ 0 then exitWith r.status
      else if svcAnswer r.out = [] then Sh.pure () else modify fun s => { s with svcSearch := assign s.svcSearch k (svcAnswer r.out) }) w (push s (dnsQuery k) (w s.hist (dnsQuery k))) = (o, s') := by
    have := h
    rw [if_neg e1] at this
    exact this
  rw [ans1, if_neg (enc_ne hs), modify_bind] at h
  generalize hs1 : push s (dnsQuery k) (w s.hist (dnsQuery k)) = s1 at h q1
  have hist1 : settingAfter k t s1.hist = t := (hush_setting q1).trans hset.2
  have ht : Tidy (assign s1.svcDns k (enc t.servers)) := tidy_assign (by rw [q1.1]; exact hi.tidy) k (enc_ne hs)
  have hl1 : lookup (assign s1.svcDns k (enc t.servers)) k = enc t.servers := by rw [lookup_assign, if_pos rfl]
  have hl2 : lookup s1.svcSearch k = [] := by rw [q1.2.1]; exact hset.1
  generalize hs2 : ({ s1 with svcDns := assign s1.svcDns k (enc t.servers) } : St) = s2 at h
  have f1 : s2.svcDns = assign s1.svcDns k (enc t.servers) := by rw [← hs2]
  have f2 : s2.svcSearch = s1.svcSearch := by rw [← hs2]
  have f3 : s2.hist = s1.hist := by rw [← hs2]
  have q2 : Hush s2 (push s2 (searchQuery k) (w s2.hist (searchQuery k))) := hush_push (apart_query (by simp)) s2 _
  have grow : ∃ b, (push s2 (searchQuery k) (w s2.hist (searchQuery k))).hist = s.hist ++ b ∧ ∀ e ∈ b, Apart e.1 := by
    obtain ⟨b, hb, hb'⟩ := q2.2.2
    obtain ⟨b1, hb1, hb1'⟩ := q1.2.2
    refine ⟨b1 ++ b, by rw [hb, f3, hb1, List.append_assoc], fun e he => ?_⟩
    rcases List.mem_append.1 he with he | he
    · exact hb1' e he
    · exact hb' e he
  have a2 := hw.domains s2.hist (by rw [f3, hist1]; exact hd)
  rw [f3, hist1, ← f3] at a2
  rcases bind_inv h with ⟨r2, s3, h4, h⟩ | ⟨o1, h4, hst⟩
  swap
  · obtain ⟨rfl, ho⟩ := call_any h4
    have hsig : Signalled o := by
      rcases ho with rfl | ho
      · cases o <;> exact hst.elim
      · exact signalled_of hst ho
    refine ⟨?_, fun hn => absurd hsig hn, grow, ?_, ?_⟩
    · refine Weak.hush ⟨by rw [f1]; exact ht, .inr ⟨by rw [f1]; exact hl1, .inr ⟨by rw [f2]; exact hl2, by rw [f3, hist1]⟩⟩⟩ q2
    · rintro n rfl; exact hsig
    · rintro rfl; exact hsig
  obtain ⟨rfl, ho⟩ := call_any h4
  obtain rfl : r2 = w s2.hist (searchQuery k) := by
    rcases ho with ho | ho
    · simpa using ho
    · exact ho.elim
  have ans2 := tells_enc hd a2.2
  rw [if_neg (not_not.2 a2.1), ans2, if_neg (enc_ne hd)] at h
  unfold modify at h
  simp only [Prod.mk.injEq] at h
  have hInv : Inv k t s' := by
    rw [← h.2]
    refine ⟨(by show Tidy s2.svcDns; rw [f1]; exact ht), .inr ⟨?_, ?_, ?_⟩⟩
    · show lookup s2.svcDns k = _
      rw [f1]; exact hl1
    · show lookup (assign _ k _) k = _
      rw [lookup_assign, if_pos rfl]
    · show SeenListed k (push s2 (searchQuery k) _).hist
      rw [hush_seen q2, f3, hush_seen q1]
      exact hl
  refine ⟨hInv.weak, fun _ => ⟨hInv, ?_⟩, ?_, ?_, ?_⟩
  · rw [← h.2]
    show lookup s2.svcDns k ≠ []
    rw [f1, hl1]
    exact enc_ne hs
  · rw [← h.2]; exact grow
  · rw [← h.1]; simp
  · rw [← h.1]; simp

/-- The service and the initial settings. -/
structure Given (k : CStr) (t : Setting) (w : World) : Prop where
  name : k ≠ []
  keeps : KeepsSetting k t w
  servers : PlainValues t.servers
  domains : PlainValues t.domains

theorem collect_loop (g : Given k t w) (xs : List CStr) {s s' : St} {o : Out Unit} (h : forEach collectService xs w s = (o, s')) (hi : Inv k t s)
    (hl : k ∈ xs → SeenListed k s.hist) :
    Weak k t s' ∧ (¬ Signalled o → Inv k t s') ∧ ((∃ u, o = .ok u) → k ∈ xs ∨ lookup s.svcDns k ≠ [] → lookup s'.svcDns k ≠ []) ∧
      ∃ b, s'.hist = s.hist ++ b ∧ ∀ e ∈ b, Apart e.1 := by
  induction xs generalizing s with
  | nil =>
    unfold forEach Sh.pure at h
    simp only [Prod.mk.injEq] at h
    rw [← h.2]
    exact ⟨hi.weak, fun _ => hi, fun _ hx => hx.resolve_left (by simp), [], by simp, by simp⟩
  | cons x xs ih =>
    have grow : ∀ {s1 s2 : St}, (∃ b, s1.hist = s.hist ++ b ∧ ∀ e ∈ b, Apart e.1) → (∃ b, s2.hist = s1.hist ++ b ∧ ∀ e ∈ b, Apart e.1) →
        ∃ b, s2.hist = s.hist ++ b ∧ ∀ e ∈ b, Apart e.1 := by
      rintro s1 s2 ⟨a, ha, ha'⟩ ⟨b, hb, hb'⟩
      refine ⟨a ++ b, by rw [hb, ha, List.append_assoc], fun e he => ?_⟩
      rcases List.mem_append.1 he with he | he
      · exact ha' e he
      · exact hb' e he
    rcases bind_inv h with ⟨_, s1, h1, h2⟩ | ⟨o1, h1, hst⟩
    · have key : Inv k t s1 ∧ (∃ b, s1.hist = s.hist ++ b ∧ ∀ e ∈ b, Apart e.1) ∧ (x = k ∨ lookup s.svcDns k ≠ [] → lookup s1.svcDns k ≠ []) := by
        by_cases hx : x = k
        · subst hx
          obtain ⟨_, b, d, _⟩ := collect_self g.name g.keeps g.servers g.domains h1 hi (hl (List.mem_cons_self ..))
          have := b (by simp [Signalled])
          exact ⟨this.1, d, fun _ => this.2⟩
        · obtain ⟨a, b, d⟩ := collect_other hx h1 hi
          exact ⟨a, d, fun h => by rw [b]; exact h.resolve_left hx⟩
      obtain ⟨i1, g1, n1⟩ := key
      obtain ⟨a, b, d, e⟩ := ih h2 i1 fun hm => by
        obtain ⟨y, hy, hy'⟩ := g1
        rw [hy, seen_append fun e he => (hy' e he).1]
        exact hl (List.mem_cons_of_mem _ hm)
      refine ⟨a, b, fun ho hx => d ho ?_, grow g1 e⟩
      rcases hx with hx | hx
      · rcases List.mem_cons.1 hx with hx | hx
        · exact .inr (n1 (.inl hx.symm))
        · exact .inl hx
      · exact .inr (n1 (.inr hx))
    · have hno : ¬ ∃ u, o = .ok u := by
        rintro ⟨u, rfl⟩
        cases o1 <;> exact hst
      by_cases hx : x = k
      · subst hx
        obtain ⟨a, b, d, _⟩ := collect_self g.name g.keeps g.servers g.domains h1 hi (hl (List.mem_cons_self ..))
        exact ⟨a, fun hn => (b fun hs => hn (signalled_of hst hs)).1, fun ho => absurd ho hno, d⟩
      · obtain ⟨a, b, d⟩ := collect_other hx h1 hi
        exact ⟨a.weak, fun _ => a, fun ho => absurd ho hno, d⟩

theorem collectServices_inv (g : Given k t w) {s s' : St} {o : Out Unit} (h : collectServices w s = (o, s')) (hi : Inv k t s) :
    Weak k t s' ∧ (¬ Signalled o → Inv k t s') ∧ ((∃ u, o = .ok u) → SeenListed k s'.hist → lookup s'.svcDns k ≠ []) := by
  unfold collectServices at h
  have hset : ∀ r, settingAfter k t (push s listServices r).hist = settingAfter k t s.hist := by
    intro r
    show settingAfter k t (s.hist ++ [(listServices, r)]) = _
    rw [settingAfter_append, settingAfter_other (by simp [listServices])]
  have hpush : ∀ r, Inv k t (push s listServices r) := by
    intro r
    refine ⟨hi.tidy, ?_⟩
    rw [hset]
    rcases hi.known with h | ⟨a, b, q, hq, hl⟩
    · exact .inl h
    · exact .inr ⟨a, b, q, List.mem_append_left _ hq, hl⟩
  rcases bind_inv h with ⟨r, s1, h1, h⟩ | ⟨o1, h1, hst⟩
  swap
  · obtain ⟨rfl, _⟩ := call_any h1
    have i1 := hpush (w s.hist listServices)
    refine ⟨i1.weak, fun _ => i1, ?_⟩
    rintro ⟨u, rfl⟩
    cases o1 <;> exact hst.elim
  obtain ⟨rfl, hr⟩ := call_any h1
  obtain rfl : r = w s.hist listServices := by
    rcases hr with hr | hr
    · exact (WG.Quick.Out.ok.inj hr)
    · exact hr.elim
  have i1 := hpush (w s.hist listServices)
  dsimp only at h
  change ((forEach collectService (((readLoopLines (w s.hist listServices).out).drop 1).map svcName)).bind _) w (push s listServices (w s.hist listServices)) = _ at h
  generalize hfound : ((readLoopLines (w s.hist listServices).out).drop 1).map svcName = found at h
  generalize hs1 : push s listServices (w s.hist listServices) = s1 at h i1
  have hmem : (listServices, w s.hist listServices) ∈ s1.hist := by rw [← hs1]; simp [push]
  have hseen1 : k ∈ found → SeenListed k s1.hist := fun hm => ⟨_, hmem, (svcListed_iff _ _).2 (by rw [hfound]; exact hm)⟩
  have hfnd : SeenListed k s1.hist → k ∈ found := by
    rintro ⟨r, hr, hl⟩
    rw [← hs1] at hr
    have hL : Listed k (w s.hist listServices).out := by
      rcases List.mem_append.1 hr with hr | hr
      · exact g.keeps.stays _ ⟨r, hr, hl⟩
      · simp only [List.mem_singleton, Prod.mk.injEq] at hr
        rw [← hr.2]; exact hl
    rw [svcListed_iff, hfound] at hL
    exact hL
  rcases bind_inv h with ⟨_, s2, h2, h⟩ | ⟨o1, h2, hst⟩
  swap
  · obtain ⟨a, b, _, _⟩ := collect_loop g found h2 i1 hseen1
    refine ⟨a, fun hn => b fun hs => hn (signalled_of hst hs), ?_⟩
    rintro ⟨u, rfl⟩
    cases o1 <;> exact hst.elim
  obtain ⟨_, b, d, b2, hb2, hb2'⟩ := collect_loop g found h2 i1 hseen1
  have i2 := b (by simp [Signalled])
  have hseen2 : SeenListed k s2.hist ↔ SeenListed k s1.hist := by rw [hb2, seen_append fun e he => (hb2' e he).1]
  have hkey : lookup s2.svcDns k ≠ [] → k ∈ found := by
    intro hn
    rcases i2.known with ⟨a, _⟩ | ⟨_, _, hs⟩
    · exact absurd a hn
    · exact hfnd (hseen2.1 hs)
  unfold modify at h
  simp only [Prod.mk.injEq] at h
  have hgone : k ∉ (s2.svcDns.map (·.1)).filter fun y => decide (y ∉ found) := by
    rw [List.mem_filter, tidy_keys i2.tidy]
    rintro ⟨h1, h2⟩
    exact (of_decide_eq_true h2) (hkey h1)
  have hlook : ∀ m : List (CStr × CStr), lookup (m.filter fun p => decide (p.1 ∉ (s2.svcDns.map (·.1)).filter fun y => decide (y ∉ found))) k = lookup m k := by
    intro m
    have := lookup_filter m (fun y => decide (y ∉ (s2.svcDns.map (·.1)).filter fun y => decide (y ∉ found))) k
    rw [this, if_pos (by simpa using hgone)]
  have hInv : Inv k t s' := by
    rw [← h.2]
    refine ⟨tidy_filter i2.tidy _, ?_⟩
    show (lookup (s2.svcDns.filter _) k = [] ∧ lookup (s2.svcSearch.filter _) k = [] ∧ settingAfter k t s2.hist = t) ∨ (lookup (s2.svcDns.filter _) k = _ ∧ lookup (s2.svcSearch.filter _) k = _ ∧ SeenListed k s2.hist)
    rw [hlook, hlook]
    exact i2.known
  refine ⟨hInv.weak, fun _ => hInv, fun _ hs => ?_⟩
  rw [← h.2] at hs ⊢
  show lookup (s2.svcDns.filter _) k ≠ []
  rw [hlook]
  exact d ⟨(), rfl⟩ (.inl (hfnd (hseen2.1 hs)))

/-! ### Setting -/

theorem step_dns {x : CStr} (hx : x ≠ k) (vs : List CStr) (r : Reply) (u : Setting) : settingStep k u (setDnsCmd x vs, r) = u := by
  unfold settingStep setDnsCmd cmd
  split
  · rfl
  · split
    · rename_i p op y v vs' he
      simp only [Call.act.injEq, List.cons_append, List.cons.injEq] at he
      rw [if_neg (fun h => hx (he.1.2.2.1.trans h.2.2)), if_neg (fun h => hx (he.1.2.2.1.trans h.2.2))]
    · rfl

theorem step_search {x : CStr} (hx : x ≠ k) (vs : List CStr) (r : Reply) (u : Setting) : settingStep k u (setSearchCmd x vs, r) = u := by
  unfold settingStep setSearchCmd cmd
  split
  · rfl
  · split
    · rename_i p op y v vs' he
      simp only [Call.act.injEq, List.cons_append, List.cons.injEq] at he
      rw [if_neg (fun h => hx (he.1.2.2.1.trans h.2.2)), if_neg (fun h => hx (he.1.2.2.1.trans h.2.2))]
    · rfl

theorem step_dns_self {vs : List CStr} (hv : vs ≠ []) {r : Reply} (hr : r.status = 0) (u : Setting) : settingStep k u (setDnsCmd k vs, r) = { u with servers := given vs } := by
  cases vs with
  | nil => exact absurd rfl hv
  | cons v vs =>
    unfold settingStep setDnsCmd cmd
    rw [if_neg (by simpa using hr)]
    dsimp only [List.cons_append, List.nil_append]
    rw [if_pos ⟨rfl, rfl, rfl⟩]

theorem step_search_self {vs : List CStr} (hv : vs ≠ []) {r : Reply} (hr : r.status = 0) (u : Setting) : settingStep k u (setSearchCmd k vs, r) = { u with domains := given vs } := by
  cases vs with
  | nil => exact absurd rfl hv
  | cons v vs =>
    unfold settingStep setSearchCmd cmd
    rw [if_neg (by simpa using hr)]
    dsimp only [List.cons_append, List.nil_append]
    rw [if_neg (by simp), if_pos ⟨rfl, rfl, rfl⟩]

theorem step_search_none (r : Reply) (u : Setting) : settingStep k u (setSearchCmd k [], r) = u := by
  unfold settingStep setSearchCmd cmd
  split
  · rfl
  · rfl

/-- The same services are remembered and listed. -/
structure SameSvc (s s' : St) : Prop where
  dns : s'.svcDns = s.svcDns
  search : s'.svcSearch = s.svcSearch
  seen : SeenListed k s'.hist ↔ SeenListed k s.hist

theorem sameSvc_refl (s : St) : SameSvc (k := k) s s := ⟨rfl, rfl, Iff.rfl⟩
theorem SameSvc.trans {a b d : St} (h1 : SameSvc (k := k) a b) (h2 : SameSvc (k := k) b d) : SameSvc (k := k) a d :=
  ⟨h2.dns.trans h1.dns, h2.search.trans h1.search, h2.seen.trans h1.seen⟩
theorem sameSvc_act (s : St) (a : List CStr) (i : List UInt8) (r : Reply) : SameSvc (k := k) s (push s (.act a i) r) := by
  refine ⟨rfl, rfl, ?_⟩
  show SeenListed k (s.hist ++ [_]) ↔ _
  refine seen_append fun e he => ?_
  rw [List.mem_singleton.1 he]
  unfold listServices
  simp

theorem push_setting (s : St) (q : Call) (r : Reply) : settingAfter k t (push s q r).hist = settingStep k (settingAfter k t s.hist) (q, r) := by
  show settingAfter k t (s.hist ++ [(q, r)]) = _
  rw [settingAfter_append]
  rfl

/-- What is done for one service. -/
def setOne (c : Cfg) (x : CStr) : Sh Unit :=
  (call (setDnsCmd x c.opts.dns)).bind fun r =>
  if r.status ≠ 0 then Sh.pure () else run false (setSearchCmd x (if c.opts.dnsSearch = [] then [b!"Empty"] else c.opts.dnsSearch))

theorem run_false_any {q : Call} {w : World} {s s' : St} {o : Out Unit} (h : run false q w s = (o, s')) : s' = push s q (w s.hist q) := by
  rw [run_eq] at h
  simp only [Prod.mk.injEq] at h
  exact h.2.symm

theorem set_other {x : CStr} (hx : x ≠ k) {s s' : St} {o : Out Unit} (h : setOne c x w s = (o, s')) :
    SameSvc (k := k) s s' ∧ settingAfter k t s'.hist = settingAfter k t s.hist := by
  unfold setOne at h
  have p1 : SameSvc (k := k) s (push s (setDnsCmd x c.opts.dns) (w s.hist (setDnsCmd x c.opts.dns))) ∧
      settingAfter k t (push s (setDnsCmd x c.opts.dns) (w s.hist (setDnsCmd x c.opts.dns))).hist = settingAfter k t s.hist :=
    ⟨sameSvc_act s _ _ _, by rw [push_setting, step_dns hx]⟩
  rcases bind_inv h with ⟨r, s1, h1, h⟩ | ⟨o1, h1, hst⟩
  · obtain ⟨rfl, _⟩ := call_any h1
    by_cases hr : r.status ≠ 0
    · rw [if_pos hr] at h
      unfold Sh.pure at h
      simp only [Prod.mk.injEq] at h
      rw [← h.2]; exact p1
    · rw [if_neg hr] at h
      obtain rfl := run_false_any h
      exact ⟨p1.1.trans (sameSvc_act _ _ _ _), by rw [push_setting, step_search hx]; exact p1.2⟩
  · obtain ⟨rfl, _⟩ := call_any h1
    exact p1

theorem set_self (hw : KeepsSetting k t w) (hd : c.opts.dns ≠ []) {s s' : St} {o : Out Unit} (h : setOne c k w s = (o, s')) :
    SameSvc (k := k) s s' ∧ ((∃ u, o = .ok u) → settingAfter k t s'.hist = wantedSetting c.opts) := by
  unfold setOne at h
  have p1 : SameSvc (k := k) s (push s (setDnsCmd k c.opts.dns) (w s.hist (setDnsCmd k c.opts.dns))) := sameSvc_act s _ _ _
  have ok1 : (w s.hist (setDnsCmd k c.opts.dns)).status = 0 := by
    cases he : c.opts.dns with
    | nil => exact absurd he hd
    | cons v vs => exact hw.obeysDns _ _ _
  have e1 : settingAfter k t (push s (setDnsCmd k c.opts.dns) (w s.hist (setDnsCmd k c.opts.dns))).hist = { settingAfter k t s.hist with servers := given c.opts.dns } := by
    rw [push_setting, step_dns_self hd ok1]
  rcases bind_inv h with ⟨r, s1, h1, h⟩ | ⟨o1, h1, hst⟩
  · obtain ⟨rfl, hr⟩ := call_any h1
    obtain rfl : r = w s.hist (setDnsCmd k c.opts.dns) := by
      rcases hr with hr | hr
      · exact (WG.Quick.Out.ok.inj hr)
      · exact hr.elim
    rw [if_neg (not_not.2 ok1)] at h
    have hsd : (if c.opts.dnsSearch = [] then [b!"Empty"] else c.opts.dnsSearch) ≠ [] := by split <;> simp_all
    generalize hS : (if c.opts.dnsSearch = [] then [b!"Empty"] else c.opts.dnsSearch) = S at h hsd
    obtain rfl := run_false_any h
    refine ⟨p1.trans (sameSvc_act _ _ _ _), fun _ => ?_⟩
    rw [push_setting, step_search_self hsd, e1]
    · unfold wantedSetting
      congr 1
      rw [← hS]
      split
      · rename_i he; rw [he]; rfl
      · rfl
    · cases S with
      | nil => exact absurd rfl hsd
      | cons v vs => exact hw.obeysSearch _ _ _
  · obtain ⟨rfl, _⟩ := call_any h1
    refine ⟨p1, ?_⟩
    rintro ⟨u, rfl⟩
    cases o1 <;> exact hst.elim

theorem set_loop (hw : KeepsSetting k t w) (hd : c.opts.dns ≠ []) (xs : List CStr) {s s' : St} {o : Out Unit} (h : forEach (setOne c) xs w s = (o, s')) :
    SameSvc (k := k) s s' ∧ (k ∉ xs → settingAfter k t s'.hist = settingAfter k t s.hist) ∧
      ((∃ u, o = .ok u) → k ∈ xs ∨ settingAfter k t s.hist = wantedSetting c.opts → settingAfter k t s'.hist = wantedSetting c.opts) := by
  induction xs generalizing s with
  | nil =>
    unfold forEach Sh.pure at h
    simp only [Prod.mk.injEq] at h
    rw [← h.2]
    exact ⟨sameSvc_refl s, fun _ => rfl, fun _ hx => hx.resolve_left (by simp)⟩
  | cons x xs ih =>
    rcases bind_inv h with ⟨_, s1, h1, h2⟩ | ⟨o1, h1, hst⟩
    · obtain ⟨a, b, d⟩ := ih h2
      by_cases hx : x = k
      · subst hx
        obtain ⟨a1, b1⟩ := set_self hw hd h1
        exact ⟨a1.trans a, fun hn => absurd (List.mem_cons_self ..) hn, fun ho _ => d ho (.inr (b1 ⟨_, rfl⟩))⟩
      · obtain ⟨a1, b1⟩ := set_other (t := t) hx h1
        refine ⟨a1.trans a, fun hn => (b fun hm => hn (List.mem_cons_of_mem _ hm)).trans b1, fun ho hm => d ho ?_⟩
        rcases hm with hm | hm
        · exact .inl ((List.mem_cons.1 hm).resolve_left (fun e => hx e.symm))
        · exact .inr (b1.trans hm)
    · have hno : ¬ ∃ u, o = .ok u := by
        rintro ⟨u, rfl⟩
        cases o1 <;> exact hst
      by_cases hx : x = k
      · subst hx
        obtain ⟨a1, b1⟩ := set_self hw hd h1
        exact ⟨a1, fun hn => absurd (List.mem_cons_self ..) hn, fun ho => absurd ho hno⟩
      · obtain ⟨a1, b1⟩ := set_other (t := t) hx h1
        exact ⟨a1, fun _ => b1, fun ho => absurd ho hno⟩

theorem setDns_inv (g : Given k t w) (hord : ∀ l, (c.order l).Perm l) (hd : c.opts.dns ≠ []) {s s' : St} {o : Out Unit} (h : setDnsDarwin c w s = (o, s')) (hi : Inv k t s) :
    Weak k t s' ∧ (¬ Signalled o → Inv k t s') ∧ ((∃ u, o = .ok u) → Ours c k t s') := by
  unfold setDnsDarwin at h
  rcases bind_inv h with ⟨_, s1, h1, h⟩ | ⟨o1, h1, hst⟩
  swap
  · obtain ⟨a, b, _⟩ := collectServices_inv g h1 hi
    refine ⟨a, fun hn => b fun hs => hn (signalled_of hst hs), ?_⟩
    rintro ⟨u, rfl⟩
    cases o1 <;> exact hst.elim
  obtain ⟨_, b, d⟩ := collectServices_inv g h1 hi
  have i1 := b (by simp [Signalled])
  rw [get_bind] at h
  obtain ⟨a2, b2, d2⟩ := set_loop (c := c) g.keeps hd _ h
  have hkeys : k ∈ c.order (s1.svcDns.map (·.1)) ↔ lookup s1.svcDns k ≠ [] := by rw [(hord _).mem_iff, tidy_keys i1.tidy]
  have hInv : Inv k t s' := by
    refine ⟨by rw [a2.dns]; exact i1.tidy, ?_⟩
    rw [a2.dns, a2.search, a2.seen]
    rcases i1.known with ⟨x, y, z⟩ | h
    · exact .inl ⟨x, y, (b2 (fun hm => hkeys.1 hm x)).trans z⟩
    · exact .inr h
  refine ⟨hInv.weak, fun _ => hInv, fun ho hs => d2 ho (.inl (hkeys.2 (d ⟨_, rfl⟩ (a2.seen.1 hs))))⟩

theorem safe_setDns (g : Given k t w) (hord : ∀ l, (c.order l).Perm l) (hd : c.opts.dns ≠ []) : Safe c k t w (setDnsDarwin c) := by
  intro s o s' h hi
  obtain ⟨a, b, d⟩ := setDns_inv g hord hd h hi
  exact ⟨a, b, fun ho _ => d ho⟩

end WG.Bsd
