import Verif.Proof.BsdDns
/-! A successful `up` on the BSDs. -/
namespace WG.Bsd
open WG.Quick (Call Reply Ev World Out calm chomp readLoopLines afterFirst hasInfix isDig mtuIn wordsAux suffixes isDig_eq hasInfix_iff chomp_eq
  mtuIn_iff mtuIn_none endedLines_iff blankWords endpointHost minus80 routesIn resolvText stripText)
open WG.Spec WG.Spec.Quick WG.Spec.Bsd

theorem famOf_flag (h : CStr) : famOf h = famFlag h := by
  unfold famOf famFlag
  by_cases hv : c!":" ∈ h
  · rw [if_pos hv, if_pos ((isV6_iff _).2 hv)]
  · rw [if_neg hv, if_neg (fun h => hv ((isV6_iff _).1 h))]

/-- What the loop over the allowed IPs needs of the state. -/
structure Ready (c : Cfg) (real : CStr) (s : St) : Prop where
  real : s.real = real
  ends : s.endpoints = []
  first : c.plat = .openbsd → s.first4 = pick false [] c.opts.addresses ∧ s.first6 = pick true [] c.opts.addresses
  tidy : s.svcDns = [] ∧ s.svcSearch = []

theorem Ready.plus {c : Cfg} {real : CStr} {s : St} (h : Ready c real s) (l : List Ev) : Ready c real (plus s l) := ⟨h.real, h.ends, h.first, h.tidy⟩

theorem viaIf_spec {c : Cfg} {real : CStr} {s : St} (h : Ready c real s) (r : CStr) (hn : c.plat = .openbsd → (if isV6 r then s.first6 else s.first4) ≠ []) :
    ViaIf c real r (viaIf c s r) := by
  unfold ViaIf viaIf
  by_cases hp : c.plat = .openbsd
  · rw [if_pos hp, if_pos hp]
    obtain ⟨h4, h6⟩ := h.first hp
    have e : (if isV6 r then s.first6 else s.first4) = pick (isV6 r) [] c.opts.addresses := by
      cases hv : isV6 r
      · rw [if_neg (by simp), h4]
      · rw [if_pos rfl, h6]
    rw [e]
    exact ⟨_, pick_first (by rw [← e]; exact hn hp), rfl⟩
  · rw [if_neg hp, if_neg hp, h.real]

theorem addHalves_ok {c : Cfg} {r real : CStr} {w : World} {s s' : St} {u : Unit} (hr : Ready c real s) (h : addHalves c r w s = (.ok u, s')) :
    ∃ l, s'.hist = s.hist ++ l ∧ Ready c real s' ∧ HalvesDone r (viaIf c s r) l := by
  unfold addHalves at h
  rw [get_bind] at h
  unfold HalvesDone
  by_cases hv : isV6 r = true
  · rw [if_pos hv, modify_bind] at h
    obtain ⟨_, s1, h1, h⟩ := bind_ok h
    obtain ⟨e1, d1, rfl⟩ := run_did h1
    obtain ⟨e2, d2, rfl⟩ := run_did h
    refine ⟨[e1, e2], by unfold plus; simp, ⟨hr.real, hr.ends, hr.first, hr.tidy⟩, e1, e2, rfl, ?_⟩
    rw [if_pos ((isV6_iff r).1 hv)]
    exact ⟨d1, d2⟩
  · rw [if_neg hv, modify_bind] at h
    obtain ⟨_, s1, h1, h⟩ := bind_ok h
    obtain ⟨e1, d1, rfl⟩ := run_did h1
    obtain ⟨e2, d2, rfl⟩ := run_did h
    refine ⟨[e1, e2], by unfold plus; simp, ⟨hr.real, hr.ends, hr.first, hr.tidy⟩, e1, e2, rfl, ?_⟩
    rw [if_neg (fun h => hv ((isV6_iff r).2 h))]
    exact ⟨d1, d2⟩

theorem addNet_ok {c : Cfg} {r real : CStr} {w : World} {s s' : St} {u : Unit} (hr : Ready c real s) (h : addNet c r w s = (.ok u, s')) :
    ∃ l, s'.hist = s.hist ++ l ∧ Ready c real s' ∧ NetDone real r (viaIf c s r) l := by
  unfold addNet at h
  obtain ⟨q, s1, h1, h⟩ := bind_ok h
  obtain rfl := call_plus h1
  rw [get_bind, plus_real, hr.real] at h
  unfold NetDone
  rw [← famOf_flag]
  by_cases ht : throughIf real (chomp q.out) = true
  · rw [if_pos ht] at h
    obtain ⟨_, rfl⟩ := pure_inv h
    refine ⟨_, rfl, hr.plus _, q, [], rfl, .inl rfl, fun h1 h2 => ⟨fun _ => ?_, fun _ => rfl⟩⟩
    rw [← chomp_eq]
    exact (throughIf_iff _ _ h1 h2).1 ht
  · rw [if_neg ht] at h
    obtain ⟨e, he, rfl⟩ := run_did h
    rw [plus_plus]
    refine ⟨_, rfl, hr.plus _, q, [e], rfl, .inr ⟨e, he, rfl⟩, fun h1 h2 => ⟨fun h => by simp at h, fun h => ?_⟩⟩
    rw [← chomp_eq] at h
    exact absurd ((throughIf_iff _ _ h1 h2).2 h) ht

theorem addRoute_ok {c : Cfg} {r real : CStr} {w : World} {s s' : St} {u : Unit} (hr : Ready c real s) (h : addRoute c r w s = (.ok u, s')) :
    ∃ l, s'.hist = s.hist ++ l ∧ Ready c real s' ∧ RouteDone c real r l := by
  unfold addRoute at h
  unfold RouteDone
  by_cases hoff : c.opts.table = b!"off"
  · rw [if_pos hoff] at h
    simp only [if_pos hoff]
    obtain ⟨_, rfl⟩ := pure_inv h
    exact ⟨[], by simp, hr, rfl⟩
  rw [if_neg hoff, get_bind] at h
  simp only [if_neg hoff]
  have auto (hvia : ViaIf c real r (viaIf c s r)) (ha : autoTable c) (h : (if isDefault r = true then addHalves c r else addNet c r) w s = (.ok u, s')) :
      ∃ l, s'.hist = s.hist ++ l ∧ Ready c real s' ∧ ∃ via, ViaIf c real r via ∧
        if c.opts.table = [] ∨ c.opts.table = b!"auto" then (if b!"/0" <:+ r then HalvesDone r via l else NetDone real r via l)
        else match c.plat with
        | .freebsd => ∃ e, Did (cmd ([b!"route", b!"-q", b!"-n", b!"add", famFlag r, b!"-fib", c.opts.table, r] ++ via)) e ∧ l = [e]
        | .openbsd => ∃ e, Did (cmd ([b!"route", b!"-q", b!"-n", b!"-T", c.opts.table, b!"add", famFlag r, r] ++ via)) e ∧ l = [e]
        | .darwin => c.opts.table = b!"main" ∧ NetDone real r via l := by
    unfold autoTable at ha
    simp only [if_pos ha]
    by_cases hd : isDefault r = true
    · rw [if_pos hd] at h
      obtain ⟨l, h1, h2, h3⟩ := addHalves_ok hr h
      exact ⟨l, h1, h2, _, hvia, by rw [if_pos (List.isSuffixOf_iff_suffix.1 hd)]; exact h3⟩
    · rw [if_neg hd] at h
      obtain ⟨l, h1, h2, h3⟩ := addNet_ok hr h
      exact ⟨l, h1, h2, _, hvia, by rw [if_neg (fun h => hd (List.isSuffixOf_iff_suffix.2 h))]; exact h3⟩
  cases hp : c.plat with
  | freebsd =>
    rw [hp] at h
    dsimp only at h
    have hvia := viaIf_spec hr r (by rw [hp]; simp)
    by_cases ha : autoTable c
    · rw [if_neg (by simpa using ha)] at h
      have := auto hvia ha h
      rw [hp] at this
      exact this
    · rw [if_pos ha] at h
      obtain ⟨e, he, rfl⟩ := run_did h
      unfold autoTable at ha
      refine ⟨[e], rfl, hr.plus _, _, hvia, ?_⟩
      rw [if_neg ha]
      refine ⟨e, ?_, rfl⟩
      rw [← famOf_flag]
      have : viaIf c s r = [b!"-interface", s.real] := by unfold viaIf; rw [if_neg (by rw [hp]; simp)]
      rw [this]
      exact he
  | openbsd =>
    rw [hp] at h
    dsimp only at h
    by_cases hn : (if isV6 r then s.first6 else s.first4) = []
    · rw [if_pos hn] at h; exact (exitWith_ok h).elim
    rw [if_neg hn] at h
    have hvia := viaIf_spec hr r (fun _ => hn)
    by_cases ha : autoTable c
    · rw [if_neg (by simpa using ha)] at h
      have := auto hvia ha h
      rw [hp] at this
      exact this
    · rw [if_pos ha] at h
      obtain ⟨e, he, rfl⟩ := run_did h
      unfold autoTable at ha
      refine ⟨[e], rfl, hr.plus _, _, hvia, ?_⟩
      rw [if_neg ha]
      refine ⟨e, ?_, rfl⟩
      rw [← famOf_flag]
      exact he
  | darwin =>
    rw [hp] at h
    dsimp only at h
    have hvia := viaIf_spec hr r (by rw [hp]; simp)
    by_cases ha : autoTable c
    · have := auto hvia ha (by
        by_cases hd : isDefault r = true
        · rw [if_pos hd]; rw [if_pos ⟨hd, ha⟩] at h; exact h
        · rw [if_neg hd]; rw [if_neg (fun h => hd h.1), if_pos (.inr ha)] at h; exact h)
      rw [hp] at this
      exact this
    · rw [if_neg (fun h => ha h.2)] at h
      by_cases hm : c.opts.table = b!"main"
      · rw [if_pos (.inl hm)] at h
        obtain ⟨l, h1, h2, h3⟩ := addNet_ok hr h
        unfold autoTable at ha
        exact ⟨l, h1, h2, _, hvia, by rw [if_neg ha]; exact ⟨hm, h3⟩⟩
      · rw [if_neg (fun h => h.elim hm ha)] at h
        exact (exitWith_ok h).elim

theorem addRoutes_ok {c : Cfg} {real : CStr} (rs : List CStr) {w : World} {s s' : St} {u : Unit} (hr : Ready c real s) (h : forEach (addRoute c) rs w s = (.ok u, s')) :
    Ready c real s' ∧ ∃ ls, List.Forall₂ (RouteDone c real) rs ls ∧ s'.hist = s.hist ++ ls.flatten :=
  forEach_all (P := RouteDone c real) (I := Ready c real) (fun x w s s' u hi h => by
    obtain ⟨l, h1, h2, h3⟩ := addRoute_ok hi h
    exact ⟨h2, l, h1, h3⟩) rs hr h

/-! ### Routes to the endpoints -/

/-- A command about the route to one of the hosts. -/
def About (hosts : List CStr) (e : Ev) : Prop := ∃ fam, ∃ d ∈ hosts, e.1 = deleteCmd fam d ∨ ∃ via, e.1 = addCmd fam d via

theorem addMissing_sub (hosts : List CStr) (old : List CStr) (es : List CStr) (h1 : ∀ e ∈ old, e ∈ hosts) (h2 : ∀ e ∈ es, e ∈ hosts) : ∀ e ∈ addMissing old es, e ∈ hosts := by
  induction es generalizing old with
  | nil => exact h1
  | cons x es ih =>
    unfold addMissing
    refine ih _ ?_ fun e he => h2 e (List.mem_cons_of_mem _ he)
    intro e he
    split at he
    · exact h1 e he
    · rcases List.mem_append.1 he with he | he
      · exact h1 e he
      · simp only [List.mem_singleton] at he; subst he; exact h2 e (List.mem_cons_self ..)

theorem dropDirect_ok {all : Bool} {hosts : List CStr} (old : List CStr) (ho : ∀ e ∈ old, e ∈ hosts) {w : World} {s s' : St} {u : Unit}
    (h : forEach (dropDirect all) old w s = (.ok u, s')) : ∃ l, s' = plus s l ∧ ∀ e ∈ l, About hosts e := by
  induction old generalizing s with
  | nil => obtain ⟨_, rfl⟩ := pure_inv h; exact ⟨[], (plus_nil _).symm, by simp⟩
  | cons x old ih =>
    obtain ⟨_, s1, h1, h⟩ := bind_ok h
    have k : ∃ l, s1 = plus s l ∧ ∀ e ∈ l, About hosts e := by
      unfold dropDirect at h1
      rw [get_bind] at h1
      split at h1
      · obtain ⟨_, rfl⟩ := pure_inv h1; exact ⟨[], (plus_nil _).symm, by simp⟩
      · cases hf : directFam s x with
        | none => rw [hf] at h1; obtain ⟨_, rfl⟩ := pure_inv h1; exact ⟨[], (plus_nil _).symm, by simp⟩
        | some fam =>
          rw [hf] at h1
          obtain ⟨r, rfl⟩ := run_any h1
          refine ⟨_, rfl, fun e he => ?_⟩
          simp only [List.mem_singleton] at he
          subst he
          exact ⟨fam, x, ho x (List.mem_cons_self ..), .inl rfl⟩
    obtain ⟨l, rfl, hl⟩ := k
    obtain ⟨l2, rfl, hl2⟩ := ih (fun e he => ho e (List.mem_cons_of_mem _ he)) h
    refine ⟨l ++ l2, plus_plus .., fun e he => ?_⟩
    rcases List.mem_append.1 he with he | he
    · exact hl e he
    · exact hl2 e he

theorem addDirect_ok {all : Bool} {old hosts : List CStr} (es : List CStr) (ho : ∀ e ∈ es, e ∈ hosts) {added added' : List CStr} {w : World} {s s' : St}
    (h : addDirect all old added es w s = (.ok added', s')) : ∃ l, s' = plus s l ∧ ∀ e ∈ l, About hosts e := by
  induction es generalizing s added with
  | nil => obtain ⟨_, rfl⟩ := pure_inv h; exact ⟨[], (plus_nil _).symm, by simp⟩
  | cons x es ih =>
    have ho' : ∀ e ∈ es, e ∈ hosts := fun e he => ho e (List.mem_cons_of_mem _ he)
    unfold addDirect at h
    split at h
    · exact ih ho' h
    · rw [get_bind] at h
      cases hf : directFam s x with
      | none => rw [hf] at h; exact ih ho' h
      | some fam =>
        rw [hf] at h
        obtain ⟨_, s1, h1, h⟩ := bind_ok h
        obtain ⟨r, rfl⟩ := run_any h1
        obtain ⟨l, rfl, hl⟩ := ih ho' h
        refine ⟨_, plus_plus .., fun e he => ?_⟩
        rcases List.mem_append.1 he with he | he
        · simp only [List.mem_singleton] at he
          subst he
          exact ⟨fam, x, ho x (List.mem_cons_self ..), .inr ⟨_, rfl⟩⟩
        · exact hl e he

theorem setDirect_ok {c : Cfg} {real : CStr} {w : World} {s s' : St} {u : Unit} (hr : Ready c real s) (h : setDirect c w s = (.ok u, s')) :
    ∃ r4 r6 re hosts l', HostsShown re.out hosts ∧ (∀ e ∈ l', About hosts e) ∧
      s'.hist = s.hist ++ (netstatOf .v4, r4) :: (netstatOf .v6, r6) :: (endpointsOf real, re) :: l' ∧ s'.real = real ∧ s'.svcDns = [] ∧ s'.svcSearch = [] := by
  unfold setDirect at h
  rw [get_bind] at h
  obtain ⟨_, s1, h1, h⟩ := bind_ok h
  have k1 : ∃ r4 r6, s1.hist = s.hist ++ [(netstatOf .v4, r4), (netstatOf .v6, r6)] ∧ s1.real = s.real ∧ s1.svcDns = s.svcDns ∧ s1.svcSearch = s.svcSearch := by
    unfold collectGateways at h1
    obtain ⟨r4, t1, g1, h1⟩ := bind_ok h1
    have q1 := call_plus g1
    rw [modify_bind] at h1
    obtain ⟨r6, t2, g2, h1⟩ := bind_ok h1
    have q2 := call_plus g2
    have q3 := modify_inv h1
    refine ⟨r4, r6, ?_, by rw [q3, q2, q1]; rfl, by rw [q3, q2, q1]; rfl, by rw [q3, q2, q1]; rfl⟩
    rw [q3, q2, q1]
    simp [plus, netstatOf]
  obtain ⟨r4, r6, e1, f1, d1, b1⟩ := k1
  obtain ⟨_, s2, h2, h⟩ := bind_ok h
  have k2 : ∃ re, s2.hist = s1.hist ++ [(endpointsOf s1.real, re)] ∧ s2.real = s1.real ∧ s2.svcDns = s1.svcDns ∧ s2.svcSearch = s1.svcSearch ∧ s2.endpoints = hostsIn re.out := by
    unfold collectEndpoints at h2
    rw [get_bind, modify_bind] at h2
    obtain ⟨re, t3, g3, h2⟩ := bind_ok h2
    have q1 := call_plus g3
    have q2 := modify_inv h2
    refine ⟨re, by rw [q2, q1]; rfl, by rw [q2, q1]; rfl, by rw [q2, q1]; rfl, by rw [q2, q1]; rfl, by rw [q2]⟩
  obtain ⟨re, e2, f2, d2, b2, n2⟩ := k2
  rw [get_bind] at h
  rw [n2, hr.ends] at h
  obtain ⟨_, s3, h3, h⟩ := bind_ok h
  obtain ⟨l1, q3, hl1⟩ := dropDirect_ok (hosts := hostsIn re.out) _ (by
    split
    · exact addMissing_sub _ _ _ (by simp) (fun e he => he)
    · simp) h3
  obtain ⟨_, s4, h4, h⟩ := bind_ok h
  obtain ⟨l2, q4, hl2⟩ := addDirect_ok (hosts := hostsIn re.out) _ (fun e he => he) h4
  have q5 := modify_inv h
  refine ⟨r4, r6, re, _, l1 ++ l2, hostsShown re.out, fun e he => ?_, ?_, ?_, ?_, ?_⟩
  · rcases List.mem_append.1 he with he | he
    · exact hl1 e he
    · exact hl2 e he
  · rw [q5]
    show s4.hist = _
    rw [q4, plus_hist, q3, plus_hist, e2, e1, f1, hr.real]
    simp
  · rw [q5, q4, q3]; show s2.real = _; rw [f2, f1, hr.real]
  · rw [q5, q4, q3]; show s2.svcDns = _; rw [d2, d1, hr.tidy.1]
  · rw [q5, q4, q3]; show s2.svcSearch = _; rw [b2, b1, hr.tidy.2]

/-! ### The whole -/

/-- The part of the state that no step before the routes changes. -/
def core (s : St) : Trap × CStr × Bool × Bool × List CStr × List (CStr × CStr) × List (CStr × CStr) :=
  (s.trap, s.tmp, s.auto4, s.auto6, s.endpoints, s.svcDns, s.svcSearch)

theorem upBody_ok {c : Cfg} {w : World} (hsort : ∀ l, (c.sort l).Perm l) (hord : ∀ l, (c.order l).Perm l) {u : Unit} {s0 s : St}
    (hreal : c.plat = .freebsd → s0.real = c.iface) (hf : s0.first4 = [] ∧ s0.first6 = []) (ha : s0.auto4 = false ∧ s0.auto6 = false)
    (he : s0.endpoints = []) (hd : s0.svcDns = [] ∧ s0.svcSearch = []) (h : upBody c w s0 = (.ok u, s)) :
    ∃ ladd lpre conf laddrs lmtu up ldns q routes lroutes ldirect llate mon lpost,
    s.hist = s0.hist ++ (ladd ++ (lpre ++ conf :: (laddrs ++ (lmtu ++ up :: (ldns ++ (allowedOf s.real, q) :: (lroutes ++ (ldirect ++ (llate ++ mon :: lpost)))))))) ∧
    AddStep c s.real ladd ∧ HooksDone c s.real c.opts.preUp lpre ∧ ConfStep c s.real conf ∧
    List.Forall₂ (AddrStep c s.real) c.opts.addresses laddrs ∧ MtuSet c s.real lmtu ∧ Did (cmd [b!"ifconfig", s.real, b!"up"]) up ∧ DnsSet c s.real ldns ∧
    RoutesShown q.out routes ∧ (∃ ls, List.Forall₂ (RouteDone c s.real) (c.sort routes) ls ∧ lroutes = ls.flatten) ∧ DirectDone c s.real q.out ldirect ∧
    DnsLate c llate ∧ Did (cmd [b!"monitor_daemon", b!"&"]) mon ∧ HooksDone c s.real c.opts.postUp lpost := by
  unfold upBody at h
  obtain ⟨_, t3, g3, h⟩ := bind_ok h
  obtain ⟨ladd, real, hadd, q3⟩ := addIf_ok hreal g3
  have r3 : t3.real = real := by rw [q3]
  have e3 : t3.hist = s0.hist ++ ladd := by rw [q3]; rfl
  have c3 : core t3 = core s0 := by rw [q3]; rfl
  have f3 : t3.first4 = [] ∧ t3.first6 = [] := by rw [q3]; exact hf
  clear q3
  obtain ⟨_, t4, g4, h⟩ := bind_ok h
  obtain ⟨lpre, hpre, q4⟩ := hooks_ok g4
  obtain ⟨_, t5, g5, h⟩ := bind_ok h
  obtain ⟨conf, hconf, q5⟩ := setConfig_ok g5
  have r4 : t4.real = real := by rw [q4]; exact r3
  have r5 : t5.real = real := by rw [q5]; exact r4
  have e5 : t5.hist = s0.hist ++ (ladd ++ (lpre ++ [conf])) := by rw [q5, plus_hist, q4, plus_hist, e3]; simp
  have c5 : core t5 = core s0 := by rw [q5, q4]; exact c3
  have f5 : t5.first4 = [] ∧ t5.first6 = [] := by rw [q5, q4]; exact f3
  rw [r3] at hpre
  rw [r4] at hconf
  clear q4 q5
  obtain ⟨_, t6, g6, h⟩ := bind_ok h
  obtain ⟨laddrs, f4, f6, haddrs, q6, hfirst⟩ := addrs_ok _ g6
  rw [f5.1, f5.2] at hfirst
  rw [r5] at haddrs
  have r6 : t6.real = real := by rw [q6]; exact r5
  have e6 : t6.hist = s0.hist ++ (ladd ++ (lpre ++ conf :: laddrs)) := by rw [q6]; show t5.hist ++ _ = _; rw [e5]; simp
  have c6 : core t6 = core s0 := by rw [q6]; exact c5
  have f6' : t6.first4 = f4 ∧ t6.first6 = f6 := by rw [q6]; exact ⟨rfl, rfl⟩
  clear q6
  obtain ⟨_, t7, g7, h⟩ := bind_ok h
  obtain ⟨lmtu, hmtu, q7⟩ := setMtu_ok g7
  rw [r6] at hmtu
  have r7 : t7.real = real := by rw [q7]; exact r6
  obtain ⟨_, t8, g8, h⟩ := bind_ok h
  unfold upIf at g8
  rw [get_bind, r7] at g8
  obtain ⟨up, hup, q8⟩ := run_did g8
  have r8 : t8.real = real := by rw [q8]; exact r7
  obtain ⟨_, t9, g9, h⟩ := bind_ok h
  obtain ⟨ldns, hb', hdns, q9⟩ := upDnsEarly_ok g9
  rw [r8] at hdns
  have r9 : t9.real = real := by rw [q9]; exact r8
  have e9 : t9.hist = s0.hist ++ (ladd ++ (lpre ++ conf :: (laddrs ++ (lmtu ++ up :: ldns)))) := by
    rw [q9]; show t8.hist ++ _ = _; rw [q8, plus_hist, q7, plus_hist, e6]; simp
  have c9 : core t9 = core s0 := by rw [q9, q8, q7]; exact c6
  have f9 : t9.first4 = f4 ∧ t9.first6 = f6 := by rw [q9, q8, q7]; exact f6'
  clear q7 q8 q9
  rw [get_bind, r9] at h
  obtain ⟨q, t10, g10, h⟩ := bind_ok h
  have q10 := call_plus g10
  have e10 : t10.hist = s0.hist ++ (ladd ++ (lpre ++ conf :: (laddrs ++ (lmtu ++ up :: (ldns ++ [(allowedOf real, q)]))))) := by
    rw [q10, plus_hist, e9]; simp [allowedOf]
  have c10 : core t10 = core s0 := by rw [q10]; exact c9
  have r10 : t10.real = real := by rw [q10]; exact r9
  have f10 : t10.first4 = f4 ∧ t10.first6 = f6 := by rw [q10]; exact f9
  clear q10
  simp only [core, Prod.mk.injEq] at c10
  obtain ⟨_, _, ca4, ca6, cep, cd, cs⟩ := c10
  obtain ⟨_, t11, g11, h⟩ := bind_ok h
  have hready : Ready c real t10 := ⟨r10, cep.trans he, fun hp => by rw [f10.1, f10.2]; exact hfirst hp, cd.trans hd.1, cs.trans hd.2⟩
  obtain ⟨hready2, ls, hls, e11⟩ := addRoutes_ok _ hready g11
  obtain ⟨a4, a6⟩ := addRoutes_auto g11
  rw [ca4, ha.1, Bool.false_or] at a4
  rw [ca6, ha.2, Bool.false_or] at a6
  have w4 : t11.auto4 = true ↔ DefaultWanted c .v4 q.out := by
    rw [defaultWanted_iff hsort, a4]; simp [has_v4]
  have w6 : t11.auto6 = true ↔ DefaultWanted c .v6 q.out := by
    rw [defaultWanted_iff hsort, a6]; simp [has_v6]
  obtain ⟨_, t12, g12, h⟩ := bind_ok h
  have kd : ∃ l, DirectDone c real q.out l ∧ t12.hist = t11.hist ++ l ∧ t12.real = real ∧ t12.svcDns = [] ∧ t12.svcSearch = [] := by
    unfold directIfAuto at g12
    rw [get_bind] at g12
    unfold DirectDone
    rw [← w4, ← w6]
    by_cases hauto : t11.auto4 = true ∨ t11.auto6 = true
    · rw [if_pos hauto] at g12
      obtain ⟨r4, r6, re, hosts, l', q1, q2, q3, q4, q5, q6⟩ := setDirect_ok hready2 g12
      exact ⟨_, .inl ⟨hauto, r4, r6, re, hosts, l', q1, rfl, q2⟩, q3, q4, q5, q6⟩
    · rw [if_neg hauto] at g12
      obtain ⟨_, rfl⟩ := pure_inv g12
      exact ⟨[], .inr ⟨hauto, rfl⟩, by simp, hready2.real, hready2.tidy.1, hready2.tidy.2⟩
  obtain ⟨ldirect, hdirect, e12, r12, m1, m2⟩ := kd
  obtain ⟨_, t13, g13, h⟩ := bind_ok h
  have kl : ∃ l, DnsLate c l ∧ t13.hist = t12.hist ++ l ∧ t13.real = real := by
    unfold upDnsLate at g13
    unfold DnsLate
    by_cases hp : c.plat = .darwin
    · rw [hp] at g13
      dsimp only at g13
      by_cases hd : c.opts.dns = []
      · rw [if_pos hd] at g13
        obtain ⟨_, rfl⟩ := pure_inv g13
        exact ⟨[], by rw [if_neg (fun h => h.2 hd)], by simp, r12⟩
      · rw [if_neg hd] at g13
        obtain ⟨l, o, _, ch⟩ := setDnsDarwin_ok hord (by rw [m1]; exact tidy_nil) g13
        refine ⟨l, ?_, ?_, ?_⟩
        · rw [if_pos ⟨hp, hd⟩]
          have : t12.memory = ⟨fun _ => [], fun _ => []⟩ := by unfold St.memory; rw [m1, m2]; rfl
          rw [this] at ch
          exact ⟨_, ch⟩
        · rw [o]; rfl
        · rw [o]; exact r12
    · have : t13 = t12 := by
        cases hq : c.plat <;> rw [hq] at g13 hp
        · exact (pure_inv g13).2
        · exact (pure_inv g13).2
        · exact absurd rfl hp
      subst this
      exact ⟨[], by rw [if_neg (fun h => hp h.1)], by simp, r12⟩
  obtain ⟨llate, hlate, e13, r13⟩ := kl
  obtain ⟨_, t14, g14, h⟩ := bind_ok h
  obtain ⟨mon, hmon, q14⟩ := run_did g14
  have r14 : t14.real = real := by rw [q14]; exact r13
  obtain ⟨lpost, hpost, q15⟩ := hooks_ok h
  rw [r14] at hpost
  have r15 : s.real = real := by rw [q15]; exact r14
  rw [r15]
  refine ⟨ladd, lpre, conf, laddrs, lmtu, up, ldns, q, routesIn q.out, ls.flatten, ldirect, llate, mon, lpost, ?_, hadd, hpre, hconf, haddrs, hmtu, hup, hdns,
    WG.Quick.routesShown q.out, ⟨ls, hls, rfl⟩, hdirect, hlate, hmon, hpost⟩
  rw [q15, plus_hist, q14, plus_hist, e13, e12, e11, e10]
  simp

theorem commands_temp {c : Cfg} {op : Sh Unit} {w : World} {u : Unit} {s : St} (h : commands c op w (St.start c) = (.ok u, s)) :
    ∃ dir l, TempStep c dir l ∧ op w { plus (St.start c) l with tmp := dir, trap := restTrap c } = (.ok u, s) := by
  unfold commands at h
  obtain ⟨_, t1, g1, h⟩ := bind_ok h
  have k1 : ∃ dir l, TempStep c dir l ∧ t1 = { plus (St.start c) l with tmp := dir } := by
    unfold TempStep
    by_cases hp : c.plat = .freebsd
    · rw [if_pos hp] at g1
      obtain ⟨r, t, h1, rfl⟩ := makeTemp_ok g1
      exact ⟨chomp r.out, _, by rw [if_pos hp]; exact ⟨r, t, chomp_eq _, h1, rfl⟩, rfl⟩
    · rw [if_neg hp] at g1
      obtain ⟨_, rfl⟩ := pure_inv g1
      exact ⟨[], [], by rw [if_neg hp], by rw [plus_nil]; rfl⟩
  obtain ⟨dir, l, h1, rfl⟩ := k1
  exact ⟨dir, l, h1, h⟩

theorem up_done {c : Cfg} {w : World} (hsort : ∀ l, (c.sort l).Perm l) (hord : ∀ l, (c.order l).Perm l) {u : Unit} {s : St}
    (h : commands c (cmdUp c) w (St.start c) = (.ok u, s)) : ∃ dir, UpDone c dir s.real s.hist := by
  obtain ⟨dir, ltemp, htemp, h⟩ := commands_temp h
  unfold cmdUp at h
  obtain ⟨b, t2, g2, h⟩ := bind_ok h
  obtain ⟨lcheck, _, hb⟩ := upCheck_ok g2
  cases b with
  | true => rw [if_pos rfl] at h; exact (exitWith_ok h).elim
  | false =>
    obtain ⟨hcheck, q2⟩ := hb rfl
    rw [if_neg (by simp)] at h
    obtain ⟨_, t3, g3, h⟩ := bind_ok h
    have q3 := modify_inv g3
    obtain ⟨_, t4, g4, h⟩ := bind_ok h
    have q4 := modify_inv h
    have e3 : t3.hist = ltemp ++ lcheck := by rw [q3, q2]; rfl
    obtain ⟨ladd, lpre, conf, laddrs, lmtu, up, ldns, q, routes, lroutes, ldirect, llate, mon, lpost, e4, p⟩ := upBody_ok hsort hord (s0 := t3)
      (by intro hp; rw [q3, q2]; show (St.start c).real = c.iface; unfold St.start; rw [if_pos hp])
      (by rw [q3, q2]; exact ⟨rfl, rfl⟩) (by rw [q3, q2]; exact ⟨rfl, rfl⟩) (by rw [q3, q2]; rfl) (by rw [q3, q2]; exact ⟨rfl, rfl⟩) g4
    have e5 : s.hist = t4.hist := by rw [q4]
    have e6 : s.real = t4.real := by rw [q4]
    refine ⟨dir, ltemp, lcheck, ladd, lpre, conf, laddrs, lmtu, up, ldns, q, routes, lroutes, ldirect, llate, mon, lpost, ?_, htemp, hcheck, ?_⟩
    · rw [e5, e4, e3, e6]; simp
    · rw [e6]; exact p

end WG.Bsd
