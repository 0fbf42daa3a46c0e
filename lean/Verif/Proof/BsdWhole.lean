import Verif.Proof.BsdUp
/-! `up` as a whole, and what the end of the monitor removes. -/
namespace WG.Bsd
open WG.Quick (Call Reply Ev World Out calm endpointHost_iff routesIn isRoute isRoute_iff readLoopLines afterFirst remainder_sound remainders_sound endedLines_iff
  isIfs isIfs_eq collected_unique collected_filterMap words_unique blankWords wordsAux routesShown endpointHost)
open WG.Spec.Quick WG.Spec.Bsd

variable {α β : Type}

/-! ### The specification's listings are those that the script reads -/

theorem remainder_eq {line x : CStr} (h : Remainder line x) : x = afterFirst line := by
  obtain ⟨w, g, rfl, h1, h2, h3, h4⟩ := h
  unfold afterFirst
  have e1 : (w ++ g ++ x).dropWhile (fun c => !isIfs c) = g ++ x := by
    rw [List.append_assoc, List.dropWhile_append_of_pos (by intro c hc; rw [isIfs_eq, h1 c hc]; rfl)]
    cases g with
    | nil => rw [h4 rfl]; rfl
    | cons c g => rw [List.cons_append, List.dropWhile_cons_of_neg (by rw [isIfs_eq, h2 c (List.mem_cons_self ..)]; decide)]
  rw [e1, List.dropWhile_append_of_pos (by intro c hc; rw [isIfs_eq]; exact h2 c hc)]
  cases x with
  | nil => rfl
  | cons c x => rw [List.dropWhile_cons_of_neg (by rw [isIfs_eq, h3 c rfl]; decide)]

theorem remainders_eq {out : List UInt8} {xs : List CStr} (h : Remainders out xs) : xs = (readLoopLines out).map afterFirst := by
  obtain ⟨lines, h1, h2⟩ := h
  rw [endedLines_iff] at h1
  subst h1
  generalize readLoopLines out = ls at h2
  induction h2 with
  | nil => rfl
  | cons a _ ih => rw [List.map_cons, ← ih, remainder_eq a]

theorem routesShown_eq {out : List UInt8} {rs : List CStr} (h : RoutesShown out rs) : rs = routesIn out := by
  obtain ⟨xs, wss, h1, h2, h3⟩ := h
  obtain ⟨ys, vss, g1, g2, g3⟩ := routesShown out
  have e1 : xs = ys := (remainders_eq h1).trans (remainders_eq g1).symm
  subst e1
  have e2 : wss = vss := by
    clear h3 g3 h1 g1
    induction h2 generalizing vss with
    | nil => cases g2; rfl
    | cons a _ ih =>
      cases g2 with
      | cons b g2 => rw [words_unique a b, ih _ g2]
  subst e2
  exact collected_unique (fun x y y' a b => a.1.trans b.1.symm) h3 g3

theorem hostsShown_eq {out : List UInt8} {hs : List CStr} (h : HostsShown out hs) : hs = hostsIn out := by
  obtain ⟨xs, h1, h2⟩ := h
  rw [hostsIn_eq, ← remainders_eq h1]
  refine collected_unique (fun x y y' a b => ?_) h2 (collected_filterMap endpointHost_iff _)
  have := (endpointHost_iff x y).2 a
  rw [(endpointHost_iff x y').2 b] at this
  exact (Option.some.inj this).symm

/-! ### Before the endpoints -/

section
variable {f : Family} {d : CStr} {v0 : Option Via}

theorem early_query (q : List CStr) (s : St) (r : Reply) : Early f d v0 s (push s (.query q) r) := early_push (off_query q) s r
theorem early_act {a : List CStr} {i : List UInt8} (h : a.head? ≠ some b!"route") (s : St) (r : Reply) : Early f d v0 s (push s (.act a i) r) :=
  early_push (off_act h) s r
theorem early_real (s : St) (x : CStr) : Early f d v0 s { s with real := x } := ⟨rfl, rfl, rfl, rfl, rfl, rfl⟩

theorem rel_realOpenbsd (c : Cfg) : Rel (Early f d v0) (realOpenbsd c) := by
  refine rel_bind preEarly (rel_call (early_query _)) fun r => ?_
  cases findReal c.iface [] (rawLines r.out) with
  | none => exact rel_pure preEarly _
  | some n => exact rel_bind preEarly (rel_modify fun s => by exact early_real s n) fun _ => rel_pure preEarly _

theorem rel_realDarwin (c : Cfg) (e : Bool) : Rel (Early f d v0) (realDarwin c e) := by
  unfold realDarwin
  refine rel_bind preEarly (rel_run (early_query _)) fun _ => rel_bind preEarly (rel_call (early_query _)) fun t => ?_
  refine rel_ite (fun _ => rel_pure preEarly _) fun _ => rel_bind preEarly (rel_call (early_query _)) fun n => ?_
  refine rel_ite (fun _ => rel_exit preEarly _) fun _ => rel_ite (fun _ => rel_pure preEarly _) fun _ => ?_
  refine rel_bind preEarly (rel_call (early_query _)) fun t => rel_ite (fun _ => rel_pure preEarly _) fun _ => ?_
  refine rel_bind preEarly (rel_call (early_query _)) fun a => rel_bind preEarly (rel_call (early_query _)) fun b => ?_
  exact rel_ite (fun _ => rel_pure preEarly _) fun _ => rel_bind preEarly (rel_modify fun s => by exact early_real s _) fun _ => rel_pure preEarly _

theorem rel_upCheck (c : Cfg) : Rel (Early f d v0) (upCheck c) := by
  unfold upCheck
  cases c.plat with
  | freebsd => exact rel_bind preEarly (rel_call (early_query _)) fun r => rel_pure preEarly _
  | openbsd => exact rel_realOpenbsd c
  | darwin => exact rel_realDarwin c false

/-- The first words tell. -/
theorem off_words {a : List CStr} (h1 : a.take 6 ≠ [b!"route", b!"-q", b!"-n", b!"add", f.flag, d])
    (h2 : a.take 6 ≠ [b!"route", b!"-q", b!"-n", b!"delete", f.flag, d]) : Off f d (act a) := by
  constructor
  · unfold act deleteCmd cmd
    intro h
    simp only [Call.act.injEq, and_true] at h
    exact h2 (by rw [h]; rfl)
  · intro via
    unfold act addCmd cmd
    intro h
    simp only [Call.act.injEq, and_true] at h
    exact h1 (by rw [h]; rfl)

theorem rel_addIf (c : Cfg) : Rel (Early f d v0) (addIf c) := by
  unfold addIf
  cases c.plat with
  | freebsd =>
    refine rel_bind preEarly (rel_call (fun s r => by exact early_act (by simp) s r)) fun r => rel_ite (fun _ => rel_pure preEarly _) fun _ => ?_
    exact rel_ite (fun _ => rel_pure preEarly _) fun _ => rel_run (early_push (off_words (by simp) (by simp)))
  | openbsd =>
    generalize c.patience = n
    induction n with
    | zero => exact rel_giveUp preEarly
    | succ n ih =>
      refine rel_bind preEarly (rel_call (early_query _)) fun q => ?_
      refine rel_bind preEarly (rel_call (fun s r => by exact early_act (by simp) s r)) fun r => ?_
      exact rel_ite (fun _ => rel_modify fun s => by exact early_real s _) fun _ => rel_ite (fun _ => ih) fun _ => rel_exit preEarly _
  | darwin =>
    refine rel_bind preEarly (rel_run (fun s r => by exact early_act (by simp) s r)) fun _ => ?_
    refine rel_bind preEarly (rel_run (fun s r => by exact early_act (by simp) s r)) fun _ => ?_
    exact rel_bind preEarly (rel_realDarwin c true) fun ok => rel_ite (fun _ => rel_pure preEarly _) fun _ => rel_exit preEarly _

theorem rel_setConfig (c : Cfg) : Rel (Early f d v0) (setConfig c) :=
  rel_bind preEarly (rel_get preEarly) fun s => rel_run (fun s r => by exact early_act (by simp) s r)

theorem early_first (s : St) (a b : CStr) : Early f d v0 s { s with first4 := a, first6 := b } := ⟨rfl, rfl, rfl, rfl, rfl, rfl⟩

theorem rel_addAddr (c : Cfg) (a : CStr) : Rel (Early f d v0) (addAddr c a) := by
  refine rel_bind preEarly (rel_get preEarly) fun s => ?_
  dsimp only
  cases c.plat with
  | freebsd => exact rel_run (fun s r => by exact early_act (by simp) s r)
  | openbsd =>
    refine rel_bind preEarly (rel_modify fun s => ?_) fun _ => rel_run (fun s r => by exact early_act (by simp) s r)
    by_cases h : isV6 a = true
    · rw [if_pos h]; exact early_first s s.first4 _
    · rw [if_neg h]; exact early_first s _ s.first6
  | darwin =>
    exact rel_ite (fun _ => rel_run (fun s r => by exact early_act (by simp) s r)) fun _ => rel_run (fun s r => by exact early_act (by simp) s r)

theorem rel_mtuFrom (o : CStr) (m : Nat) : Rel (Early f d v0) (mtuFrom o m) := by
  unfold mtuFrom
  cases ifaceIn o with
  | none => exact rel_pure preEarly _
  | some i =>
    refine rel_bind preEarly (rel_call (early_query _)) fun r => ?_
    cases WG.Quick.mtuIn (WG.Quick.chomp r.out) with
    | none => exact rel_pure preEarly _
    | some d => exact rel_pure preEarly _

theorem rel_mtuLoop (ls : List CStr) (m : Nat) : Rel (Early f d v0) (mtuLoop ls m) := by
  induction ls generalizing m with
  | nil => exact rel_pure preEarly _
  | cons l ls ih =>
    unfold mtuLoop
    cases endpointHost (afterFirst l) with
    | none => exact ih m
    | some h => exact rel_bind preEarly (rel_call (early_query _)) fun r => rel_bind preEarly (rel_mtuFrom _ _) fun m => ih m

theorem rel_setMtu (c : Cfg) : Rel (Early f d v0) (setMtu c) := by
  refine rel_bind preEarly (rel_get preEarly) fun s => rel_ite (fun _ => rel_run (fun s r => by exact early_act (by simp) s r)) fun _ => ?_
  refine rel_ite (fun _ => early_of_late (rel_autoMtuDarwin _)) fun _ => ?_
  refine rel_bind preEarly (rel_call (early_query _)) fun r => rel_bind preEarly (rel_mtuLoop _ _) fun m => ?_
  refine rel_bind preEarly (rel_ite (fun _ => rel_bind preEarly (rel_call (early_query _)) fun r => rel_mtuFrom _ _) fun _ => rel_pure preEarly _) fun m => ?_
  exact rel_run (fun s r => by exact early_act (by simp) s r)

theorem rel_upIf : Rel (Early f d v0) upIf := rel_bind preEarly (rel_get preEarly) fun s => rel_run (fun s r => by exact early_act (by simp) s r)

theorem rel_upDnsEarly (c : Cfg) : Rel (Early f d v0) (upDnsEarly c) := by
  unfold upDnsEarly
  cases c.plat with
  | freebsd =>
    exact rel_ite (fun _ => rel_pure preEarly _) fun _ => rel_bind preEarly (rel_run (fun s r => by exact early_act (by simp) s r)) fun _ =>
      rel_modify fun s => ⟨rfl, rfl, rfl, rfl, rfl, rfl⟩
  | openbsd =>
    refine rel_ite (fun _ => rel_pure preEarly _) fun _ => rel_bind preEarly (rel_call (early_query _)) fun u => ?_
    refine rel_bind preEarly (rel_ite (fun _ => rel_pure preEarly _) fun _ => rel_bind preEarly (rel_call (early_query _)) fun r => rel_pure preEarly _) fun b => ?_
    refine rel_ite (fun _ => ?_) fun _ => rel_pure preEarly _
    refine rel_bind preEarly (rel_run (fun s r => by exact early_act (by simp) s r)) fun _ => ?_
    refine rel_bind preEarly (rel_ite (fun _ => rel_pure preEarly _) fun _ => rel_run (fun s r => by exact early_act (by simp) s r)) fun _ => ?_
    exact rel_bind preEarly (rel_get preEarly) fun s => rel_run fun s r => early_push
      ⟨by unfold act deleteCmd cmd; intro h; simp at h, fun via => by unfold act addCmd cmd; intro h; simp at h⟩ s r
  | darwin => exact rel_pure preEarly _

/-! ### Routes to the allowed IPs -/

/-- As `Early`, but for the note that there is a default route. -/
def Early' (f : Family) (d : CStr) (v0 : Option Via) (s s' : St) : Prop :=
  s'.gw4 = s.gw4 ∧ s'.gw6 = s.gw6 ∧ s'.endpoints = s.endpoints ∧ R f d v0 s' = R f d v0 s ∧ s'.real = s.real

theorem preEarly' : Pre (Early' f d v0) := by
  refine ⟨fun s => ⟨rfl, rfl, rfl, rfl, rfl⟩, ?_⟩
  rintro a b c ⟨a3, a4, a5, a6, a7⟩ ⟨b3, b4, b5, b6, b7⟩
  exact ⟨b3.trans a3, b4.trans a4, b5.trans a5, b6.trans a6, b7.trans a7⟩

theorem early'_push {c : Call} (h : Off f d c) (s : St) (r : Reply) : Early' f d v0 s (push s c r) := ⟨rfl, rfl, rfl, R_off h r, rfl⟩

theorem host_no {d : CStr} (hd : Host d) (x : UInt8) (hx : addrByte x = false) : x ∉ d := by
  intro h
  have := hd.2 x h
  rw [hx] at this
  exact absurd this (by decide)

theorem host_plainly {d : CStr} (hd : Host d) : Plain d := ⟨hd.1, host_no hd 32 (by decide)⟩

theorem slash_ne {d r : CStr} (hd : Host d) (hr : c!"/" ∈ r) : r ≠ d := by
  rintro rfl
  exact host_no hd c!"/" (by decide) hr

theorem off_net {fam r : CStr} {via : List CStr} (hd : Host d) (hr : c!"/" ∈ r) : Off f d (routeAdd fam r via) := off_add fun h => slash_ne hd hr h.2

theorem rel_addHalves (c : Cfg) (hd : Host d) (r : CStr) : Rel (Early' f d v0) (addHalves c r) := by
  refine rel_bind preEarly' (rel_get preEarly') fun s => rel_ite (fun _ => ?_) fun _ => ?_
  · refine rel_bind preEarly' (rel_modify fun s => ⟨rfl, rfl, rfl, rfl, rfl⟩) fun _ => ?_
    exact rel_bind preEarly' (rel_run (early'_push (off_net hd (by decide)))) fun _ => rel_run (early'_push (off_net hd (by decide)))
  · refine rel_bind preEarly' (rel_modify fun s => ⟨rfl, rfl, rfl, rfl, rfl⟩) fun _ => ?_
    exact rel_bind preEarly' (rel_run (early'_push (off_net hd (by decide)))) fun _ => rel_run (early'_push (off_net hd (by decide)))

theorem rel_addNet (c : Cfg) (hd : Host d) (r : CStr) (hr : c!"/" ∈ r) : Rel (Early' f d v0) (addNet c r) := by
  refine rel_bind preEarly' (rel_call (early'_push (off_query _))) fun q => rel_bind preEarly' (rel_get preEarly') fun s => ?_
  exact rel_ite (fun _ => rel_pure preEarly' _) fun _ => rel_run (early'_push (off_net hd hr))

theorem rel_addRoute (c : Cfg) (hd : Host d) (r : CStr) (hr : c!"/" ∈ r) : Rel (Early' f d v0) (addRoute c r) := by
  refine rel_ite (fun _ => rel_pure preEarly' _) fun _ => rel_bind preEarly' (rel_get preEarly') fun s => ?_
  cases c.plat with
  | freebsd =>
    refine rel_ite (fun _ => rel_run (early'_push (off_words ?_ ?_))) fun _ => rel_ite (fun _ => rel_addHalves c hd r) fun _ => rel_addNet c hd r hr
    · intro h
      simp only [List.take_succ_cons, List.take_zero, List.cons.injEq, and_true, true_and] at h
      exact host_no hd c!"-" (by decide) (by rw [← h.2]; decide)
    · intro h
      simp only [List.take_succ_cons, List.take_zero, List.cons.injEq, and_true, true_and] at h
      exact absurd h.1 (by decide)
  | openbsd =>
    refine rel_ite (fun _ => rel_exit preEarly' _) fun _ => rel_ite (fun _ => rel_run (early'_push (off_words ?_ ?_))) fun _ =>
      rel_ite (fun _ => rel_addHalves c hd r) fun _ => rel_addNet c hd r hr
    · intro h
      simp only [List.cons_append, List.take_succ_cons, List.cons.injEq, true_and] at h
      exact absurd h.1 (by decide)
    · intro h
      simp only [List.cons_append, List.take_succ_cons, List.cons.injEq, true_and] at h
      exact absurd h.1 (by decide)
  | darwin =>
    refine rel_ite (fun _ => rel_addHalves c hd r) fun _ => rel_ite (fun _ => rel_addNet c hd r hr) fun _ => rel_exit preEarly' _

theorem addHalves_auto {c : Cfg} {r : CStr} {w : World} {s s' : St} {u : Unit} (h : addHalves c r w s = (.ok u, s')) :
    s'.auto4 = (s.auto4 || !isV6 r) ∧ s'.auto6 = (s.auto6 || isV6 r) := by
  unfold addHalves at h
  rw [get_bind] at h
  cases hv : isV6 r with
  | true =>
    rw [hv, if_pos rfl, modify_bind] at h
    obtain ⟨_, s1, h1, h2⟩ := bind_ok h
    obtain ⟨_, _, rfl⟩ := run_ok h1
    obtain ⟨_, _, rfl⟩ := run_ok h2
    simp [push]
  | false =>
    rw [hv, if_neg (by decide), modify_bind] at h
    obtain ⟨_, s1, h1, h2⟩ := bind_ok h
    obtain ⟨_, _, rfl⟩ := run_ok h1
    obtain ⟨_, _, rfl⟩ := run_ok h2
    simp [push]

theorem addNet_auto {c : Cfg} {r : CStr} {w : World} {s s' : St} {u : Unit} (h : addNet c r w s = (.ok u, s')) : s'.auto4 = s.auto4 ∧ s'.auto6 = s.auto6 := by
  unfold addNet at h
  obtain ⟨q, s1, h1, h⟩ := bind_ok h
  obtain ⟨_, _, rfl⟩ := call_ok h1
  rw [get_bind] at h
  by_cases ht : throughIf (push s (.query [b!"route", b!"-n", b!"get", famOf r, r]) q).real (WG.Quick.chomp q.out) = true
  · rw [if_pos ht] at h
    obtain ⟨_, rfl⟩ := pure_inv h
    exact ⟨rfl, rfl⟩
  · rw [if_neg ht] at h
    obtain ⟨_, _, rfl⟩ := run_ok h
    exact ⟨rfl, rfl⟩

/-- A default route is noted. -/
def noted (c : Cfg) (r : CStr) : Bool := decide (autoTable c) && isDefault r

theorem addRoute_auto {c : Cfg} {r : CStr} {w : World} {s s' : St} {u : Unit} (h : addRoute c r w s = (.ok u, s')) :
    s'.auto4 = (s.auto4 || (noted c r && !isV6 r)) ∧ s'.auto6 = (s.auto6 || (noted c r && isV6 r)) := by
  unfold addRoute at h
  unfold noted
  by_cases hoff : c.opts.table = b!"off"
  · rw [if_pos hoff] at h
    obtain ⟨_, rfl⟩ := pure_inv h
    have : ¬ autoTable c := by unfold autoTable; rw [hoff]; decide
    simp [this]
  rw [if_neg hoff, get_bind] at h
  have hauto : autoTable c → (if isDefault r = true then addHalves c r else addNet c r) w s = (.ok u, s') →
      s'.auto4 = (s.auto4 || (decide (autoTable c) && isDefault r && !isV6 r)) ∧ s'.auto6 = (s.auto6 || (decide (autoTable c) && isDefault r && isV6 r)) := by
    intro ht h
    by_cases hdef : isDefault r = true
    · rw [if_pos hdef] at h
      simpa [ht, hdef] using addHalves_auto h
    · rw [if_neg hdef] at h
      simpa [ht, hdef] using addNet_auto h
  cases hp : c.plat with
  | freebsd =>
    rw [hp] at h
    dsimp only at h
    by_cases ht : autoTable c
    · rw [if_neg (by simpa using ht)] at h
      exact hauto ht h
    · rw [if_pos ht] at h
      obtain ⟨_, _, rfl⟩ := run_ok h
      simp [ht, push]
  | openbsd =>
    rw [hp] at h
    dsimp only at h
    by_cases he : (if isV6 r = true then s.first6 else s.first4) = []
    · rw [if_pos he] at h; exact (exitWith_ok h).elim
    rw [if_neg he] at h
    by_cases ht : autoTable c
    · rw [if_neg (by simpa using ht)] at h
      exact hauto ht h
    · rw [if_pos ht] at h
      obtain ⟨_, _, rfl⟩ := run_ok h
      simp [ht, push]
  | darwin =>
    rw [hp] at h
    dsimp only at h
    by_cases hdef : isDefault r = true ∧ autoTable c
    · rw [if_pos hdef] at h
      simpa [hdef] using addHalves_auto h
    · rw [if_neg hdef] at h
      by_cases ht : c.opts.table = b!"main" ∨ autoTable c
      · rw [if_pos ht] at h
        have : (decide (autoTable c) && isDefault r) = false := by
          rw [Bool.and_eq_false_iff]
          by_cases h2 : autoTable c
          · exact .inr (by simpa using fun h => hdef ⟨h, h2⟩)
          · exact .inl (by simpa using h2)
        rw [this]
        simpa using addNet_auto h
      · rw [if_neg ht] at h; exact (exitWith_ok h).elim

theorem addRoutes_auto {c : Cfg} {rs : List CStr} {w : World} {s s' : St} {u : Unit} (h : forEach (addRoute c) rs w s = (.ok u, s')) :
    s'.auto4 = (s.auto4 || rs.any fun r => noted c r && !isV6 r) ∧ s'.auto6 = (s.auto6 || rs.any fun r => noted c r && isV6 r) := by
  induction rs generalizing s with
  | nil => obtain ⟨_, rfl⟩ := pure_inv h; simp
  | cons r rs ih =>
    obtain ⟨_, s1, h1, h2⟩ := bind_ok h
    obtain ⟨a, b⟩ := addRoute_auto h1
    obtain ⟨a', b'⟩ := ih h2
    rw [a', b', a, b]
    simp [Bool.or_assoc]

theorem rel_addRoutes (c : Cfg) (hd : Host d) (rs : List CStr) (hr : ∀ r ∈ rs, c!"/" ∈ r) : Rel (Early' f d v0) (forEach (addRoute c) rs) := by
  induction rs with
  | nil => exact rel_pure preEarly' _
  | cons r rs ih => exact rel_bind preEarly' (rel_addRoute c hd r (hr r (List.mem_cons_self ..))) fun _ => ih fun x hx => hr x (List.mem_cons_of_mem _ hx)

theorem routesIn_slash (out : List UInt8) : ∀ r ∈ routesIn out, c!"/" ∈ r := by
  intro r hr
  unfold routesIn at hr
  obtain ⟨l, _, hl⟩ := List.mem_flatMap.1 hr
  obtain ⟨a, n, rfl, _⟩ := (isRoute_iff r).1 (List.mem_filter.1 hl).2
  simp

theorem rel_upDnsLate (c : Cfg) : Rel (Late f d v0) (upDnsLate c) := by
  unfold upDnsLate
  cases c.plat with
  | freebsd => exact rel_pure preLate _
  | openbsd => exact rel_pure preLate _
  | darwin => exact rel_ite (fun _ => rel_pure preLate _) fun _ => rel_setDnsDarwin c

theorem defaultWanted_iff {c : Cfg} (hsort : ∀ l, (c.sort l).Perm l) (out : List UInt8) (f : Family) :
    DefaultWanted c f out ↔ ∃ r ∈ c.sort (routesIn out), noted c r = true ∧ f.Has r := by
  unfold DefaultWanted noted
  constructor
  · rintro ⟨h1, rs, h2, r, h3, h4, h5⟩
    refine ⟨r, (hsort _).mem_iff.2 (by rw [← routesShown_eq h2]; exact h3), ?_, h5⟩
    rw [Bool.and_eq_true]
    exact ⟨decide_eq_true h1, List.isSuffixOf_iff_suffix.2 h4⟩
  · rintro ⟨r, h1, h2, h3⟩
    rw [Bool.and_eq_true] at h2
    exact ⟨of_decide_eq_true h2.1, _, routesShown out, r, (hsort _).mem_iff.1 h1, List.isSuffixOf_iff_suffix.1 h2.2, h3⟩

theorem has_v4 (r : CStr) : Family.v4.Has r ↔ isV6 r = false := by
  unfold Family.Has isV6
  simp
theorem has_v6 (r : CStr) : Family.v6.Has r ↔ isV6 r = true := by
  unfold Family.Has isV6
  simp

/-- `up`, when it succeeds. -/
theorem up_calm {c : Cfg} {w : World} (hk : KeepsRoute f.flag d v0 w) (hf : f.Has d) (hd : Host d) (hsort : ∀ l, (c.sort l).Perm l)
    (hfr : NoClash d v0 w) {s1 : St} (h : commands c (cmdUp c) w (St.start c) = (.ok (), s1)) :
    Calm c f d v0 s1 ∧ ∃ q, (allowedOf s1.real, q) ∈ s1.hist ∧ (s1.auto f = true ↔ DefaultWanted c f q.out) := by
  unfold commands at h
  have r0 : Rel (Late f d v0) (if c.plat = .freebsd then makeTemp else Sh.pure ()) := rel_ite (fun _ => rel_makeTemp) fun _ => rel_pure preLate _
  obtain ⟨_, s2, h2, h⟩ := bind_ok h
  have e2 : Early f d v0 (St.start c) s2 := (rel_of r0 h2).early
  rw [setTrap_bind] at h
  unfold cmdUp at h
  obtain ⟨b, s3, h3, h⟩ := bind_ok h
  have e3 : Early f d v0 (St.start c) s3 := preEarly.trans (preEarly.trans e2 (c := { s2 with trap := restTrap c }) ⟨rfl, rfl, rfl, rfl, rfl, rfl⟩) (rel_of (rel_upCheck c) h3)
  cases b with
  | true => rw [if_pos rfl] at h; exact (exitWith_ok h).elim
  | false =>
  rw [if_neg (by decide), setTrap_bind] at h
  obtain ⟨_, s4, h4, h⟩ := bind_ok h
  have hs1 := modify_inv h
  have e3' : Early f d v0 (St.start c) { s3 with trap := .up } := preEarly.trans e3 ⟨rfl, rfl, rfl, rfl, rfl, rfl⟩
  unfold upBody at h4
  obtain ⟨_, t1, g1, h4⟩ := bind_ok h4
  have e := preEarly.trans e3' (rel_of (rel_addIf c) g1)
  obtain ⟨_, t2, g2, h4⟩ := bind_ok h4
  replace e := preEarly.trans e (rel_of (early_of_late (rel_hooks c _)) g2)
  obtain ⟨_, t3, g3, h4⟩ := bind_ok h4
  replace e := preEarly.trans e (rel_of (rel_setConfig c) g3)
  obtain ⟨_, t4, g4, h4⟩ := bind_ok h4
  replace e := preEarly.trans e (rel_of (rel_forEach preEarly (rel_addAddr c) _) g4)
  obtain ⟨_, t5, g5, h4⟩ := bind_ok h4
  replace e := preEarly.trans e (rel_of (rel_setMtu c) g5)
  obtain ⟨_, t6, g6, h4⟩ := bind_ok h4
  replace e := preEarly.trans e (rel_of rel_upIf g6)
  obtain ⟨_, t7, g7, h4⟩ := bind_ok h4
  replace e := preEarly.trans e (rel_of (rel_upDnsEarly c) g7)
  rw [get_bind] at h4
  obtain ⟨q, t8, g8, h4⟩ := bind_ok h4
  obtain ⟨_, _, ht8⟩ := call_ok g8
  replace e := preEarly.trans e (rel_of (rel_call (early_query _)) g8)
  obtain ⟨_, t9, g9, h4⟩ := bind_ok h4
  obtain ⟨a4, a6⟩ := addRoutes_auto g9
  have e9 : Early' f d v0 t8 t9 := rel_of (rel_addRoutes c hd _ fun r hr => routesIn_slash q.out r ((hsort _).mem_iff.1 hr)) g9
  obtain ⟨i1, i2, i3, i4, i5, i6⟩ := e
  obtain ⟨j3, j4, j5, j6, j7⟩ := e9
  have hep : t9.endpoints = [] := by rw [j5, i5]; rfl
  have hR9 : R f d v0 t9 = v0 := by rw [j6, i6]; rfl
  have z4 : t8.auto4 = false := by rw [i1]; rfl
  have z6 : t8.auto6 = false := by rw [i2]; rfl
  have hgood : Good f d v0 t9 := ⟨by rw [hep]; simp, by rw [hep]; simp, by rw [hep]; simp, by rw [hep, hR9]; simp⟩
  -- the listing of the allowed IPs
  have hq8 : (allowedOf t9.real, q) ∈ t8.hist := by
    have : t8.real = t7.real := by rw [ht8]; rfl
    rw [j7, this, ht8]
    unfold push allowedOf
    simp
  have hgrow : ∀ {α : Type} (m : Sh α) (w : World) (s : St), Adds (fun _ => True) m → ∀ x ∈ s.hist, x ∈ (m w s).2.hist := by
    intro α m w s hm x hx
    obtain ⟨b, hb, _⟩ := hm w s
    rw [hb]
    exact List.mem_append_left _ hx
  have hq9 : (allowedOf t9.real, q) ∈ t9.hist := by
    have := hgrow (forEach (addRoute c) (c.sort (routesIn q.out))) w t8 (adds_forEach (fun r => by
      refine adds_ite (fun _ => adds_pure _) fun _ => adds_bind adds_get fun s => ?_
      have hn : Adds (fun _ => True) (addNet c r) := adds_bind (adds_call trivial) fun q => adds_bind adds_get fun s => adds_ite (fun _ => adds_pure _) fun _ => adds_run trivial
      have hh : Adds (fun _ => True) (addHalves c r) := adds_bind adds_get fun s => adds_ite
        (fun _ => adds_bind (adds_modify fun s => rfl) fun _ => adds_bind (adds_run trivial) fun _ => adds_run trivial)
        (fun _ => adds_bind (adds_modify fun s => rfl) fun _ => adds_bind (adds_run trivial) fun _ => adds_run trivial)
      cases c.plat with
      | freebsd => exact adds_ite (fun _ => adds_run trivial) fun _ => adds_ite (fun _ => hh) fun _ => hn
      | openbsd => exact adds_ite (fun _ => adds_exit _) fun _ => adds_ite (fun _ => adds_run trivial) fun _ => adds_ite (fun _ => hh) fun _ => hn
      | darwin => exact adds_ite (fun _ => hh) fun _ => adds_ite (fun _ => hn) fun _ => adds_exit _) _) _ hq8
    rw [g9] at this
    exact this
  have hauto : t9.auto f = true ↔ DefaultWanted c f q.out := by
    rw [defaultWanted_iff hsort]
    cases f with
    | v4 =>
      change t9.auto4 = true ↔ _
      rw [a4, z4]
      simp [has_v4]
    | v6 =>
      change t9.auto6 = true ↔ _
      rw [a6, z6]
      simp [has_v6]
  obtain ⟨_, t10, g10, h4⟩ := bind_ok h4
  obtain ⟨_, t11, g11, h4⟩ := bind_ok h4
  obtain ⟨_, t12, g12, h4⟩ := bind_ok h4
  have hfresh : Fresh d v0 w t9.real := by
    rcases hfr with h | h
    · exact .inl h
    · exact .inr fun x => h x _ _ (hostsShown _)
  have a10 : (t10.real = t9.real ∧ t10.auto4 = t9.auto4 ∧ t10.auto6 = t9.auto6) ∧ Calm c f d v0 t10 ∧ ∃ b, t10.hist = t9.hist ++ b := by
    unfold directIfAuto at g10
    rw [get_bind] at g10
    by_cases ha : t9.auto4 = true ∨ t9.auto6 = true
    · rw [if_pos ha] at g10
      obtain ⟨⟨k1, k2, k3, _⟩, k5, _⟩ := setDirect_inv hk hf (host_plainly hd) hfresh hgood g10
      obtain ⟨k8, k9⟩ := k5 rfl
      refine ⟨⟨k1, k2, k3⟩, ⟨k8, fun _ => k9⟩, ?_⟩
      have : Adds (fun _ => True) (setDirect c) := by
        refine adds_bind adds_get fun s0 => adds_bind ?_ fun _ => adds_bind ?_ fun _ => adds_bind adds_get fun s => ?_
        · exact adds_bind (adds_call trivial) fun _ => adds_bind (adds_modify fun _ => rfl) fun _ => adds_bind (adds_call trivial) fun _ => adds_modify fun _ => rfl
        · exact adds_bind adds_get fun _ => adds_bind (adds_modify fun _ => rfl) fun _ => adds_bind (adds_call trivial) fun _ => adds_modify fun _ => rfl
        · refine adds_bind (fun w s => ?_) fun _ => adds_bind (fun w s => ?_) fun _ => adds_modify fun _ => rfl
          · obtain ⟨b, hb, _⟩ := adds_forEach (fun e => adds_dropDirect [] _ e) _ w s
            exact ⟨b, hb, fun _ _ => trivial⟩
          · obtain ⟨b, hb, _⟩ := adds_addDirect [] _ _ _ _ w s
            exact ⟨b, hb, fun _ _ => trivial⟩
      obtain ⟨b, hb, _⟩ := this w t9
      rw [g10] at hb
      exact ⟨b, hb⟩
    · rw [if_neg ha] at g10
      obtain ⟨_, rfl⟩ := pure_inv g10
      exact ⟨⟨rfl, rfl, rfl⟩, ⟨hgood, fun h => absurd h ha⟩, [], by simp⟩
  obtain ⟨⟨k1, k2, k3⟩, kc, kb, kh⟩ := a10
  have l1 : Late f d v0 t10 t11 := rel_of (rel_upDnsLate c) g11
  have l2 : Late f d v0 t11 t12 := rel_of (rel_run (fun s r => by exact late_act (by simp) s r)) g12
  have l3 : Late f d v0 t12 s4 := rel_of (rel_hooks c _) h4
  have l4 : Late f d v0 s4 s1 := by rw [hs1]; exact ⟨⟨rfl, rfl, rfl, rfl, rfl, rfl, rfl⟩, [], by simp, by simp⟩
  have l := preLate.trans (preLate.trans (preLate.trans l1 l2) l3) l4
  refine ⟨kc.late l, q, ?_, ?_⟩
  · obtain ⟨b, hb, _⟩ := l.2
    rw [l.1.1, k1, hb, kh]
    exact List.mem_append_left _ (List.mem_append_left _ hq9)
  · rw [auto_same l.1.2.1 l.1.2.2.1, auto_same k2 k3]
    exact hauto

theorem right_of_calm {c : Cfg} {s : St} (hf : f.Has d) (hc : Calm c f d v0 s) {q : Reply} (h1 : (allowedOf s.real, q) ∈ s.hist)
    (h2 : s.auto f = true ↔ DefaultWanted c f q.out) : RouteRight c s.real f d v0 s.hist := by
  refine ⟨q, h1, ?_⟩
  by_cases ha : s.auto f = true
  · refine .inl ⟨h2.1 ha, ?_⟩
    obtain ⟨r4, r6, re, l1, l2, l3, l4⟩ := hc.learnt (by cases f with | v4 => exact .inl ha | v6 => exact .inr ha)
    refine ⟨r4, r6, re, s.gw f, hostsIn re.out, l1, ?_, hostsShown _, ?_⟩
    · cases f with
      | v4 => change GatewayShown c.plat r4.out s.gw4; rw [l2]; exact gatewayShown _ _
      | v6 => change GatewayShown c.plat r6.out s.gw6; rw [l3]; exact gatewayShown _ _
    · have := hc.good.route
      unfold R at this
      rw [this]
      have hm : (d ∈ s.endpoints ∧ s.auto f = true) ↔ d ∈ hostsIn re.out := by
        rw [l4]
        exact ⟨fun h => h.1.1, fun h => ⟨⟨h, by rw [(directFam_eq hf s).2 ha]; simp⟩, ha⟩⟩
      by_cases hd : d ∈ hostsIn re.out
      · rw [if_pos (hm.2 hd), if_pos hd]
      · rw [if_neg (fun h => hd (hm.1 h)), if_neg hd]
  · refine .inr ⟨fun h => ha (h2.2 h), ?_⟩
    have := hc.good.route
    unfold R at this
    rw [this, if_neg (fun h => ha h.2)]

/-! ### The end of the monitor -/

theorem keepsRoute_calm {w : World} (hk : KeepsRoute f.flag d v0 w) : KeepsRoute f.flag d v0 (calm w) := fun h => hk h

/-- The listings never show a route to `d` through the interface, if there was a route before. -/
def NotOwn (f : Family) (d : CStr) (v0 : Option Via) (w : World) (real : CStr) : Prop := v0 = none ∨ ∀ h, ¬ ListsOwn f real (w h (netstatOf f)).out d

theorem own4_lists {real out : CStr} (hd : d ≠ []) (h : d ∈ (readLoopLines out).filterMap (ownRoute4 real)) : ListsOwn .v4 real out d := by
  obtain ⟨l, h1, h2⟩ := List.mem_filterMap.1 h
  unfold ownRoute4 at h2
  by_cases h3 : wordAt 5 l = real
  · rw [if_pos h3] at h2
    refine ⟨_, l, wordsAux [] l, (endedLines_iff _ _).2 rfl, h1, blankWords l, ?_, wordsAux [] l, blankWords l, h3⟩
    have h4 := Option.some.inj h2
    unfold wordAt at h4
    rw [List.head?_eq_getElem?]
    cases h5 : (wordsAux [] l)[0]? with
    | none => rw [h5] at h4; exact absurd h4.symm hd
    | some x => rw [h5] at h4; exact congrArg some h4
  · rw [if_neg h3] at h2; cases h2

theorem own6_lists {real out : CStr} (hd : d ≠ []) (h : d ∈ (readLoopLines out).filterMap (ownRoute6 real)) : ListsOwn .v6 real out d := by
  obtain ⟨l, h1, h2⟩ := List.mem_filterMap.1 h
  unfold ownRoute6 at h2
  dsimp only at h2
  by_cases h3 : afterFirst (afterFirst (afterFirst l)) = real ∨ (b!"lo".isPrefixOf (afterFirst (afterFirst (afterFirst l))) = true ∧ wordAt 1 l = real)
  · rw [if_pos h3] at h2
    refine ⟨_, l, wordsAux [] l, (endedLines_iff _ _).2 rfl, h1, blankWords l, ?_, _, _, _, wordsAux [] l, remainder_sound l, remainder_sound _, remainder_sound _,
      blankWords l, ?_⟩
    · have h4 := Option.some.inj h2
      unfold wordAt at h4
      rw [List.head?_eq_getElem?]
      cases h5 : (wordsAux [] l)[0]? with
      | none => rw [h5] at h4; exact absurd h4.symm hd
      | some x => rw [h5] at h4; exact congrArg some h4
    · rcases h3 with h3 | ⟨h3, h4⟩
      · exact .inl h3
      · exact .inr ⟨List.isPrefixOf_iff_prefix.1 h3, h4⟩
  · rw [if_neg h3] at h2; cases h2

/-- A loop of deletions, not interrupted. -/
theorem deletes_ok {w : World} (hk : KeepsRoute f.flag d v0 w) (fam : CStr → CStr) (ds : List CStr) (s : St) (hw : ∀ h c, (w h c).sig = false) :
    ∃ s', forEach (fun x => run false (routeDelete (fam x) x)) ds w s = (.ok (), s') ∧ Same s s' ∧
      R f d v0 s' = if d ∈ ds ∧ fam d = f.flag then none else R f d v0 s := by
  induction ds generalizing s with
  | nil => exact ⟨s, rfl, Same.refl _, by simp⟩
  | cons x ds ih =>
    obtain ⟨s', h1, h2, h3⟩ := ih (push s (routeDelete (fam x) x) (w s.hist (routeDelete (fam x) x)))
    refine ⟨s', ?_, (Same.push _ _ _).trans h2, ?_⟩
    · unfold forEach
      rw [bind_of_ok (m := run false (routeDelete (fam x) x)) (a := ()) (s1 := push s (routeDelete (fam x) x) (w s.hist (routeDelete (fam x) x)))]
      · exact h1
      · rw [run_eq, hw]; rfl
    · rw [h3]
      by_cases hx : fam x = f.flag ∧ x = d
      · obtain ⟨e1, rfl⟩ := hx
        rw [e1, R_delete hk, if_pos (c := x ∈ x :: ds ∧ _) ⟨List.mem_cons_self .., rfl⟩, ite_self]
      · rw [R_off (off_delete hx)]
        by_cases h4 : d ∈ ds ∧ fam d = f.flag
        · rw [if_pos h4, if_pos ⟨List.mem_cons_of_mem _ h4.1, h4.2⟩]
        · rw [if_neg h4, if_neg]
          rintro ⟨h5, h6⟩
          rcases List.mem_cons.1 h5 with rfl | h5
          · exact hx ⟨h6, rfl⟩
          · exact h4 ⟨h5, h6⟩

/-- `del_routes`: afterwards all is as before. -/
theorem delRoutes_ok {c : Cfg} {w : World} (hk : KeepsRoute f.flag d v0 w) (hf : f.Has d) (hd : d ≠ []) (hw : ∀ h c, (w h c).sig = false) {s : St}
    (hreal : s.real ≠ []) (hown : NotOwn f d v0 w s.real) (hc : Clean f d v0 s) :
    ∃ s', delRoutes c w s = (.ok (), s') ∧ Same s s' ∧ R f d v0 s' = v0 := by
  unfold delRoutes
  rw [get_bind, if_neg (fun h => hreal h.2)]
  have q : ∀ (q : List CStr) (s : St), call (.query q) w s = (.ok (w s.hist (.query q)), push s (.query q) (w s.hist (.query q))) := by
    intro q s
    rw [call_eq, hw]; rfl
  rw [bind_of_ok (q _ s)]
  generalize e1 : push s (.query [b!"netstat", b!"-nr", b!"-f", b!"inet"]) (w s.hist (.query [b!"netstat", b!"-nr", b!"-f", b!"inet"])) = s1
  have hR1 : R f d v0 s1 = R f d v0 s := by rw [← e1]; exact R_off (off_query _) _
  have hs1 : Same s s1 := by rw [← e1]; exact Same.push _ _ _
  obtain ⟨s2, h2, hs2, hR2⟩ := deletes_ok hk (fun _ => b!"-inet") ((readLoopLines (w s.hist (.query [b!"netstat", b!"-nr", b!"-f", b!"inet"])).out).filterMap (ownRoute4 s.real)) s1 hw
  rw [bind_of_ok h2, bind_of_ok (q _ s2)]
  generalize e3 : push s2 (.query [b!"netstat", b!"-nr", b!"-f", b!"inet6"]) (w s2.hist (.query [b!"netstat", b!"-nr", b!"-f", b!"inet6"])) = s3
  have hR3 : R f d v0 s3 = R f d v0 s2 := by rw [← e3]; exact R_off (off_query _) _
  have hs3 : Same s2 s3 := by rw [← e3]; exact Same.push _ _ _
  obtain ⟨s4, h4, hs4, hR4⟩ := deletes_ok hk (fun _ => b!"-inet6") ((readLoopLines (w s2.hist (.query [b!"netstat", b!"-nr", b!"-f", b!"inet6"])).out).filterMap (ownRoute6 s.real)) s3 hw
  rw [bind_of_ok h4]
  obtain ⟨s5, h5, hs5, hR5⟩ := deletes_ok hk famOf s.endpoints s4 hw
  refine ⟨s5, h5, (((hs1.trans hs2).trans hs3).trans hs4).trans hs5, ?_⟩
  -- deletions of what the listings show leave `v0`, or nothing
  have hkeep : ∀ {v : Option Via} {p : Prop} [Decidable p], (p → v0 = none) → (v = v0 ∨ v0 = none ∧ d ∈ s.endpoints) →
      ((if p then none else v) = v0 ∨ v0 = none ∧ d ∈ s.endpoints) := by
    intro v p _ hp hv
    by_cases h : p
    · rw [if_pos h]; exact .inl (hp h).symm
    · rw [if_neg h]; exact hv
  have k0 : R f d v0 s = v0 ∨ v0 = none ∧ d ∈ s.endpoints := by
    rcases hc.route with h | h
    · exact .inl h
    · exact .inr ⟨hc.fresh h, h⟩
  have k2 : R f d v0 s2 = v0 ∨ v0 = none ∧ d ∈ s.endpoints := by
    rw [hR2, hR1]
    refine hkeep ?_ k0
    rintro ⟨h6, h7⟩
    rcases hown with h | h
    · exact h
    · cases f with
      | v4 => exact absurd (own4_lists hd h6) (h _)
      | v6 => exact absurd h7 (by decide)
  have k4 : R f d v0 s4 = v0 ∨ v0 = none ∧ d ∈ s.endpoints := by
    rw [hR4, hR3]
    refine hkeep ?_ k2
    rintro ⟨h6, h7⟩
    rcases hown with h | h
    · exact h
    · cases f with
      | v4 => exact absurd h7 (by decide)
      | v6 => exact absurd (own6_lists hd h6) (h _)
  rw [hR5]
  by_cases h6 : d ∈ s.endpoints
  · rw [if_pos ⟨h6, famOf_eq hf⟩]; exact (hc.fresh h6).symm
  · rw [if_neg (fun h => h6 h.1)]
    rcases k4 with h | h
    · exact h
    · exact absurd h.2 h6

/-- The commands of the monitor's trap: whatever fails afterwards, the routes are removed. -/
theorem daemonTrap {c : Cfg} {w : World} (hk : KeepsRoute f.flag d v0 w) (hf : f.Has d) (hd : d ≠ []) {s : St}
    (hreal : s.real ≠ []) (hown : NotOwn f d v0 w s.real) (hc : Clean f d v0 s) {o : Out Unit} {s' : St}
    (h : trapBody c .daemon (calm w) s = (o, s')) : s'.real = s.real ∧ Clean f d v0 s' ∧ R f d v0 s' = v0 ∧ s'.trap = s.trap := by
  obtain ⟨s1, h1, hs, hR⟩ := delRoutes_ok (c := c) (keepsRoute_calm hk) hf hd (fun _ _ => rfl) hreal hown hc
  change ((delRoutes c).bind fun _ => (if c.plat = .darwin then delDns c else Sh.pure ()).bind fun _ => cleanIf c) (calm w) s = (o, s') at h
  rw [bind_of_ok h1] at h
  have hrel : Rel (fun a b => b.trap = a.trap ∧ Late f d v0 a b) ((if c.plat = .darwin then delDns c else Sh.pure ()).bind fun _ => cleanIf c) := by
    have hp : Pre (fun a b : St => b.trap = a.trap ∧ Late f d v0 a b) :=
      ⟨fun s => ⟨rfl, preLate.refl s⟩, fun h1 h2 => ⟨h2.1.trans h1.1, preLate.trans h1.2 h2.2⟩⟩
    refine rel_bind hp (rel_ite (fun _ => ?_) fun _ => rel_pure hp _) fun _ => ?_
    · refine rel_bind hp (rel_get hp) fun s => rel_forEach hp (fun x => ?_) _
      exact rel_bind hp (rel_run (fun s r => ⟨rfl, by exact late_act (by simp) s r⟩)) fun _ => rel_run (fun s r => ⟨rfl, by exact late_act (by simp) s r⟩)
    · refine rel_ite (fun _ => ?_) fun _ => rel_pure hp _
      exact rel_bind hp (rel_get hp) fun s => rel_ite (fun _ => rel_exit hp _) fun _ => rel_run (fun s r => ⟨rfl, by exact late_act (by simp) s r⟩)
  obtain ⟨l0, l⟩ := rel_of hrel h
  have e1 : s1.real = s.real := by rw [hs]
  have e2 : s1.endpoints = s.endpoints := by rw [hs]
  have e3 : s1.trap = s.trap := by rw [hs]
  refine ⟨l.1.1.trans e1, ⟨?_, ?_⟩, l.1.2.2.2.2.2.2.trans hR, l0.trans e3⟩
  · rw [l.1.2.2.2.2.2.1, e2]; exact hc.fresh
  · exact .inl (l.1.2.2.2.2.2.2.trans hR)

/-- Also through the EXIT trap. -/
theorem daemonExit {c : Cfg} {w : World} (hk : KeepsRoute f.flag d v0 w) (hf : f.Has d) (hd : d ≠ []) {s : St} (ht : s.trap = .daemon)
    (hreal : s.real ≠ []) (hown : NotOwn f d v0 w s.real) (hc : Clean f d v0 s) (n : Nat) {e : End} {s' : St}
    (h : exitTrap (trapBody c) trapStatus n w s = (e, s')) : R f d v0 s' = v0 := by
  unfold exitTrap at h
  rw [ht] at h
  dsimp only at h
  rcases h2 : trapBody c .daemon (calm w) s with ⟨o, s2⟩
  rw [h2] at h
  obtain ⟨_, _, h3, _⟩ := daemonTrap hk hf hd hreal hown hc h2
  cases o <;> (simp only [Prod.mk.injEq] at h; rw [← h.2]; exact h3)

end
/-! ### The trap stays -/

/-- The trap is the same. -/
def Trapped (s s' : St) : Prop := s'.trap = s.trap

theorem preTrapped : Pre Trapped := ⟨fun _ => rfl, fun h1 h2 => Eq.trans h2 h1⟩
theorem trapped_push (c : Call) (s : St) (r : Reply) : Trapped s (push s c r) := rfl

theorem trapped_call (c : Call) : Rel Trapped (call c) := rel_call (trapped_push c)
theorem trapped_run (e : Bool) (c : Call) : Rel Trapped (run e c) := rel_run (trapped_push c)

theorem trapped_setDnsDarwin (c : Cfg) : Rel Trapped (setDnsDarwin c) := by
  refine rel_bind preTrapped ?_ fun _ => rel_bind preTrapped (rel_get preTrapped) fun s => rel_forEach preTrapped (fun x => ?_) _
  · refine rel_bind preTrapped (trapped_call _) fun r => rel_bind preTrapped (rel_forEach preTrapped (fun x => ?_) _) fun _ => rel_modify fun s => rfl
    refine rel_ite (fun _ => rel_exit preTrapped _) fun _ => ?_
    refine rel_bind preTrapped (rel_get preTrapped) fun s => rel_ite (fun _ => rel_pure preTrapped _) fun _ => ?_
    refine rel_bind preTrapped (trapped_call _) fun r => rel_ite (fun _ => rel_exit preTrapped _) fun _ => ?_
    refine rel_bind preTrapped (rel_ite (fun _ => rel_pure preTrapped _) fun _ => rel_modify fun s => rfl) fun _ => ?_
    refine rel_bind preTrapped (trapped_call _) fun r => rel_ite (fun _ => rel_exit preTrapped _) fun _ => ?_
    exact rel_ite (fun _ => rel_pure preTrapped _) fun _ => rel_modify fun s => rfl
  · exact rel_bind preTrapped (trapped_call _) fun r => rel_ite (fun _ => rel_pure preTrapped _) fun _ => trapped_run _ _

theorem trapped_setMtuDarwin (c : Cfg) (h : c.plat = .darwin) : Rel Trapped (setMtu c) := by
  refine rel_bind preTrapped (rel_get preTrapped) fun s => rel_ite (fun _ => trapped_run _ _) fun _ => ?_
  rw [if_pos h]
  refine rel_bind preTrapped (trapped_call _) fun r => ?_
  refine rel_bind preTrapped (rel_ite (fun _ => rel_pure preTrapped _) fun _ => rel_bind preTrapped (trapped_call _) fun _ => rel_pure preTrapped _) fun _ => ?_
  exact rel_bind preTrapped (trapped_call _) fun r => rel_ite (fun _ => rel_pure preTrapped _) fun _ => trapped_run _ _

theorem trapped_drop (all : Bool) (old : List CStr) : Rel Trapped (forEach (dropDirect all) old) := by
  intro w s
  have := frame_drop all old w s
  unfold Trapped
  rw [this]

theorem trapped_add (all : Bool) (old es added : List CStr) : Rel Trapped (addDirect all old added es) := by
  induction es generalizing added with
  | nil => exact rel_pure preTrapped _
  | cons e es ih =>
    unfold addDirect
    refine rel_ite (fun _ => ih _) fun _ => rel_bind preTrapped (rel_get preTrapped) fun s => ?_
    cases directFam s e with
    | none => exact ih _
    | some fam => exact rel_bind preTrapped (trapped_run _ _) fun _ => ih _

theorem trapped_setDirect (c : Cfg) : Rel Trapped (setDirect c) := by
  refine rel_bind preTrapped (rel_get preTrapped) fun s0 => rel_bind preTrapped ?_ fun _ => rel_bind preTrapped ?_ fun _ =>
    rel_bind preTrapped (rel_get preTrapped) fun s => rel_bind preTrapped (trapped_drop _ _) fun _ => rel_bind preTrapped (trapped_add _ _ _ _) fun _ => rel_modify fun s => rfl
  · exact rel_bind preTrapped (trapped_call _) fun _ => rel_bind preTrapped (rel_modify fun s => rfl) fun _ => rel_bind preTrapped (trapped_call _) fun _ => rel_modify fun s => rfl
  · exact rel_bind preTrapped (rel_get preTrapped) fun _ => rel_bind preTrapped (rel_modify fun s => rfl) fun _ => rel_bind preTrapped (trapped_call _) fun _ => rel_modify fun s => rfl

theorem trapped_directIfAuto (c : Cfg) : Rel Trapped (directIfAuto c) :=
  rel_bind preTrapped (rel_get preTrapped) fun _ => rel_ite (fun _ => trapped_setDirect c) fun _ => rel_pure preTrapped _

theorem trapped_monitorDarwin (c : Cfg) : Rel Trapped (monitorDarwin c) := by
  unfold monitorDarwin
  cases h : c.plat with
  | freebsd => exact rel_pure preTrapped _
  | openbsd => exact rel_pure preTrapped _
  | darwin =>
    refine rel_bind preTrapped (rel_ite (fun _ => trapped_setMtuDarwin c h) fun _ => rel_pure preTrapped _) fun _ => ?_
    exact rel_ite (fun _ => rel_pure preTrapped _) fun _ => trapped_setDnsDarwin c

theorem trapped_monitorAlarm (c : Cfg) : Rel Trapped (monitorAlarm c) := by
  unfold monitorAlarm
  cases c.plat with
  | freebsd => exact rel_pure preTrapped _
  | openbsd => exact rel_pure preTrapped _
  | darwin =>
    refine rel_ite (fun _ => rel_pure preTrapped _) fun _ => rel_bind preTrapped (trapped_call _) fun r => ?_
    exact rel_ite (fun _ => trapped_setDnsDarwin c) fun _ => rel_pure preTrapped _

theorem trapped_loop (c : Cfg) (n : Nat) : Rel Trapped (monitorLoop c n) := by
  induction n with
  | zero => exact rel_giveUp preTrapped
  | succ n ih =>
    refine rel_bind preTrapped ?_ fun b => ?_
    · refine rel_bind preTrapped (trapped_monitorAlarm c) fun _ => rel_bind preTrapped (trapped_call _) fun r => ?_
      refine rel_ite (fun _ => rel_pure preTrapped _) fun _ => rel_ite (fun _ => ?_) fun _ => rel_pure preTrapped _
      refine rel_bind preTrapped (rel_get preTrapped) fun s => rel_bind preTrapped (trapped_call _) fun i => rel_ite (fun _ => rel_pure preTrapped _) fun _ => ?_
      exact rel_bind preTrapped (trapped_directIfAuto c) fun _ => rel_bind preTrapped (trapped_monitorDarwin c) fun _ => rel_pure preTrapped _
    · cases b with
      | true => exact ih
      | false => exact rel_pure preTrapped _

/-- The temporary directory can be made. -/
def TempOk (w : World) : Prop := ∀ h, (w h (act [b!"mktemp", b!"-d"])).sig = false ∧ ∀ x, (w h (.query [b!"test", b!"-d", x])).sig = false ∧ (w h (.query [b!"test", b!"-d", x])).status = 0

theorem monitor_trap {c : Cfg} {w : World} (ht : c.plat = .freebsd → TempOk w) (n : Nat) (s : St) : (monitor c n w s).2.trap = .daemon := by
  have hp : ∃ s1, (if c.plat = .freebsd then makeTemp else Sh.pure ()) w s = (.ok (), s1) := by
    by_cases h : c.plat = .freebsd
    · rw [if_pos h]
      have ht := ht h
      unfold makeTemp
      rw [bind_of_ok (a := w s.hist (act [b!"mktemp", b!"-d"])) (s1 := push s _ _) (by rw [call_eq, (ht _).1]; rfl)]
      rw [bind_of_ok (m := call _) (a := w (push s _ _).hist (.query [b!"test", b!"-d", WG.Quick.chomp (w s.hist (act [b!"mktemp", b!"-d"])).out])) (s1 := push _ _ _)
        (by rw [call_eq, ((ht _).2 _).1]; rfl)]
      rw [((ht _).2 _).2, if_neg (by simp)]
      exact ⟨_, rfl⟩
    · rw [if_neg h]; exact ⟨s, rfl⟩
  obtain ⟨s1, h1⟩ := hp
  unfold monitor
  rw [bind_of_ok h1, setTrap_bind]
  have : Rel Trapped ((call (act [b!"route", b!"-n", b!"monitor", b!"&"])).bind fun _ => (monitorLoop c n).bind fun _ => run true (act [b!"kill", b!"route", b!"-n", b!"monitor"])) :=
    rel_bind preTrapped (trapped_call _) fun _ => rel_bind preTrapped (trapped_loop c n) fun _ => trapped_run _ _
  exact this w _

/-- The history only grows. -/
theorem adds_monitor (c : Cfg) (n : Nat) : Adds (fun _ => True) (monitor c n) := by
  refine adds_bind (adds_ite (fun _ => ?_) fun _ => adds_pure _) fun _ => adds_bind (adds_modify fun _ => rfl) fun _ =>
    adds_bind (adds_call trivial) fun _ => adds_bind ?_ fun _ => adds_run trivial
  · exact adds_bind (adds_call trivial) fun _ => adds_bind (adds_call trivial) fun _ => adds_ite (fun _ => adds_exit _) fun _ => adds_modify fun _ => rfl
  · have hd : Adds (fun _ => True) (setDnsDarwin c) := by
      refine adds_bind ?_ fun _ => adds_bind adds_get fun s => adds_forEach (fun x => ?_) _
      · refine adds_bind (adds_call trivial) fun r => adds_bind (adds_forEach (fun x => ?_) _) fun _ => adds_modify fun _ => rfl
        refine adds_ite (fun _ => adds_exit _) fun _ => ?_
        refine adds_bind adds_get fun s => adds_ite (fun _ => adds_pure _) fun _ => adds_bind (adds_call trivial) fun r => adds_ite (fun _ => adds_exit _) fun _ => ?_
        refine adds_bind (adds_ite (fun _ => adds_pure _) fun _ => adds_modify fun _ => rfl) fun _ => adds_bind (adds_call trivial) fun r => ?_
        exact adds_ite (fun _ => adds_exit _) fun _ => adds_ite (fun _ => adds_pure _) fun _ => adds_modify fun _ => rfl
      · exact adds_bind (adds_call trivial) fun r => adds_ite (fun _ => adds_pure _) fun _ => adds_run trivial
    have hdir : Adds (fun _ => True) (directIfAuto c) := by
      refine adds_bind adds_get fun s => adds_ite (fun _ => ?_) fun _ => adds_pure _
      refine adds_bind adds_get fun s0 => adds_bind ?_ fun _ => adds_bind ?_ fun _ => adds_bind adds_get fun s => ?_
      · exact adds_bind (adds_call trivial) fun _ => adds_bind (adds_modify fun _ => rfl) fun _ => adds_bind (adds_call trivial) fun _ => adds_modify fun _ => rfl
      · exact adds_bind adds_get fun _ => adds_bind (adds_modify fun _ => rfl) fun _ => adds_bind (adds_call trivial) fun _ => adds_modify fun _ => rfl
      · refine adds_bind (fun w s => ?_) fun _ => adds_bind (fun w s => ?_) fun _ => adds_modify fun _ => rfl
        · obtain ⟨b, hb, _⟩ := adds_forEach (fun e => adds_dropDirect [] _ e) _ w s
          exact ⟨b, hb, fun _ _ => trivial⟩
        · obtain ⟨b, hb, _⟩ := adds_addDirect [] _ _ _ _ w s
          exact ⟨b, hb, fun _ _ => trivial⟩
    have hdar : Adds (fun _ => True) (monitorDarwin c) := by
      unfold monitorDarwin
      cases hp : c.plat with
      | freebsd => exact adds_pure _
      | openbsd => exact adds_pure _
      | darwin =>
        refine adds_bind (adds_ite (fun _ => ?_) fun _ => adds_pure _) fun _ => adds_ite (fun _ => adds_pure _) fun _ => hd
        refine adds_bind adds_get fun s => adds_ite (fun _ => adds_run trivial) fun _ => ?_
        rw [if_pos hp]
        refine adds_bind (adds_call trivial) fun r => adds_bind (adds_ite (fun _ => adds_pure _) fun _ => adds_bind (adds_call trivial) fun _ => adds_pure _) fun _ => ?_
        exact adds_bind (adds_call trivial) fun r => adds_ite (fun _ => adds_pure _) fun _ => adds_run trivial
    have hal : Adds (fun _ => True) (monitorAlarm c) := by
      unfold monitorAlarm
      cases c.plat with
      | freebsd => exact adds_pure _
      | openbsd => exact adds_pure _
      | darwin => exact adds_ite (fun _ => adds_pure _) fun _ => adds_bind (adds_call trivial) fun r => adds_ite (fun _ => hd) fun _ => adds_pure _
    induction n with
    | zero => exact adds_giveUp
    | succ n ih =>
      refine adds_bind ?_ fun b => ?_
      · refine adds_bind hal fun _ => adds_bind (adds_call trivial) fun r => adds_ite (fun _ => adds_pure _) fun _ => adds_ite (fun _ => ?_) fun _ => adds_pure _
        refine adds_bind adds_get fun s => adds_bind (adds_call trivial) fun i => adds_ite (fun _ => adds_pure _) fun _ => ?_
        exact adds_bind hdir fun _ => adds_bind hdar fun _ => adds_pure _
      · cases b with
        | true => exact ih
        | false => exact adds_pure _

end WG.Bsd
