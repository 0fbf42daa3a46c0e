import Verif.Proof.BsdUpDone
import Verif.Spec.BsdDown
/-! Taking an interface down on the BSDs. -/
namespace WG.Bsd
open WG.Quick (Call Reply Ev World Out calm chomp readLoopLines afterFirst hasInfix isDig mtuIn wordsAux suffixes isDig_eq hasInfix_iff chomp_eq
  mtuIn_iff mtuIn_none endedLines_iff blankWords endpointHost collected_filterMap remainder_sound)
open WG.Spec WG.Spec.Quick WG.Spec.Bsd

theorem waitGone_ok {c : Cfg} (n : Nat) {w : World} {s s' : St} {u : Unit} (h : waitGone c n w s = (.ok u, s')) : ∃ l, WaitedGone c l ∧ s' = plus s l := by
  induction n generalizing s with
  | zero => exact (giveUp_ok h).elim
  | succ n ih =>
    unfold waitGone at h
    obtain ⟨r, s1, h1, h⟩ := bind_ok h
    obtain rfl := call_plus h1
    by_cases hr : r.status = 0
    · rw [if_pos hr] at h
      obtain ⟨_, s2, h2, h⟩ := bind_ok h
      obtain ⟨e, he, rfl⟩ := run_did h2
      obtain ⟨l, hl, rfl⟩ := ih h
      exact ⟨_, .wait hr he hl, by rw [plus_plus, plus_plus]; rfl⟩
    · rw [if_neg hr] at h
      obtain ⟨_, rfl⟩ := pure_inv h
      exact ⟨_, .gone hr, rfl⟩

theorem unsetDnsOpenbsd_ok {c : Cfg} {w : World} {s s' : St} {u : Unit} (h : unsetDnsOpenbsd c w s = (.ok u, s')) : ∃ l, ResolvRestored c s.real l ∧ s' = plus s l := by
  unfold unsetDnsOpenbsd at h
  obtain ⟨t, s1, h1, h⟩ := bind_ok h
  obtain rfl := call_plus h1
  by_cases ht : t.status = 0
  · rw [if_neg (by simpa using ht), get_bind] at h
    obtain ⟨_, s2, h2, h⟩ := bind_ok h
    obtain ⟨n, hn, rfl⟩ := run_did h2
    obtain ⟨m, hm, rfl⟩ := run_did h
    exact ⟨_, ⟨t, [n, m], rfl, .inr ⟨ht, n, m, hn, hm, rfl⟩⟩, by rw [plus_plus, plus_plus]; rfl⟩
  · rw [if_pos ht] at h
    obtain ⟨_, rfl⟩ := pure_inv h
    exact ⟨_, ⟨t, [], rfl, .inl ⟨ht, rfl⟩⟩, rfl⟩

theorem unsetDnsFreebsd_ok {c : Cfg} {w : World} {s s' : St} {u : Unit} (h : unsetDnsFreebsd c w s = (.ok u, s')) :
    ∃ l, (if c.opts.dns ≠ [] then ∃ e, Did (cmd [b!"resolvconf", b!"-d", c.iface]) e ∧ l = [e] else l = []) ∧ s' = plus s l := by
  unfold unsetDnsFreebsd at h
  by_cases hd : c.opts.dns = []
  · rw [if_pos hd] at h
    obtain ⟨_, rfl⟩ := pure_inv h
    exact ⟨[], by rw [if_neg (by simpa using hd)], (plus_nil _).symm⟩
  · rw [if_neg hd] at h
    obtain ⟨e, he, rfl⟩ := run_did h
    exact ⟨_, by rw [if_pos hd]; exact ⟨e, he, rfl⟩, rfl⟩

theorem delIf_ok {c : Cfg} {w : World} {s s' : St} {u : Unit} (h : delIf c w s = (.ok u, s')) : ∃ l, IfRemoved c s.real s.haveDns l ∧ s' = plus s l := by
  unfold delIf at h
  rw [get_bind] at h
  unfold IfRemoved
  cases hp : c.plat with
  | freebsd =>
    rw [hp] at h
    dsimp only at h
    obtain ⟨_, s1, h1, h⟩ := bind_ok h
    have k : ∃ l1, (if s.haveDns = true ∧ c.opts.dns ≠ [] then ∃ e, Did (cmd [b!"resolvconf", b!"-d", c.iface]) e ∧ l1 = [e] else l1 = []) ∧ s1 = plus s l1 := by
      by_cases hh : s.haveDns = true
      · rw [if_pos hh] at h1
        obtain ⟨l, h2, h3⟩ := unsetDnsFreebsd_ok h1
        refine ⟨l, ?_, h3⟩
        by_cases hd : c.opts.dns ≠ []
        · rw [if_pos hd] at h2; rw [if_pos ⟨hh, hd⟩]; exact h2
        · rw [if_neg hd] at h2; rw [if_neg (fun h => hd h.2)]; exact h2
      · rw [if_neg hh] at h1
        obtain ⟨_, rfl⟩ := pure_inv h1
        exact ⟨[], by rw [if_neg (fun h => hh h.1)], (plus_nil _).symm⟩
    obtain ⟨l1, p1, rfl⟩ := k
    obtain ⟨t, s2, h2, h⟩ := bind_ok h
    obtain rfl := call_plus h2
    obtain ⟨_, s3, h3, h⟩ := bind_ok h
    obtain ⟨l2, p2, rfl⟩ := waitGone_ok _ h
    have k2 : ∃ d, (if t.status = 0 then Did (cmd [b!"rm", b!"-f", sockOf c.iface]) d else Did (cmd [b!"ifconfig", c.iface, b!"destroy"]) d) ∧
        s3 = plus (plus (plus s l1) [(.query [b!"test", b!"-S", sockFile c.iface], t)]) [d] := by
      by_cases ht : t.status = 0
      · rw [if_pos ht] at h3
        obtain ⟨d, hd, q⟩ := run_did h3
        exact ⟨d, by rw [if_pos ht]; exact hd, q⟩
      · rw [if_neg ht] at h3
        obtain ⟨d, hd, q⟩ := run_did h3
        exact ⟨d, by rw [if_neg ht]; exact hd, q⟩
    obtain ⟨d, pd, rfl⟩ := k2
    refine ⟨_, ⟨l1, t, d, l2, rfl, p1, pd, p2⟩, ?_⟩
    simp only [plus_plus]
    simp [sockFile, sockOf]
  | openbsd =>
    rw [hp] at h
    dsimp only at h
    obtain ⟨_, s1, h1, h⟩ := bind_ok h
    obtain ⟨l1, p1, rfl⟩ := unsetDnsOpenbsd_ok h1
    by_cases hr : s.real = []
    · rw [if_pos hr] at h; exact (exitWith_ok h).elim
    · rw [if_neg hr] at h
      obtain ⟨d, hd, rfl⟩ := run_did h
      exact ⟨_, ⟨hr, l1, d, p1, hd, rfl⟩, plus_plus ..⟩
  | darwin =>
    rw [hp] at h
    dsimp only at h
    obtain ⟨_, s1, h1, h⟩ := bind_ok h
    obtain ⟨n, hn, rfl⟩ := run_did h
    by_cases hr : s.real = []
    · rw [if_pos hr] at h1
      obtain ⟨_, rfl⟩ := pure_inv h1
      exact ⟨_, ⟨[], n, by rw [if_pos hr], hn, rfl⟩, rfl⟩
    · rw [if_neg hr] at h1
      obtain ⟨e, he, rfl⟩ := run_did h1
      exact ⟨_, ⟨[e], n, by rw [if_neg hr]; exact ⟨e, he, rfl⟩, hn, rfl⟩, plus_plus ..⟩

theorem head_wordAt (l : CStr) {ws : List CStr} (h : Words blankSep l ws) : ws.head?.getD [] = wordAt 0 l := by
  rw [wordAt_of h, List.head?_eq_getElem?]

theorem ownRoutes4 (real out : CStr) : OwnRoutes .v4 real out ((readLoopLines out).filterMap (ownRoute4 real)) := by
  refine ⟨_, (endedLines_iff _ _).2 rfl, collected_filterMap (fun l d => ?_) _⟩
  unfold ownRoute4
  constructor
  · intro h
    split at h
    · rename_i h1
      simp only [Option.some.injEq] at h
      exact ⟨⟨_, blankWords l, by rw [← wordAt_of (blankWords l)]; exact h1⟩, _, blankWords l, by rw [head_wordAt _ (blankWords l), h]⟩
    · cases h
  · rintro ⟨⟨ws, h1, h2⟩, ws', h3, rfl⟩
    rw [← wordAt_of h1] at h2
    rw [if_pos h2, head_wordAt _ h3]

theorem ownRoutes6 (real out : CStr) : OwnRoutes .v6 real out ((readLoopLines out).filterMap (ownRoute6 real)) := by
  refine ⟨_, (endedLines_iff _ _).2 rfl, collected_filterMap (fun l d => ?_) _⟩
  unfold ownRoute6
  dsimp only
  constructor
  · intro h
    split at h
    · rename_i h1
      simp only [Option.some.injEq] at h
      refine ⟨⟨_, _, _, _, remainder_sound l, remainder_sound _, remainder_sound _, blankWords l, ?_⟩, _, blankWords l, by rw [head_wordAt _ (blankWords l), h]⟩
      rw [← wordAt_of (blankWords l), ← List.isPrefixOf_iff_prefix]
      exact h1
    · cases h
  · rintro ⟨⟨x, y, z, ws, h1, h2, h3, h4, h5⟩, ws', h6, rfl⟩
    obtain rfl := remainder_eq h1
    obtain rfl := remainder_eq h2
    obtain rfl := remainder_eq h3
    rw [← wordAt_of h4, ← List.isPrefixOf_iff_prefix] at h5
    rw [if_pos h5, head_wordAt _ h6]

theorem deletes_done (fam : CStr → CStr) (ds : List CStr) {w : World} {s s' : St} {u : Unit}
    (h : forEach (fun d => run false (routeDelete (fam d) d)) ds w s = (.ok u, s')) : ∃ l, l.map (·.1) = ds.map (fun d => deleteCmd (fam d) d) ∧ s' = plus s l := by
  induction ds generalizing s with
  | nil => obtain ⟨_, rfl⟩ := pure_inv h; exact ⟨[], rfl, (plus_nil _).symm⟩
  | cons d ds ih =>
    obtain ⟨_, s1, h1, h⟩ := bind_ok h
    obtain ⟨r, rfl⟩ := run_any h1
    obtain ⟨l, h2, rfl⟩ := ih h
    exact ⟨_, by rw [List.map_cons]; exact congrArg _ h2, plus_plus ..⟩

theorem delRoutes_done {c : Cfg} {w : World} {s s' : St} {u : Unit} (h : delRoutes c w s = (.ok u, s')) : ∃ l, RoutesRemoved c s.real s.endpoints l ∧ s' = plus s l := by
  unfold delRoutes at h
  rw [get_bind] at h
  unfold RoutesRemoved
  by_cases hp : c.plat ≠ .freebsd ∧ s.real = []
  · rw [if_pos hp] at h
    obtain ⟨_, rfl⟩ := pure_inv h
    exact ⟨[], by rw [if_pos hp], (plus_nil _).symm⟩
  · rw [if_neg hp] at h
    simp only [if_neg hp]
    obtain ⟨r4, s1, h1, h⟩ := bind_ok h
    obtain rfl := call_plus h1
    obtain ⟨_, s2, h2, h⟩ := bind_ok h
    obtain ⟨l4, p4, rfl⟩ := deletes_done (fun _ => b!"-inet") _ h2
    obtain ⟨r6, s3, h3, h⟩ := bind_ok h
    obtain rfl := call_plus h3
    obtain ⟨_, s4, h4, h⟩ := bind_ok h
    obtain ⟨l6, p6, rfl⟩ := deletes_done (fun _ => b!"-inet6") _ h4
    obtain ⟨le, pe, rfl⟩ := deletes_done famOf _ h
    refine ⟨_, ⟨r4, _, l4, r6, _, l6, le, rfl, ownRoutes4 _ _, p4, ownRoutes6 _ _, p6, ?_⟩, ?_⟩
    · rw [pe]
      simp only [famOf_flag]
    · simp only [plus_plus]
      simp [netstatOf]

theorem cleanIf_ok {c : Cfg} {w : World} {s s' : St} {u : Unit} (h : cleanIf c w s = (.ok u, s')) : ∃ l, TempRemoved c s.tmp l ∧ s' = plus s l := by
  unfold cleanIf at h
  unfold TempRemoved
  by_cases hp : c.plat = .freebsd
  · rw [if_pos hp] at h
    simp only [if_pos hp]
    unfold cleanTemp at h
    rw [get_bind] at h
    by_cases ht : s.tmp = []
    · rw [if_pos ht] at h; exact (exitWith_ok h).elim
    · rw [if_neg ht] at h
      obtain ⟨e, he, rfl⟩ := run_did h
      exact ⟨_, ⟨ht, e, he, rfl⟩, rfl⟩
  · rw [if_neg hp] at h
    obtain ⟨_, rfl⟩ := pure_inv h
    exact ⟨[], by rw [if_neg hp], (plus_nil _).symm⟩

theorem trapUp_ok {c : Cfg} {w : World} {s s' : St} {u : Unit} (h : trapBody c .up w s = (.ok u, s')) :
    ∃ l, Undone c s.real s.haveDns s.endpoints s.tmp l ∧ s' = plus s l := by
  unfold trapBody at h
  obtain ⟨_, s1, h1, h⟩ := bind_ok h
  obtain ⟨l1, p1, rfl⟩ := delIf_ok h1
  obtain ⟨_, s2, h2, h⟩ := bind_ok h
  obtain ⟨l2, p2, rfl⟩ := delRoutes_done h2
  obtain ⟨l3, p3, rfl⟩ := cleanIf_ok h
  exact ⟨_, ⟨l1, l2, l3, rfl, p1, p2, p3⟩, by simp only [plus_plus]; simp⟩

/-! ### Stopping -/

variable {α β : Type}

/-- An exit is not with status 0; it comes right after a failing command (among those added), or `Q` holds. Only the history changes. -/
def Halts (Q : St → Prop) (m : Sh α) : Prop := ∀ w s, ∃ l, (m w s).2 = plus s l ∧ ∀ n, (m w s).1 = .exit n → n ≠ 0 ∧ ((∃ pre e, l = pre ++ [e] ∧ e.2.status ≠ 0) ∨ Q s)

variable {Q : St → Prop}

theorem halts_pure (a : α) : Halts Q (Sh.pure a) := fun w s => ⟨[], (plus_nil _).symm, by intro n h; simp [Sh.pure] at h⟩
theorem halts_giveUp : Halts Q (giveUp : Sh α) := fun w s => ⟨[], (plus_nil _).symm, by intro n h; simp [giveUp] at h⟩
theorem halts_call (c : Call) : Halts Q (call c) := by
  intro w s
  rw [call_eq]
  refine ⟨[(c, w s.hist c)], rfl, ?_⟩
  intro n h
  dsimp only at h
  split at h <;> cases h
theorem halts_run (e : Bool) (c : Call) : Halts Q (run e c) := by
  intro w s
  rw [run_eq]
  refine ⟨[(c, w s.hist c)], rfl, ?_⟩
  intro n h
  dsimp only at h
  split at h
  · cases h
  · split at h
    · rename_i h2
      cases h
      exact ⟨h2.2, .inl ⟨[], _, rfl, h2.2⟩⟩
    · cases h
theorem halts_bind (hQ : ∀ s l, Q (plus s l) → Q s) {m : Sh α} {f : α → Sh β} (hm : Halts Q m) (hf : ∀ a, Halts Q (f a)) : Halts Q (m.bind f) := by
  intro w s
  obtain ⟨l1, e1, p1⟩ := hm w s
  unfold Sh.bind
  rcases h : m w s with ⟨o, s1⟩
  rw [h] at e1 p1
  dsimp only at e1 p1
  subst e1
  cases o with
  | ok a =>
    obtain ⟨l2, e2, p2⟩ := hf a w (plus s l1)
    refine ⟨l1 ++ l2, by dsimp only; rw [e2, plus_plus], fun n hn => ?_⟩
    obtain ⟨q1, q2⟩ := p2 n hn
    refine ⟨q1, ?_⟩
    rcases q2 with ⟨pre, e, rfl, q⟩ | q
    · exact .inl ⟨l1 ++ pre, e, by simp, q⟩
    · exact .inr (hQ _ _ q)
  | exit n =>
    refine ⟨l1, rfl, fun m hm => ?_⟩
    cases hm
    exact p1 n rfl
  | signal n => exact ⟨l1, rfl, fun m hm => by cases hm⟩
  | running => exact ⟨l1, rfl, fun m hm => by cases hm⟩
theorem halts_get_bind {f : St → Sh β} (hf : ∀ w s, ∃ l, (f s w s).2 = plus s l ∧ ∀ n, (f s w s).1 = .exit n → n ≠ 0 ∧ ((∃ pre e, l = pre ++ [e] ∧ e.2.status ≠ 0) ∨ Q s)) :
    Halts Q (get.bind f) := hf
theorem halts_forEach (hQ : ∀ s l, Q (plus s l) → Q s) {γ : Type} {f : γ → Sh Unit} (hf : ∀ x, Halts Q (f x)) (xs : List γ) : Halts Q (forEach f xs) := by
  induction xs with
  | nil => exact halts_pure _
  | cons x xs ih => exact halts_bind hQ (hf x) fun _ => ih

/-- No interface name (OpenBSD), no directory name (FreeBSD). -/
def Nameless (c : Cfg) (s : St) : Prop := (c.plat = .openbsd ∧ s.real = []) ∨ (c.plat = .freebsd ∧ s.tmp = [])

theorem nameless_plus (c : Cfg) (s : St) (l : List Ev) : Nameless c (plus s l) → Nameless c s := id

theorem halts_unsetOpenbsd (c : Cfg) : Halts Q (unsetDnsOpenbsd c) := by
  intro w s
  have : Halts (fun _ => False) (unsetDnsOpenbsd c) := by
    refine halts_bind (fun _ _ h => h) (halts_call _) fun t => ?_
    by_cases ht : t.status ≠ 0
    · rw [if_pos ht]; exact halts_pure _
    · rw [if_neg ht]
      refine halts_get_bind fun w s => ?_
      have h2 : Halts (fun _ => False) ((run true (act ([b!"route", b!"nameserver"] ++ if s.real = [] then [] else [s.real]))).bind fun _ =>
          run true (act [b!"mv", backupFile c, b!"/etc/resolv.conf"])) := halts_bind (fun _ _ h => h) (halts_run _ _) fun _ => halts_run _ _
      exact h2 w s
  obtain ⟨l, e, p⟩ := this w s
  exact ⟨l, e, fun n h => ⟨(p n h).1, (p n h).2.imp id False.elim⟩⟩

theorem halts_unsetFreebsd (c : Cfg) : Halts Q (unsetDnsFreebsd c) := by
  unfold unsetDnsFreebsd
  split
  · exact halts_pure _
  · exact halts_run _ _

theorem halts_waitGone (hQ : ∀ s l, Q (plus s l) → Q s) (c : Cfg) (n : Nat) : Halts Q (waitGone c n) := by
  induction n with
  | zero => exact halts_giveUp
  | succ n ih =>
    unfold waitGone
    refine halts_bind hQ (halts_call _) fun r => ?_
    by_cases hr : r.status = 0
    · rw [if_pos hr]; exact halts_bind hQ (halts_run _ _) fun _ => ih
    · rw [if_neg hr]; exact halts_pure _

theorem halts_delIf (c : Cfg) : Halts (Nameless c) (delIf c) := by
  have hQ := nameless_plus c
  refine halts_get_bind fun w s => ?_
  cases hp : c.plat with
  | freebsd =>
    refine halts_bind hQ (m := if s.haveDns = true then unsetDnsFreebsd c else Sh.pure ()) ?_ (fun _ => halts_bind hQ (halts_call _) fun t => halts_bind hQ ?_ fun _ => halts_waitGone hQ c _) w s
    · split
      · exact halts_unsetFreebsd c
      · exact halts_pure _
    · split
      · exact halts_run _ _
      · exact halts_run _ _
  | openbsd =>
    dsimp only
    by_cases hr : s.real = []
    · obtain ⟨l, e, p⟩ := halts_unsetOpenbsd (Q := Nameless c) c w s
      refine ⟨l, ?_, fun n hn => ?_⟩
      · unfold Sh.bind
        rcases h : unsetDnsOpenbsd c w s with ⟨o, s1⟩
        rw [h] at e
        cases o <;> simp_all [exitWith]
      · refine ⟨?_, .inr (.inl ⟨hp, hr⟩)⟩
        rcases h : ((unsetDnsOpenbsd c).bind fun _ => if s.real = [] then exitWith 1 else run true (act [b!"ifconfig", s.real, b!"destroy"])) w s with ⟨o, s1⟩
        rw [h] at hn
        cases hn
        rcases bind_inv h with ⟨a, s2, h1, h2⟩ | ⟨o1, h1, h2⟩
        · rw [if_pos hr] at h2
          simp only [exitWith, Prod.mk.injEq, Out.exit.injEq] at h2
          omega
        · cases o1 <;> first | exact h2.elim | skip
          have : _ = n := h2
          subst this
          exact (p _ (by rw [h1])).1
    · exact halts_bind hQ (halts_unsetOpenbsd c) (f := fun _ => if s.real = [] then exitWith 1 else run true (act [b!"ifconfig", s.real, b!"destroy"]))
        (fun _ => by rw [if_neg hr]; exact halts_run _ _) w s
  | darwin =>
    refine halts_bind hQ (m := if s.real = [] then Sh.pure () else run true (act [b!"rm", b!"-f", sockFile s.real])) ?_ (fun _ => halts_run _ _) w s
    split
    · exact halts_pure _
    · exact halts_run _ _

theorem halts_delRoutes (hQ : ∀ s l, Q (plus s l) → Q s) (c : Cfg) : Halts Q (delRoutes c) := by
  refine halts_get_bind fun w s => ?_
  have : Halts Q (if c.plat ≠ .freebsd ∧ s.real = [] then Sh.pure ()
    else
      (call (.query [b!"netstat", b!"-nr", b!"-f", b!"inet"])).bind fun r4 =>
      (forEach (fun d => run false (routeDelete b!"-inet" d)) ((readLoopLines r4.out).filterMap (ownRoute4 s.real))).bind fun _ =>
      (call (.query [b!"netstat", b!"-nr", b!"-f", b!"inet6"])).bind fun r6 =>
      (forEach (fun d => run false (routeDelete b!"-inet6" d)) ((readLoopLines r6.out).filterMap (ownRoute6 s.real))).bind fun _ =>
      forEach (fun d => run false (routeDelete (famOf d) d)) s.endpoints) := by
    split
    · exact halts_pure _
    · exact halts_bind hQ (halts_call _) fun _ => halts_bind hQ (halts_forEach hQ (fun _ => halts_run _ _) _) fun _ => halts_bind hQ (halts_call _) fun _ =>
        halts_bind hQ (halts_forEach hQ (fun _ => halts_run _ _) _) fun _ => halts_forEach hQ (fun _ => halts_run _ _) _
  exact this w s

theorem halts_cleanIf (c : Cfg) : Halts (Nameless c) (cleanIf c) := by
  unfold cleanIf
  by_cases hp : c.plat = .freebsd
  · rw [if_pos hp]
    refine halts_get_bind fun w s => ?_
    by_cases ht : s.tmp = []
    · rw [if_pos ht]
      refine ⟨[], (plus_nil _).symm, fun n hn => ?_⟩
      simp only [exitWith, Out.exit.injEq] at hn
      exact ⟨by omega, .inr (.inr ⟨hp, ht⟩)⟩
    · rw [if_neg ht]; exact halts_run _ _ w s
  · rw [if_neg hp]; exact halts_pure _

theorem halts_trapUp (c : Cfg) : Halts (Nameless c) (trapBody c .up) :=
  halts_bind (nameless_plus c) (halts_delIf c) fun _ => halts_bind (nameless_plus c) (halts_delRoutes (nameless_plus c) c) fun _ => halts_cleanIf c

end WG.Bsd
