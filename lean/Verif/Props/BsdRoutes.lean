import Verif.Proof.BsdWhole
/-!
C76, C77: on the BSDs, the routes to the endpoints that `up` makes and the monitor keeps, and that they are gone at its end.
-/
namespace WG.Props
open WG.Bsd WG.Spec.Quick WG.Spec.Bsd
open WG.Quick (Call Reply Ev World Out)

section
variable {c : Cfg} {f : Family} {d : List UInt8} {v : Option Via} {w : World} {s1 : St}

/-- After a successful `up`, if there is a default route of a family, then every endpoint of the family has its route through the
gateway, and no other host's route is changed. -/
theorem c76_up (hsort : ∀ l, (c.sort l).Perm l) (hd : Host d) (hf : f.Has d) (hk : KeepsRoute f.flag d v w) (hv : NoClash d v w)
    (h : commands c (cmdUp c) w (St.start c) = (.ok (), s1)) : RouteRight c s1.real f d v s1.hist := by
  obtain ⟨h1, q, h2, h3⟩ := up_calm hk hf hd hsort hv h
  exact right_of_calm hf h1 h2 h3

theorem fresh_of (hv : NoClash d v w) (real : List UInt8) : Fresh d v w real := by
  rcases hv with h | h
  · exact .inl h
  · exact .inr fun x => h x _ _ (hostsShown _)

/-- The same holds whenever the monitor waits for the next event, after any number of them, and when it ends other than by a signal:
gateways and endpoints are those it saw last. -/
theorem c76_monitor (hsort : ∀ l, (c.sort l).Perm l) (hd : Host d) (hf : f.Has d) (hk : KeepsRoute f.flag d v w) (hv : NoClash d v w)
    (h : commands c (cmdUp c) w (St.start c) = (.ok (), s1)) {w' : World} (hk' : KeepsRoute f.flag d v w') (hv' : NoClash d v w')
    (n : Nat) {o : Out Unit} {s2 : St} (hm : monitor c n w' { s1 with trap := .none } = (o, s2)) (ho : ∀ m, o ≠ .signal m) :
    RouteRight c s2.real f d v s2.hist := by
  obtain ⟨h1, q, h2, h3⟩ := up_calm hk hf hd hsort hv h
  have h1' : Calm c f d v { s1 with trap := .none } := h1.late ⟨⟨rfl, rfl, rfl, rfl, rfl, rfl, rfl⟩, [], by simp, by simp⟩
  have a := monitor_after hk' hf (host_plainly hd) n (fresh_of hv' _) h1' hm
  have hg : ∃ b, s2.hist = s1.hist ++ b := by
    obtain ⟨b, hb, _⟩ := adds_monitor c n w' { s1 with trap := .none }
    rw [hm] at hb
    exact ⟨b, hb⟩
  obtain ⟨b, hb⟩ := hg
  have hc2 := a.calm (by cases o with | signal m => exact absurd rfl (ho m) | ok _ => exact id | exit _ => exact id | running => exact id)
  have e1 : s2.real = s1.real := a.real
  refine right_of_calm hf hc2 (q := q) ?_ ?_
  · rw [e1, hb]; exact List.mem_append_left _ h2
  · have : s2.auto f = s1.auto f := auto_same a.auto4 a.auto6
    rw [this]; exact h3

/-- When the monitor has ended, whether its loop ended, a command failed or a signal came (but not while it was listing the endpoints or
deleting a route), every host has the route it had before `up`. -/
theorem c77_end (hsort : ∀ l, (c.sort l).Perm l) (hd : Host d) (hf : f.Has d) (hk : KeepsRoute f.flag d v w) (hv : NoClash d v w)
    (h : commands c (cmdUp c) w (St.start c) = (.ok (), s1)) (hreal : s1.real ≠ []) {w' : World} (hk' : KeepsRoute f.flag d v w') (hv' : NoClash d v w')
    (hown : v = none ∨ ∀ h, ¬ ListsOwn f s1.real (w' h (netstatOf f)).out d) (hsig : NotInterrupted w')
    (htmp : c.plat = .freebsd → ∀ h, (w' h (cmd [b!"mktemp", b!"-d"])).sig = false ∧
      ∀ x, (w' h (.query [b!"test", b!"-d", x])).sig = false ∧ (w' h (.query [b!"test", b!"-d", x])).status = 0)
    (n : Nat) {e : End} {s2 : St} (hm : daemon c n w' s1 = (e, s2)) (he : e ≠ .running) :
    routeAfter f.flag d v s2.hist = v := by
  obtain ⟨h1, q, h2, h3⟩ := up_calm hk hf hd hsort hv h
  have h1' : Calm c f d v { s1 with trap := .none } := h1.late ⟨⟨rfl, rfl, rfl, rfl, rfl, rfl, rfl⟩, [], by simp, by simp⟩
  unfold daemon at hm
  rcases hmon : monitor c n w' { s1 with trap := .none } with ⟨o, s3⟩
  rw [hmon] at hm
  have a := monitor_after hk' hf (host_plainly hd) n (fresh_of hv' _) h1' hmon
  have ht : s3.trap = .daemon := by
    have := monitor_trap (w := w') htmp n { s1 with trap := .none }
    rw [hmon] at this
    exact this
  have hc3 : Clean f d v s3 := a.clean fun x => ⟨(hsig x).1 _, (hsig x).2⟩
  have hr3 : s3.real ≠ [] := by rw [a.real]; exact hreal
  have ho3 : NotOwn f d v w' s3.real := by rw [a.real]; exact hown
  cases o with
  | ok u => exact daemonExit hk' hf hd.1 ht hr3 ho3 hc3 0 hm
  | exit m => exact daemonExit hk' hf hd.1 ht hr3 ho3 hc3 m hm
  | running =>
    unfold finish at hm
    simp only [Prod.mk.injEq] at hm
    exact absurd hm.1.symm he
  | signal m =>
    unfold finish at hm
    dsimp only at hm
    rw [ht] at hm
    dsimp only at hm
    rcases h4 : trapBody c .daemon (WG.Quick.calm w') s3 with ⟨o4, s4⟩
    rw [h4] at hm
    obtain ⟨g1, g2, g3, g4⟩ := daemonTrap hk' hf hd.1 hr3 ho3 hc3 h4
    have hr4 : s4.real ≠ [] := by rw [g1]; exact hr3
    have ho4 : NotOwn f d v w' s4.real := by rw [g1]; exact ho3
    cases o4 with
    | ok u => exact daemonExit hk' hf hd.1 (g4.trans ht) hr4 ho4 g2 _ hm
    | exit k => exact daemonExit hk' hf hd.1 (g4.trans ht) hr4 ho4 g2 _ hm
    | signal k => exact daemonExit hk' hf hd.1 (g4.trans ht) hr4 ho4 g2 _ hm
    | running =>
      simp only [Prod.mk.injEq] at hm
      exact absurd hm.1.symm he

end
end WG.Props

namespace WG.Props
open WG.Bsd WG.Spec.Quick WG.Spec.Bsd
open WG.Quick (Call Reply Ev World Out)

/-! ### Examples -/

theorem pairOf {α β : Type} {p : α × β} {a : α} (h : p.1 = a) : p = (a, p.2) := by cases p; cases h; rfl

/-- A system that keeps the routes it is told, beginning with those of `init`, and answers everything else as `other`. -/
def exKeeper (init : List UInt8 → List UInt8 → Option Via) (other : World) : World := fun h c =>
  match c with
  | .act (p :: q :: n :: op :: fam :: dest :: _) [] =>
    if [p, q, n, op] = [b!"route", b!"-q", b!"-n", b!"add"] then { status := if routeAfter fam dest (init fam dest) h = none then 0 else 1 }
    else if c = deleteCmd fam dest then { status := if routeAfter fam dest (init fam dest) h = none then 1 else 0 }
    else other h c
  | _ => other h c

theorem exKeeper_keeps (init : List UInt8 → List UInt8 → Option Via) (other : World) (fam dest : List UInt8) :
    KeepsRoute fam dest (init fam dest) (exKeeper init other) := by
  intro h
  constructor
  · have : exKeeper init other h (deleteCmd fam dest) = { status := if routeAfter fam dest (init fam dest) h = none then 1 else 0 } := by
      unfold exKeeper deleteCmd cmd
      dsimp only
      rw [if_neg (by simp), if_pos rfl]
    rw [this]
    by_cases h2 : routeAfter fam dest (init fam dest) h = none <;> simp [h2]
  · intro via
    have : exKeeper init other h (addCmd fam dest via) = { status := if routeAfter fam dest (init fam dest) h = none then 0 else 1 } := by
      unfold exKeeper addCmd cmd
      dsimp only [List.cons_append]
      rw [if_pos rfl]
    rw [this]
    by_cases h2 : routeAfter fam dest (init fam dest) h = none <;> simp [h2]

/-- How often a question was asked. -/
def exCount (c : Call) (h : List Ev) : Nat := (h.filter fun e => decide (e.1 = c)).length

/-- OpenBSD, a default route; the gateway and the endpoint are those of the lists, by turns. -/
def exOther (gws eps : List (List UInt8)) (allowed : List UInt8) (events : Nat) : World := fun h c =>
  if c = netstatOf .v4 then { status := 0, out := b!"Destination Gateway Flags Refs Use Iface\ndefault " ++ (gws[exCount c h]?).getD [] ++ b!" UGS 5 10 em0\n10.7.0.0/24 10.7.0.2 U 0 0 wg0\n" }
  else if c = endpointsOf b!"wg0" then { status := 0, out := b!"key " ++ (eps[exCount c h]?).getD [] ++ b!"\n" }
  else if c = allowedOf b!"wg0" then { status := 0, out := b!"key " ++ allowed ++ b!"\n" }
  else if c = .query [b!"read", b!"-u", b!"19"] then (if exCount c h < events then { status := 0, out := b!"RTM_ADD: Add Route" } else { status := 1 })
  else { status := 0 }

def exBsd : Cfg :=
  { plat := .openbsd, iface := b!"tun", file := b!"/etc/wireguard/tun.conf", opts := { wgConfig := b!"[Peer]\n", mtu := b!"1420", addresses := [b!"10.7.0.2/24"] },
    userspace := b!"wireguard-go", sort := id, patsub := false, order := id, patience := 3 }

def exGateways : List (List UInt8) := [b!"10.0.0.1", b!"10.0.0.9", b!"10.0.0.9"]
def exEndpoints : List (List UInt8) := [b!"192.0.2.1:51820", b!"192.0.2.1:51820", b!"198.51.100.7:51820"]
def exRun (other : World) : World := exKeeper (fun _ _ => none) other
def exUp (init : List UInt8 → List UInt8 → Option Via) (other : World) : Out Unit × St := commands exBsd (cmdUp exBsd) (exKeeper init other) (St.start exBsd)

/-- Successful `up` with a default route, two events of the monitor: the gateway changes, then the endpoint. -/
example : (∀ l, (exBsd.sort l).Perm l) ∧ Host b!"192.0.2.1" ∧ Family.v4.Has b!"192.0.2.1" ∧
    (∀ d, KeepsRoute Family.v4.flag d none (exRun (exOther exGateways exEndpoints b!"0.0.0.0/0" 2))) ∧
    (exUp (fun _ _ => none) (exOther exGateways exEndpoints b!"0.0.0.0/0" 2)).1 = .ok () ∧
    (let s1 := (exUp (fun _ _ => none) (exOther exGateways exEndpoints b!"0.0.0.0/0" 2)).2
     let w := exRun (exOther exGateways exEndpoints b!"0.0.0.0/0" 2)
     s1.real = b!"wg0" ∧
     routeAfter b!"-inet" b!"192.0.2.1" none s1.hist = some [b!"-gateway", b!"10.0.0.1"] ∧
     (monitor exBsd 1 w { s1 with trap := .none }).1 = .running ∧
     routeAfter b!"-inet" b!"192.0.2.1" none (monitor exBsd 1 w { s1 with trap := .none }).2.hist = some [b!"-gateway", b!"10.0.0.9"] ∧
     (monitor exBsd 2 w { s1 with trap := .none }).1 = .running ∧
     routeAfter b!"-inet" b!"192.0.2.1" none (monitor exBsd 2 w { s1 with trap := .none }).2.hist = none ∧
     routeAfter b!"-inet" b!"198.51.100.7" none (monitor exBsd 2 w { s1 with trap := .none }).2.hist = some [b!"-gateway", b!"10.0.0.9"] ∧
     (daemon exBsd 3 w s1).1 = .exit 0 ∧
     routeAfter b!"-inet" b!"198.51.100.7" none (daemon exBsd 3 w s1).2.hist = none) := by
  refine ⟨fun l => List.Perm.refl l, ⟨by decide, by decide⟩, by unfold Family.Has; decide, fun d => exKeeper_keeps (fun _ _ => none) _ _ _, ?_⟩
  decide +kernel

/-- The user has a route to `d` only. -/
def exInit (d : List UInt8) (v : Via) : List UInt8 → List UInt8 → Option Via := fun _ x => if x = d then some v else none

/-- The user's own route to a host that is an endpoint: `up` replaces it, and at the end it is gone. `NoClash` is needed. -/
theorem c77_counterexample_user_route : ∃ (w : World) (d : List UInt8) (v : Option Via),
    KeepsRoute Family.v4.flag d v w ∧ v ≠ none ∧
    ∃ s1, commands exBsd (cmdUp exBsd) w (St.start exBsd) = (.ok (), s1) ∧
      routeAfter Family.v4.flag d v s1.hist = some [b!"-gateway", b!"10.0.0.1"] ∧
      ∃ s2, daemon exBsd 1 w s1 = (.exit 0, s2) ∧ routeAfter Family.v4.flag d v s2.hist = none := by
  refine ⟨exKeeper (exInit b!"192.0.2.1" [b!"10.9.9.9"]) (exOther exGateways exEndpoints b!"0.0.0.0/0" 0), b!"192.0.2.1", some [b!"10.9.9.9"],
    by simpa [exInit] using exKeeper_keeps (exInit b!"192.0.2.1" [b!"10.9.9.9"]) _ _ b!"192.0.2.1", by simp, ?_⟩
  refine ⟨(commands exBsd (cmdUp exBsd) (exKeeper (exInit b!"192.0.2.1" [b!"10.9.9.9"]) (exOther exGateways exEndpoints b!"0.0.0.0/0" 0)) (St.start exBsd)).2, ?_, ?_, ?_⟩
  · exact pairOf (by decide +kernel)
  · decide +kernel
  · refine ⟨(daemon exBsd 1 (exKeeper (exInit b!"192.0.2.1" [b!"10.9.9.9"]) (exOther exGateways exEndpoints b!"0.0.0.0/0" 0))
      (commands exBsd (cmdUp exBsd) (exKeeper (exInit b!"192.0.2.1" [b!"10.9.9.9"]) (exOther exGateways exEndpoints b!"0.0.0.0/0" 0)) (St.start exBsd)).2).2, ?_, by decide +kernel⟩
    exact pairOf (by decide +kernel)

/-- Only IPv4 has a default route, the endpoint has an IPv6 address: a route to it is requested with `-inet`, and at the end the user's
own IPv6 route to it is deleted. -/
theorem c77_counterexample_v6 : ∃ (w : World) (d : List UInt8) (v : Option Via),
    KeepsRoute Family.v6.flag d v w ∧ v ≠ none ∧
    ∃ s1, commands exBsd (cmdUp exBsd) w (St.start exBsd) = (.ok (), s1) ∧
      (∃ r, (addCmd b!"-inet" d [b!"-gateway", b!"10.0.0.1"], r) ∈ s1.hist) ∧
      routeAfter Family.v6.flag d v s1.hist = v ∧
      ∃ s2, daemon exBsd 1 w s1 = (.exit 0, s2) ∧ routeAfter Family.v6.flag d v s2.hist = none := by
  refine ⟨exKeeper (exInit b!"2001:db8::1" [b!"fe80::1"]) (exOther exGateways [b!"[2001:db8::1]:51820"] b!"0.0.0.0/0" 0), b!"2001:db8::1", some [b!"fe80::1"],
    by simpa [exInit] using exKeeper_keeps (exInit b!"2001:db8::1" [b!"fe80::1"]) _ _ b!"2001:db8::1", by simp, ?_⟩
  refine ⟨(commands exBsd (cmdUp exBsd) (exKeeper (exInit b!"2001:db8::1" [b!"fe80::1"]) (exOther exGateways [b!"[2001:db8::1]:51820"] b!"0.0.0.0/0" 0)) (St.start exBsd)).2, ?_, ?_, ?_, ?_⟩
  · exact pairOf (by decide +kernel)
  · exact ⟨{ status := 0 }, by decide +kernel⟩
  · decide +kernel
  · refine ⟨(daemon exBsd 1 (exKeeper (exInit b!"2001:db8::1" [b!"fe80::1"]) (exOther exGateways [b!"[2001:db8::1]:51820"] b!"0.0.0.0/0" 0))
      (commands exBsd (cmdUp exBsd) (exKeeper (exInit b!"2001:db8::1" [b!"fe80::1"]) (exOther exGateways [b!"[2001:db8::1]:51820"] b!"0.0.0.0/0" 0)) (St.start exBsd)).2).2, ?_, by decide +kernel⟩
    exact pairOf (by decide +kernel)

/-- A signal while the monitor lists the endpoints. -/
def exInterrupted : World := fun h c =>
  let r := exRun (exOther exGateways exEndpoints b!"0.0.0.0/0" 2) h c
  if c = endpointsOf b!"wg0" ∧ exCount c h = 1 then { r with sig := true, status := 0 } else r

/-- A signal that comes while the monitor lists the endpoints makes it forget the old ones: their routes stay. `NotInterrupted` is needed. -/
theorem c77_counterexample_interrupted : ∃ (w : World) (d : List UInt8), KeepsRoute Family.v4.flag d none w ∧
    ∃ s1, commands exBsd (cmdUp exBsd) w (St.start exBsd) = (.ok (), s1) ∧
      ∃ s2, daemon exBsd 3 w s1 = (.exit 0, s2) ∧ routeAfter Family.v4.flag d none s2.hist = some [b!"-gateway", b!"10.0.0.1"] := by
  refine ⟨exInterrupted, b!"192.0.2.1", ?_, ?_⟩
  · intro h
    have := exKeeper_keeps (fun _ _ => none) (exOther exGateways exEndpoints b!"0.0.0.0/0" 2) Family.v4.flag b!"192.0.2.1" h
    have e : ∀ c, c ≠ endpointsOf b!"wg0" → exInterrupted h c = exRun (exOther exGateways exEndpoints b!"0.0.0.0/0" 2) h c := by
      intro c hc
      unfold exInterrupted
      dsimp only
      rw [if_neg (fun h => hc h.1)]
    refine ⟨?_, fun via => ?_⟩
    · rw [e _ (by simp [deleteCmd, endpointsOf, cmd])]; exact this.1
    · rw [e _ (by simp [addCmd, endpointsOf, cmd])]; exact this.2 via
  · refine ⟨(commands exBsd (cmdUp exBsd) exInterrupted (St.start exBsd)).2, ?_, ?_⟩
    · exact pairOf (by decide +kernel)
    · refine ⟨(daemon exBsd 3 exInterrupted (commands exBsd (cmdUp exBsd) exInterrupted (St.start exBsd)).2).2, ?_, by decide +kernel⟩
      exact pairOf (by decide +kernel)

/-- FreeBSD: like `exOther`, the interface does not exist yet, and only the first temporary directory can be made. -/
def exFree : Cfg := { exBsd with plat := .freebsd, iface := b!"wg0" }

def exNoTemp : World := exKeeper (fun _ _ => none) fun h c =>
  if c = cmd [b!"mktemp", b!"-d"] then (if exCount c h = 0 then { status := 0, out := b!"/tmp/x\n" } else { status := 1 })
  else if c = .query [b!"test", b!"-d", []] then { status := 1 }
  else exOther exGateways exEndpoints b!"0.0.0.0/0" 2 h c

/-- FreeBSD: if the monitor cannot make its temporary directory, it dies without having set its trap, and the routes that `up` made stay. -/
theorem c77_counterexample_temp : ∃ (w : World) (d : List UInt8), KeepsRoute Family.v4.flag d none w ∧
    ∃ s1, commands exFree (cmdUp exFree) w (St.start exFree) = (.ok (), s1) ∧
      ∃ s2, daemon exFree 3 w s1 = (.exit 1, s2) ∧ routeAfter Family.v4.flag d none s2.hist = some [b!"-gateway", b!"10.0.0.1"] := by
  refine ⟨exNoTemp, b!"192.0.2.1", exKeeper_keeps (fun _ _ => none) _ _ _, ?_⟩
  refine ⟨(commands exFree (cmdUp exFree) exNoTemp (St.start exFree)).2, ?_, ?_⟩
  · exact pairOf (by decide +kernel)
  · refine ⟨(daemon exFree 3 exNoTemp (commands exFree (cmdUp exFree) exNoTemp (St.start exFree)).2).2, ?_, by decide +kernel⟩
    exact pairOf (by decide +kernel)

/-- OpenBSD: the process that reads the routing messages ends (a failing `read`): the routes to the endpoints go although the
interface with its default route is still there. -/
theorem c76_counterexample_monitor_dies : ∃ (w : World) (d : List UInt8), KeepsRoute Family.v4.flag d none w ∧
    ∃ s1, commands exBsd (cmdUp exBsd) w (St.start exBsd) = (.ok (), s1) ∧
      routeAfter Family.v4.flag d none s1.hist = some [b!"-gateway", b!"10.0.0.1"] ∧
      ∃ s2, daemon exBsd 1 w s1 = (.exit 0, s2) ∧ routeAfter Family.v4.flag d none s2.hist = none ∧
        (∀ e ∈ s2.hist, e.1 ≠ cmd [b!"ifconfig", b!"wg0", b!"destroy"]) := by
  refine ⟨exKeeper (fun _ _ => none) (exOther exGateways exEndpoints b!"0.0.0.0/0" 0), b!"192.0.2.1", exKeeper_keeps (fun _ _ => none) _ _ _, ?_⟩
  refine ⟨(commands exBsd (cmdUp exBsd) (exKeeper (fun _ _ => none) (exOther exGateways exEndpoints b!"0.0.0.0/0" 0)) (St.start exBsd)).2, ?_, ?_, ?_⟩
  · exact pairOf (by decide +kernel)
  · decide +kernel
  · refine ⟨(daemon exBsd 1 (exKeeper (fun _ _ => none) (exOther exGateways exEndpoints b!"0.0.0.0/0" 0))
      (commands exBsd (cmdUp exBsd) (exKeeper (fun _ _ => none) (exOther exGateways exEndpoints b!"0.0.0.0/0" 0)) (St.start exBsd)).2).2, ?_, by decide +kernel, by decide +kernel⟩
    exact pairOf (by decide +kernel)

end WG.Props
