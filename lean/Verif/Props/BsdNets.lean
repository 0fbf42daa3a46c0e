import Verif.Proof.BsdMtu
import Verif.Props.BsdUp
/-!
C78, C79: on the BSDs, the routes to the allowed IPs and the MTU after `up`.
-/
namespace WG.Props
open WG.Bsd WG.Spec.Quick WG.Spec.Bsd
open WG.Quick (Call Reply Ev World Out)

section
variable {c : Cfg} {w : World} {s s1 s2 : St}

/-- After a successful `up`: every allowed IP shown has its route through the interface, or it went there before; no other network's
route has changed; with another table every route has been added there. -/
theorem c78_up (hsort : ∀ l, (c.sort l).Perm l) (hord : ∀ l, (c.order l).Perm l) (h : commands c (cmdUp c) w (St.start c) = (.ok (), s)) :
    ∃ q routes, (allowedOf s.real, q) ∈ s.hist ∧ RoutesShown q.out routes ∧ OtherTable c s.real routes s.hist ∧
      ∀ f d v, f.Has d → c!"/" ∈ d → c!"." ∉ s.real → c!"+" ∉ s.real → NetRight c s.real routes f d v s.hist := by
  obtain ⟨dir, h⟩ := up_done hsort hord h
  exact upDone_nets hsort h

/-- The same in terms of the exit status. -/
theorem c78_exit (hsort : ∀ l, (c.sort l).Perm l) (hord : ∀ l, (c.order l).Perm l) (h : script c (cmdUp c) w = (.exit 0, s)) (hsig : ∀ v ∈ s.hist, v.2.sig = false) :
    ∃ real q routes, (allowedOf real, q) ∈ s.hist ∧ RoutesShown q.out routes ∧ OtherTable c real routes s.hist ∧
      ∀ f d v, f.Has d → c!"/" ∈ d → c!"." ∉ real → c!"+" ∉ real → NetRight c real routes f d v s.hist := by
  obtain ⟨dir, real, h', l, e, hu, ht⟩ := c75_exit hsort hord h hsig
  obtain ⟨q, routes, h1, h2, h3, h4⟩ := upDone_nets hsort hu
  have hl : ∀ f d, Offs f d l := by
    intro f d
    unfold TempRemoved at ht
    split at ht
    · obtain ⟨_, x, hx, rfl⟩ := ht; exact offs_one (offs_did hx (by simp))
    · subst ht; exact offs_nil
  refine ⟨real, q, routes, by rw [e]; exact List.mem_append_left _ h1, h2, ?_, ?_⟩
  · intro a b r hr
    obtain ⟨via, hv, x, hx, hh⟩ := h3 a b r hr
    exact ⟨via, hv, x, by rw [e]; exact List.mem_append_left _ hx, hh⟩
  · intro f d v a b x y
    have := h4 f d v a b x y
    have hR : routeAfter f.flag d v s.hist = routeAfter f.flag d v h' := by rw [e, after_append, after_offs (hl f d)]
    unfold NetRight at this ⊢
    rw [hR]
    split at this
    · rename_i hu
      rw [if_pos hu]
      refine ⟨fun ht => ?_, this.2⟩
      rcases this.1 ht with k | ⟨k1, ⟨z, hz, ho⟩, k2⟩
      · exact .inl k
      · exact .inr ⟨k1, ⟨z, by rw [e]; exact List.mem_append_left _ hz, ho⟩, k2⟩
    · rename_i hu
      rw [if_neg hu]
      exact this

/-- After a successful `up` the MTU is the configured one; else 80 less than the largest of the interfaces towards the endpoints
(FreeBSD, OpenBSD), or than that of the interface of the default route (macOS); without any 1420. -/
theorem c79_up (hsort : ∀ l, (c.sort l).Perm l) (hord : ∀ l, (c.order l).Perm l) (h : commands c (cmdUp c) w (St.start c) = (.ok (), s)) : MtuKept c s.real s.hist := by
  obtain ⟨dir, h⟩ := up_done hsort hord h
  obtain ⟨a, l, b, e, h1, h2⟩ := upDone_mtu h
  exact ⟨a, l, b, e, h1, fun x hx ⟨m, hm⟩ => (h2 x hx).1 m hm⟩

/-- Whenever the monitor waits for the next event, this still holds; on macOS the MTU was determined after the last routing message. -/
theorem c79_monitor (hsort : ∀ l, (c.sort l).Perm l) (hord : ∀ l, (c.order l).Perm l) (h : commands c (cmdUp c) w (St.start c) = (.ok (), s1)) {w' : World} (n : Nat)
    (hm : monitor c n w' { s1 with trap := .none } = (.running, s2)) :
    MtuKept c s1.real s2.hist ∧ (c.plat = .darwin → c.opts.mtu = [] → MtuFresh c s1.real s2.hist) := by
  obtain ⟨dir, h⟩ := up_done hsort hord h
  obtain ⟨_, a, l, b, e, h1, h2⟩ := monitor_fresh n (s := { s1 with trap := .none }) (upDone_mtu h).weak hm
  exact ⟨⟨a, l, b, e, h1, fun x hx => (h2 x hx).1⟩, fun hp hm => ⟨a, l, b, e, h1, fun x hx => ⟨(h2 x hx).1, (h2 x hx).2 hp hm⟩⟩⟩

end

/-! ### Examples -/

def exNets : World := exKept (exOther exGateways exEndpoints b!"0.0.0.0/0 10.8.0.0/16 fd00::/8" 2)
def exNetCfg : Cfg := { exBsd with opts := { exBsd.opts with addresses := [b!"10.7.0.2/24", b!"fd00::2/64"] } }

/-- OpenBSD: a default route in two halves, two networks. -/
example : (commands exNetCfg (cmdUp exNetCfg) exNets (St.start exNetCfg)).1 = .ok () ∧
    (let h := (commands exNetCfg (cmdUp exNetCfg) exNets (St.start exNetCfg)).2.hist
     routeAfter b!"-inet" b!"0.0.0.0/1" none h = some [b!"-iface", b!"10.7.0.2"] ∧ routeAfter b!"-inet" b!"128.0.0.0/1" none h = some [b!"-iface", b!"10.7.0.2"] ∧
     routeAfter b!"-inet" b!"10.8.0.0/16" none h = some [b!"-iface", b!"10.7.0.2"] ∧ routeAfter b!"-inet6" b!"fd00::/8" none h = some [b!"-iface", b!"fd00::2"] ∧
     routeAfter b!"-inet6" b!"fd01::/16" none h = none) := by
  decide +kernel

example : Target exNetCfg b!"0.0.0.0/0" b!"128.0.0.0/1" ∧ Target exNetCfg b!"10.8.0.0/16" b!"10.8.0.0/16" ∧ ¬ Target exNetCfg b!"10.8.0.0/16" b!"fd01::/16" ∧
    UsualTable exNetCfg ∧ Family.v4.Has b!"128.0.0.0/1" ∧ Family.v6.Has b!"fd00::/8" := by
  unfold Target UsualTable AutoTable Family.Has
  decide

/-- FreeBSD: another table. -/
def exFib : Cfg := { exFree with opts := { exFree.opts with table := b!"7" } }
def exFibWorld : World := exKept fun h c =>
  if c = cmd [b!"mktemp", b!"-d"] then { status := 0, out := b!"/tmp/x\n" }
  else if c = .query [b!"ifconfig", b!"wg0"] then { status := 1 }
  else exOther exGateways exEndpoints b!"10.8.0.0/16" 2 h c
example : ¬ UsualTable exFib ∧ (script exFib (cmdUp exFib) exFibWorld).1 = .exit 0 ∧ (∀ v ∈ (script exFib (cmdUp exFib) exFibWorld).2.hist, v.2.sig = false) ∧
    cmd [b!"route", b!"-q", b!"-n", b!"add", b!"-inet", b!"-fib", b!"7", b!"10.8.0.0/16", b!"-interface", b!"wg0"] ∈ (script exFib (cmdUp exFib) exFibWorld).2.hist.map (·.1) := by
  refine ⟨by unfold UsualTable AutoTable; decide, ?_⟩
  decide +kernel

/-- macOS: the MTU follows the default route. -/
def exMacMtu : Cfg := { exMac with opts := { exMac.opts with mtu := [], dns := [] } }
def exMacMtuWorld : World := fun h c =>
  if c = .query [b!"ifconfig", b!"em0"] then { status := 0, out := if exCount (.query [b!"read", b!"-u", b!"19"]) h = 0 then b!"em0: mtu 1500\n" else b!"em0: mtu 9000\n" }
  else if c = .query [b!"ifconfig", b!"utun3"] then { status := 0, out := b!"utun3: flags=8051 mtu 1420\n" }
  else exMacWorld h c
example : (commands exMacMtu (cmdUp exMacMtu) exMacMtuWorld (St.start exMacMtu)).1 = .ok () ∧
    (let s1 := (commands exMacMtu (cmdUp exMacMtu) exMacMtuWorld (St.start exMacMtu)).2
     s1.real = b!"utun3" ∧ cmd [b!"ifconfig", b!"utun3", b!"mtu", b!"8920"] ∉ s1.hist.map (·.1) ∧
     (monitor exMacMtu 1 exMacMtuWorld { s1 with trap := .none }).1 = .running ∧
     cmd [b!"ifconfig", b!"utun3", b!"mtu", b!"8920"] ∈ (monitor exMacMtu 1 exMacMtuWorld { s1 with trap := .none }).2.hist.map (·.1)) := by
  decide +kernel

/-! ### What does not hold -/

/-- FreeBSD: the name of the interface is taken as a regular expression. An allowed IP that is routed through `wgx0` counts as routed
through `wg.0`: no route is made, and `up` succeeds. -/
theorem c78_counterexample_name : ∃ (c : Cfg) (w : World) (s : St), c.iface = b!"wg.0" ∧ script c (cmdUp c) w = (.exit 0, s) ∧ (∀ v ∈ s.hist, v.2.sig = false) ∧
    (∃ v ∈ s.hist, v = (allowedOf b!"wg.0", { status := 0, out := b!"key 10.8.0.0/16\n" })) ∧
    (∃ v ∈ s.hist, v = (.query [b!"route", b!"-n", b!"get", b!"-inet", b!"10.8.0.0/16"], { status := 0, out := b!"interface: wgx0\n    flags: <UP,DONE>\n" })) ∧
    ∀ v ∈ s.hist, v.1 ≠ addCmd b!"-inet" b!"10.8.0.0/16" [b!"-interface", b!"wg.0"] := by
  refine ⟨{ exFree with iface := b!"wg.0" }, fun h c =>
    if c = cmd [b!"mktemp", b!"-d"] then { status := 0, out := b!"/tmp/x\n" }
    else if c = .query [b!"ifconfig", b!"wg.0"] then { status := 1 }
    else if c = allowedOf b!"wg.0" then { status := 0, out := b!"key 10.8.0.0/16\n" }
    else if c = .query [b!"route", b!"-n", b!"get", b!"-inet", b!"10.8.0.0/16"] then { status := 0, out := b!"interface: wgx0\n    flags: <UP,DONE>\n" }
    else { status := 0 }, _, rfl, pairOf (by decide +kernel), ?_⟩
  decide +kernel

/-- FreeBSD, OpenBSD: without endpoints the MTU of the default route's interface is not used, although it is asked for (and promised by
the manual): the route's first line has no interface. -/
theorem c79_counterexample_default : ∃ (c : Cfg) (w : World) (s : St), c.plat = .openbsd ∧ c.opts.mtu = [] ∧ script c (cmdUp c) w = (.exit 0, s) ∧
    (∃ v ∈ s.hist, v = (.query [b!"route", b!"-n", b!"get", b!"default"], { status := 0, out := b!"   route to: default\ninterface: em0\n    flags: <UP>\n" })) ∧
    (∀ h, (w h (.query [b!"ifconfig", b!"em0"])).out = b!"em0: flags=8843 mtu 9000\n") ∧
    ∃ v ∈ s.hist, v.1 = cmd [b!"ifconfig", b!"wg0", b!"mtu", b!"1420"] := by
  refine ⟨{ exBsd with opts := { exBsd.opts with mtu := [] } }, fun _ c =>
    if c = .query [b!"route", b!"-n", b!"get", b!"default"] then { status := 0, out := b!"   route to: default\ninterface: em0\n    flags: <UP>\n" }
    else if c = .query [b!"ifconfig", b!"em0"] then { status := 0, out := b!"em0: flags=8843 mtu 9000\n" }
    else { status := 0 }, _, rfl, rfl, pairOf (by decide +kernel), by decide +kernel, fun h => rfl, by decide +kernel⟩

end WG.Props
