import Verif.Proof.BsdUpEnd
import Verif.Props.BsdRoutes
/-!
C75: `wg-quick up` on the BSDs is done completely, refused or undone.
-/
namespace WG.Props
open WG.Bsd WG.Spec.Quick WG.Spec.Bsd
open WG.Quick (Call Reply Ev World Out)

section
variable {c : Cfg} {w : World} {e : End} {s : St}

/-- However `up` ends: everything was done, in order; or the interface existed and nothing was done; or it did not come to anything; or
something failed and was undone. -/
theorem c75_up (hsort : ∀ l, (c.sort l).Perm l) (hord : ∀ l, (c.order l).Perm l) (h : script c (cmdUp c) w = (e, s)) (hr : e ≠ .running) :
    UpSucceeded c e s.hist ∨ UpRefused c e s.hist ∨ UpNothing c e s.hist ∨ UpFailed c e s.hist := up_ends hsort hord h hr

/-- Without signals, status 0 means that everything was done (and on FreeBSD the temporary directory removed). -/
theorem c75_exit (hsort : ∀ l, (c.sort l).Perm l) (hord : ∀ l, (c.order l).Perm l) (h : script c (cmdUp c) w = (.exit 0, s)) (hsig : ∀ v ∈ s.hist, v.2.sig = false) :
    ∃ dir real h' l, s.hist = h' ++ l ∧ UpDone c dir real h' ∧ TempRemoved c dir l := by
  rcases up_ends hsort hord h (by simp) with ⟨dir, real, h', l, e1, h1, h2⟩ | ⟨dir, lt, lx, l, e1, h1, h2, h3⟩ | ⟨h1, h2⟩ | ⟨dir, lt, lc, l, lu, real, dns, eps, e1, _, _, _, _, _, k, h1, h2⟩
  · rcases h2 with ⟨h2, _⟩ | ⟨_, m, hm, h2⟩
    · exact ⟨dir, real, h', l, e1, h1, h2⟩
    · cases h2; exact absurd rfl hm
  · rcases h3 with ⟨_, h3⟩ | ⟨_, m, hm, h3⟩
    · cases h3
    · cases h3; exact absurd rfl hm
  · rcases h2 with ⟨v, hv, hs⟩ | ⟨k, hk, h2⟩
    · rw [hsig v hv] at hs; cases hs
    · cases h2; exact absurd rfl hk
  · rcases h2 with ⟨⟨pre, v, e2, hs⟩, _⟩ | ⟨hk, _⟩
    · have := hsig v (by rw [e1, e2]; simp)
      rw [this] at hs; cases hs
    · cases h1; exact absurd rfl hk

end

/-! ### Examples -/

def exKept (other : World) : World := exKeeper (fun _ _ => none) other
def exPlain : World := exKept (exOther exGateways exEndpoints b!"0.0.0.0/0" 2)
/-- As `w`, but commands of `bad` fail. -/
def exFailing (bad : Call → Bool) (w : World) : World := fun h c => if bad c then { w h c with status := 1 } else w h c
/-- As `w`, but commands of `bad` are interrupted when they are done. -/
def exSignal (bad : Call → Bool) (w : World) : World := fun h c => if bad c then { w h c with sig := true } else w h c

def exHook : Cfg := { exBsd with opts := { exBsd.opts with postUp := [b!"echo %i"] } }

/-- OpenBSD: success. -/
example : (∀ l, (exHook.sort l).Perm l) ∧ (∀ l, (exHook.order l).Perm l) ∧
    (script exHook (cmdUp exHook) exPlain).1 = .exit 0 ∧ (∀ v ∈ (script exHook (cmdUp exHook) exPlain).2.hist, v.2.sig = false) ∧
    .hook b!"echo wg0" ∈ (script exHook (cmdUp exHook) exPlain).2.hist.map (·.1) := by
  refine ⟨fun l => .refl l, fun l => .refl l, by decide +kernel, by decide +kernel, by decide +kernel⟩

/-- OpenBSD: the last hook fails; the interface, its route and that to the endpoint are removed. -/
example : (script exHook (cmdUp exHook) (exFailing (fun c => c = .hook b!"echo wg0") exPlain)).1 = .exit 1 ∧
    (let h := (script exHook (cmdUp exHook) (exFailing (fun c => c = .hook b!"echo wg0") exPlain)).2.hist.map (·.1)
     cmd [b!"ifconfig", b!"wg0", b!"destroy"] ∈ h ∧ deleteCmd b!"-inet" b!"10.7.0.0/24" ∈ h ∧ deleteCmd b!"-inet" b!"192.0.2.1" ∈ h) := by
  decide +kernel

/-- OpenBSD: the interface exists. -/
example : (script exBsd (cmdUp exBsd) fun _ c => if c = .query [b!"ifconfig"] then { status := 0, out := b!"wg3: flags=80c3\n\tdescription: wg-quick: tun\n" } else { status := 0 }) =
    (.exit 1, { hist := [(.query [b!"ifconfig"], { status := 0, out := b!"wg3: flags=80c3\n\tdescription: wg-quick: tun\n" })], real := b!"wg3" }) := by
  decide +kernel

/-- `resolvconf -a …`. -/
def exTells : Call → Bool
  | .act (a :: b :: _) _ => a == b!"resolvconf" && b == b!"-a"
  | _ => false
/-- FreeBSD: the interface does not exist, a directory can be made. -/
def exFreeWorld (create : Reply) (dns : Reply) : World := exKept fun h c =>
  if c = cmd [b!"mktemp", b!"-d"] then { status := 0, out := b!"/tmp/x\n" }
  else if c = .query [b!"ifconfig", b!"wg0"] then { status := 1 }
  else if c = cmd [b!"ifconfig", b!"wg", b!"create", b!"name", b!"wg0"] then create
  else if c = .query [b!"test", b!"-S", b!"/var/run/wireguard/wg0.sock"] then { status := 1 }
  else if exTells c then dns
  else exOther exGateways exEndpoints b!"0.0.0.0/0" 2 h c

def exFreeDns : Cfg := { exFree with opts := { exFree.opts with dns := [b!"10.7.0.1"], postUp := [b!"echo %i"] } }

/-- FreeBSD: success; and the last hook fails: DNS, interface, routes and directory are removed. -/
example : (script exFreeDns (cmdUp exFreeDns) (exFreeWorld { status := 0 } { status := 0 })).1 = .exit 0 ∧
    (script exFreeDns (cmdUp exFreeDns) (exFailing (fun c => c = .hook b!"echo wg0") (exFreeWorld { status := 0 } { status := 0 }))).1 = .exit 1 ∧
    (let h := (script exFreeDns (cmdUp exFreeDns) (exFailing (fun c => c = .hook b!"echo wg0") (exFreeWorld { status := 0 } { status := 0 }))).2.hist.map (·.1)
     cmd [b!"resolvconf", b!"-d", b!"wg0"] ∈ h ∧ cmd [b!"ifconfig", b!"wg0", b!"destroy"] ∈ h ∧ deleteCmd b!"-inet" b!"192.0.2.1" ∈ h ∧ cmd [b!"rm", b!"-rf", b!"/tmp/x"] ∈ h) := by
  decide +kernel

/-- macOS: the name file appears when `wireguard-go` has run. -/
def exMac : Cfg := { exBsd with plat := .darwin, opts := { exBsd.opts with dns := [b!"10.7.0.1"] } }
def exMacWorld : World := exKept fun h c =>
  if c = .query [b!"test", b!"-f", b!"/var/run/wireguard/tun.name"] then { status := if exCount (cmd [b!"WG_TUN_NAME_FILE=/var/run/wireguard/tun.name", b!"wireguard-go", b!"utun"]) h = 0 then 1 else 0 }
  else if c = .query [b!"cat", b!"/var/run/wireguard/tun.name"] then { status := 0, out := b!"utun3\n" }
  else if c = .query [b!"networksetup", b!"-listallnetworkservices"] then { status := 0, out := b!"An asterisk (*) denotes that a network service is disabled.\nWi-Fi\n" }
  else if c = .query [b!"networksetup", b!"-getdnsservers", b!"Wi-Fi"] then { status := 0, out := b!"8.8.8.8\n" }
  else if c = .query [b!"networksetup", b!"-getsearchdomains", b!"Wi-Fi"] then { status := 0, out := b!"There aren't any Search Domains set on Wi-Fi.\n" }
  else exOther exGateways exEndpoints b!"0.0.0.0/0" 2 h c

example : (script exMac (cmdUp exMac) exMacWorld).1 = .exit 0 ∧ (script exMac (cmdUp exMac) exMacWorld).2.real = b!"utun3" ∧
    cmd [b!"networksetup", b!"-setdnsservers", b!"Wi-Fi", b!"10.7.0.1"] ∈ (script exMac (cmdUp exMac) exMacWorld).2.hist.map (·.1) := by
  decide +kernel

/-! ### What does not hold -/

/-- FreeBSD: another program makes an interface of the name at the same time, so `ifconfig … create` fails with "File exists". `up` goes
on: it loads its configuration into the other's interface and succeeds. -/
theorem c75_counterexample_foreign : ∃ (w : World) (s : St), script exFree (cmdUp exFree) w = (.exit 0, s) ∧
    (∃ v ∈ s.hist, v.1 = cmd [b!"ifconfig", b!"wg", b!"create", b!"name", b!"wg0"] ∧ v.2.status ≠ 0) ∧
    (∀ v ∈ s.hist, v.1 ≠ cmd [exFree.userspace, b!"wg0"]) ∧
    ∃ v ∈ s.hist, v.1 = .act [b!"wg", b!"setconf", b!"wg0", b!"/dev/stdin"] (exFree.opts.wgConfig ++ b!"\n") ∧ v.2.status = 0 := by
  refine ⟨exFreeWorld { status := 1, out := b!"ifconfig: ioctl SIOCSIFNAME (set name): File exists\n" } { status := 0 }, _, pairOf (by decide +kernel), ?_⟩
  decide +kernel

/-- FreeBSD: neither the kernel nor the userspace implementation can make the interface. Then destroying it fails too, which ends the
trap: the temporary directory stays. -/
theorem c75_counterexample_temp : ∃ (w : World) (s : St), script exFree (cmdUp exFree) w = (.exit 1, s) ∧ (∀ v ∈ s.hist, v.2.sig = false) ∧
    (∃ v ∈ s.hist, v.1 = cmd [b!"mktemp", b!"-d"] ∧ v.2.status = 0) ∧ ∀ v ∈ s.hist, v.1 ≠ cmd [b!"rm", b!"-rf", b!"/tmp/x"] := by
  refine ⟨exFailing (fun c => c = cmd [exFree.userspace, b!"wg0"] ∨ c = cmd [b!"ifconfig", b!"wg0", b!"destroy"]) (exFreeWorld { status := 1 } { status := 0 }), _,
    pairOf (by decide +kernel), ?_⟩
  decide +kernel

/-- OpenBSD: a signal while the interface is made. It is made, but not removed. -/
theorem c75_counterexample_interface : ∃ (w : World) (s : St) (k : Nat), script exBsd (cmdUp exBsd) w = (.exit k, s) ∧
    (∃ v ∈ s.hist, v.1 = cmd [b!"ifconfig", b!"wg0", b!"create", b!"description", b!"wg-quick: tun"] ∧ v.2.status = 0) ∧
    ∀ v ∈ s.hist, v.1 ≠ cmd [b!"ifconfig", b!"wg0", b!"destroy"] := by
  refine ⟨exSignal (fun c => c = cmd [b!"ifconfig", b!"wg0", b!"create", b!"description", b!"wg-quick: tun"])
    (exFailing (fun c => c = .query [b!"test", b!"-f", b!"/etc/resolv.conf.wg-quick-backup.tun"]) exPlain), _, 1, pairOf (by decide +kernel), ?_⟩
  decide +kernel

/-- FreeBSD: a signal while `resolvconf` is told. It is told, but not told otherwise. -/
theorem c75_counterexample_dns : ∃ (w : World) (s : St) (k : Nat), script exFreeDns (cmdUp exFreeDns) w = (.exit k, s) ∧
    (∃ v ∈ s.hist, Did (.act [b!"resolvconf", b!"-a", b!"wg0", b!"-x"] (resolvLines exFreeDns.opts)) v) ∧ ∀ v ∈ s.hist, v.1 ≠ cmd [b!"resolvconf", b!"-d", b!"wg0"] := by
  refine ⟨exFreeWorld { status := 0 } { status := 0, sig := true }, _, 0, pairOf (by decide +kernel), ?_⟩
  unfold Did
  decide +kernel

/-- macOS: a signal after the DNS servers were changed, before the monitor is started. The interface is removed, the servers stay. -/
theorem c75_counterexample_dns_darwin : ∃ (w : World) (s : St) (k : Nat), script exMac (cmdUp exMac) w = (.exit k, s) ∧
    (∃ v ∈ s.hist, Did (cmd [b!"networksetup", b!"-setdnsservers", b!"Wi-Fi", b!"10.7.0.1"]) v) ∧ (∃ v ∈ s.hist, Did (cmd [b!"rm", b!"-f", b!"/var/run/wireguard/utun3.sock"]) v) ∧
    ∀ v ∈ s.hist, v.1 ≠ cmd [b!"networksetup", b!"-setdnsservers", b!"Wi-Fi", b!"8.8.8.8"] := by
  refine ⟨exSignal (fun c => c = cmd [b!"networksetup", b!"-setdnsservers", b!"Wi-Fi", b!"10.7.0.1"]) exMacWorld, _, 0, pairOf (by decide +kernel), ?_⟩
  unfold Did
  decide +kernel

/-- A signal while a command runs that then succeeds: everything is undone, and the status is 0. `hsig` in c75_exit is needed. -/
theorem c75_counterexample_status : ∃ (w : World) (s : St), script exHook (cmdUp exHook) w = (.exit 0, s) ∧
    (∃ v ∈ s.hist, Did (cmd [b!"ifconfig", b!"wg0", b!"destroy"]) v) ∧ ∀ v ∈ s.hist, v.1 ≠ .hook b!"echo wg0" := by
  refine ⟨exSignal (fun c => c = cmd [b!"monitor_daemon", b!"&"]) exPlain, _, pairOf (by decide +kernel), ?_⟩
  unfold Did
  decide +kernel

/-- `route nameserver …` or a write. -/
def exSetsDns : Call → Bool
  | .act (a :: b :: _) _ => (a == b!"route" && b == b!"nameserver") || a == b!"write"
  | _ => false
def exBsdDns : Cfg := { exBsd with opts := { exBsd.opts with dns := [b!"10.7.0.1"], dnsSearch := [b!"corp.example"] } }
def exNoDns : World := exFailing (fun c => c = .query [b!"pgrep", b!"-qx", b!"unwind"] ∨ c = .query [b!"pgrep", b!"-qx", b!"resolvd"]) exPlain

/-- OpenBSD: neither `unwind` nor `resolvd` runs. `DNS` is ignored, and `up` succeeds. -/
theorem c75_counterexample_ignored : ∃ (c : Cfg) (w : World) (s : St), c.opts.dns ≠ [] ∧ script c (cmdUp c) w = (.exit 0, s) ∧
    ∀ v ∈ s.hist, (∀ n, v.1 ≠ cmd (b!"route" :: b!"nameserver" :: n)) ∧ ∀ t, v.1 ≠ .act [b!"write", b!"/etc/resolv.conf"] t := by
  have key : ∀ v ∈ (script exBsdDns (cmdUp exBsdDns) exNoDns).2.hist, exSetsDns v.1 = false := by
    decide +kernel
  refine ⟨exBsdDns, exNoDns, _, by simp [exBsdDns], pairOf (by decide +kernel), fun v hv => ⟨fun n h => ?_, fun t h => ?_⟩⟩
  · have := key v hv
    rw [h] at this
    simp [exSetsDns, cmd] at this
  · have := key v hv
    rw [h] at this
    simp [exSetsDns] at this

end WG.Props
