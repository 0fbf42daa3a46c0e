import Verif.Proof.BsdCrash
import Verif.Props.BsdUp
/-!
C80, C81: `wg-quick save` and `wg-quick down` on the BSDs.
-/
namespace WG.Props
open WG.Bsd WG.Spec.Quick WG.Spec.Bsd
open WG.Quick (Call Reply Ev World Out)

section
variable {c : Cfg} {w : World} {e : End} {s : St}

/-! ### C80 -/

/-- However `save` ends: the file was replaced by the new configuration; or the interface is not there and nothing was done; or it did
not come to anything; or it stopped while looking or while writing, and then only the temporary file was touched before the renaming. -/
theorem c80_save (h : script c (cmdSave c) w = (e, s)) :
    SaveSucceeded c e s.hist ∨ Refused c e s.hist ∨ UpNothing c e s.hist ∨ SaveStoppedBsd c e s.hist := save_ends h

/-- At every point of `save` (`p` is any beginning of its history), if it is killed or the machine crashes, the configuration file
holds the complete old or the complete new configuration. -/
theorem c80_crash_safe (old : List UInt8) {p : List Ev} (hp : p <+: (script c (cmdSave c) w).2.hist) {x : List UInt8} (hx : x ∈ (diskAfter c.file old p).conf) :
    x = old ∨ NewConfigBsd c (script c (cmdSave c) w).2.hist x := by
  rcases save_shape (c := c) (w := w) rfl with h | ⟨_, h⟩
  · exact (shape_crash h old).1 p hp x hx
  · exact (shape_crash h old).1 p hp x hx

theorem nothing_zero (hsig : ∀ v ∈ s.hist, v.2.sig = false) (h : UpNothing c (.exit 0) s.hist) : False := by
  rcases h.2 with ⟨v, hv, hs⟩ | ⟨k, hk, h2⟩
  · rw [hsig v hv] at hs; cases hs
  · cases h2; exact hk rfl

theorem refused_zero (h : Refused c (.exit 0) s.hist) : False := by
  obtain ⟨dir, lt, lm, l, _, _, _, h⟩ := h
  rcases h with ⟨_, h⟩ | ⟨_, m, hm, h⟩
  · cases h
  · cases h; exact hm rfl

theorem stops_zero {P : List Ev → Prop} {l last : List Ev} (hsig : ∀ v ∈ l, v.2.sig = false) (h : Stops P (.exit 0) l last) : False := by
  rcases h with ⟨⟨k, hk, h⟩, _⟩ | ⟨⟨pre, v, rfl, hv⟩, _⟩
  · cases h; exact hk rfl
  · rw [hsig v (by simp)] at hv; cases hv

theorem saveFailed_zero {real dir : List UInt8} {l last : List Ev} (hsig : ∀ v ∈ l, v.2.sig = false) (h : SaveFailed c real dir (.exit 0) l last) : False := by
  rcases h with ⟨_, h⟩ | ⟨_, _, _, _, _, _, h⟩ <;> exact stops_zero hsig h

/-- Without signals, status 0 means that the configuration file holds the complete new configuration. -/
theorem c80_saved (old : List UInt8) (h : script c (cmdSave c) w = (.exit 0, s)) (hsig : ∀ v ∈ s.hist, v.2.sig = false) :
    ∃ x, NewConfigBsd c s.hist x ∧ (diskAfter c.file old s.hist).holds = some x := by
  have hs : SaveSucceeded c (.exit 0) s.hist := by
    rcases save_ends h with h | h | h | ⟨dir, real, lt, lf, l, last, hh, _, _, h3⟩
    · exact h
    · exact (refused_zero h).elim
    · exact (nothing_zero hsig h).elim
    · exact (saveFailed_zero (fun v hv => hsig v (by rw [hh]; simp [hv])) h3).elim
  rcases save_shape h with h | ⟨hn, _⟩
  · exact (shape_crash h old).2.1 hs
  · exact absurd hs hn

/-- With any other end it holds the old or the new configuration, as long as the machine runs. -/
theorem c80_kept (old : List UInt8) (h : script c (cmdSave c) w = (e, s)) :
    ∃ x, (x = old ∨ NewConfigBsd c s.hist x) ∧ (diskAfter c.file old s.hist).holds = some x := by
  rcases save_shape h with h | ⟨_, h⟩
  · exact (shape_crash h old).2.2
  · exact (shape_crash h old).2.2

/-! ### C81 -/

/-- However `down` ends. -/
theorem c81_down (h : script c (cmdDown c) w = (e, s)) :
    DownSucceeded c e s.hist ∨ Refused c e s.hist ∨ UpNothing c e s.hist ∨ DownFailed c e s.hist ∨ DownWaiting c e s.hist := down_ends h

/-- Without signals, status 0 means that everything was done, in order. -/
theorem c81_exit (h : script c (cmdDown c) w = (.exit 0, s)) (hsig : ∀ v ∈ s.hist, v.2.sig = false) :
    ∃ dir real lt lf l last, s.hist = lt ++ (lf ++ (l ++ last)) ∧ TempStep c dir lt ∧ FoundStep c real lf ∧ DownSteps c real l ∧ TempRemoved c dir last := by
  rcases down_ends h with ⟨dir, real, lt, lf, l, last, h1, h2, h3, h4, h5⟩ | h | h | ⟨dir, real, lt, lf, l, last, hh, _, _, h3⟩ | ⟨h, _⟩
  · rcases h5 with ⟨h5, _⟩ | ⟨_, m, hm, h5⟩
    · exact ⟨dir, real, lt, lf, l, last, h1, h2, h3, h4, h5⟩
    · cases h5; exact absurd rfl hm
  · exact (refused_zero h).elim
  · exact (nothing_zero hsig h).elim
  · have hl : ∀ v ∈ l, v.2.sig = false := fun v hv => hsig v (by rw [hh]; simp [hv])
    cases h3 with
    | preDown _ h => exact (stops_zero hl h).elim
    | save _ _ h => exact (saveFailed_zero (fun v hv => hl v (by simp [hv])) h).elim
    | remove _ _ _ h => exact (stops_zero (fun v hv => hl v (by simp [hv])) h).elim
    | dns _ _ _ _ h => exact (stops_zero (fun v hv => hl v (by simp [hv])) h).elim
    | postDown _ _ _ _ _ h => exact (stops_zero (fun v hv => hl v (by simp [hv])) h).elim
  · cases h

/-- At every point of `down`, if it is killed or the machine crashes, the configuration file holds the complete old or the complete
new configuration; the old one, if saving is not configured. -/
theorem c81_crash_safe (old : List UInt8) {p : List Ev} (hp : p <+: (script c (cmdDown c) w).2.hist) {x : List UInt8} (hx : x ∈ (diskAfter c.file old p).conf) :
    x = old ∨ (c.opts.saveConfig = true ∧ NewConfigBsd c (script c (cmdDown c) w).2.hist x) := by
  by_cases hs : c.opts.saveConfig = true
  · rcases down_shape (c := c) (w := w) rfl with h | h
    · exact ((shape_crash h old).1 p hp x hx).imp id fun h => ⟨hs, h⟩
    · exact ((shape_crash h old).1 p hp x hx).imp id fun h => ⟨hs, h⟩
  · left
    have ha := down_plain (c := c) (w := w) rfl hs
    rw [diskAfter, WG.Quick.fold_aside (fun v hv => ha v (hp.subset hv))] at hx
    exact hx

/-- A successful `down` with `SaveConfig` has saved. -/
theorem c81_saved (old : List UInt8) (hs : c.opts.saveConfig = true) (h : script c (cmdDown c) w = (.exit 0, s)) (hsig : ∀ v ∈ s.hist, v.2.sig = false) :
    ∃ x, NewConfigBsd c s.hist x ∧ (diskAfter c.file old s.hist).holds = some x := by
  obtain ⟨dir, real, lt, lf, l, last, h1, h2, h3, h4, h5⟩ := c81_exit h hsig
  obtain ⟨l1, l2, l3, l4, l5, rfl, p1, p2, p3, p4, p5⟩ := h4
  have : Shape c (c.opts.saveConfig = true) s.hist := saved_shape (rest := l3 ++ (l4 ++ (l5 ++ last))) (by rw [h1]; simp) h2 h3 (hooksDone_hooks p1) p2
    (aside_append (fun v hv => remove_aside (removed_acts p3 v hv)) (aside_append (fun v hv => remove_aside (dnsUndone_acts p4 v hv)) (aside_append
      (fun v hv => hook_aside (hooksDone_hooks p5 v hv)) (tempTry_aside (.inl h5)))))
  exact (shape_crash this old).2.1 hs

end

/-! ### Examples -/

def exSaveOpts : WG.Quick.Opts := { exBsd.opts with addresses := [b!"10.7.0.2/24"], dns := [b!"10.7.0.1"], dnsSearch := [b!"corp.example"], saveConfig := true, preDown := [b!"echo %i"], postDown := [b!"echo bye"] }
def exSaveFree : Cfg := { exFree with opts := exSaveOpts, file := b!"/etc/wireguard/wg0.conf" }
def exSaveOpen : Cfg := { exBsd with opts := exSaveOpts, file := b!"/etc/wireguard/tun.conf" }
def exSaveMac : Cfg := { exSaveOpen with plat := .darwin }

/-- FreeBSD's `wg0` with the address 10.7.0.2/24, OpenBSD's `wg3` and macOS' `utun3` for `tun`. -/
def exUpWorld : World := fun _ c =>
  if c = cmd [b!"mktemp", b!"-d"] then { status := 0, out := b!"/tmp/x\n" }
  else if c = .query [b!"wg", b!"show", b!"interfaces"] then { status := 0, out := b!"wg0 utun3\n" }
  else if c = netstatIf b!"wg0" b!"inet" then { status := 0, out := b!"Name Mtu Network Address Ipkts\nwg0 - 10.7.0.0/24 10.7.0.2 7\n" }
  else if c = netstatIf b!"wg0" b!"inet6" then { status := 0, out := b!"Name Mtu Network Address Ipkts\n" }
  else if c = .query [b!"resolvconf", b!"-l", b!"wg0"] then { status := 0, out := b!"nameserver 10.7.0.1\nsearch corp.example\n" }
  else if c = .query [b!"netstat", b!"-I", b!"wg3", b!"-n", b!"-v"] then { status := 0, out := b!"Name Mtu Network Address Ipkts\nwg3 1420 <Link> 7\nwg3 1420 10.7.0/24 10.7.0.2 7\n" }
  else if c = .query [b!"ifconfig"] then { status := 0, out := b!"wg3: flags=80c3\n\tdescription: wg-quick: tun\n" }
  else if c = .query [b!"cat", b!"/var/run/wireguard/tun.name"] then { status := 0, out := b!"utun3\n" }
  else if c = .query [b!"ifconfig", b!"utun3"] then { status := 0, out := b!"utun3: flags=8051\n\tinet 10.7.0.2 --> 10.7.0.2 netmask 0xffffff00\n\tinet6 fe80::1%utun3 prefixlen 64 scopeid 0xe\n" }
  else if c = .query [b!"ifconfig", b!"wg0"] then { status := 1 }
  else if c = .query [b!"test", b!"-S", b!"/var/run/wireguard/wg0.sock"] then { status := 1 }
  else if c = .query [b!"test", b!"-f", b!"/etc/resolv.conf.wg-quick-backup.tun"] then { status := 0 }
  else if c = .query [b!"wg", b!"showconf", b!"wg0"] ∨ c = .query [b!"wg", b!"showconf", b!"wg3"] ∨ c = .query [b!"wg", b!"showconf", b!"utun3"] then { status := 0, out := b!"[Interface]\nListenPort = 51820\n" }
  else { status := 0 }

/-- What is left of the configuration of wg-quick. -/
def exTail : List UInt8 := b!"MTU = 1420\nSaveConfig = true\nPreDown = echo %i\nPostDown = echo bye\nListenPort = 51820\n"

/-- `save` on the three systems: success, and what is written. -/
example : (script exSaveFree (cmdSave exSaveFree) exUpWorld).1 = .exit 0 ∧ (∀ v ∈ (script exSaveFree (cmdSave exSaveFree) exUpWorld).2.hist, v.2.sig = false) ∧
    writeCmd exSaveFree (b!"[Interface]\nAddress = 10.7.0.2\nDNS = 10.7.0.1\n" ++ exTail) ∈ (script exSaveFree (cmdSave exSaveFree) exUpWorld).2.hist.map (·.1) := by
  decide +kernel
example : (script exSaveOpen (cmdSave exSaveOpen) exUpWorld).1 = .exit 0 ∧ (∀ v ∈ (script exSaveOpen (cmdSave exSaveOpen) exUpWorld).2.hist, v.2.sig = false) ∧
    writeCmd exSaveOpen (b!"[Interface]\nAddress = 10.7.0.2\nDNS = 10.7.0.1\n" ++ exTail) ∈ (script exSaveOpen (cmdSave exSaveOpen) exUpWorld).2.hist.map (·.1) := by
  decide +kernel
example : (script exSaveMac (cmdSave exSaveMac) exUpWorld).1 = .exit 0 ∧ (∀ v ∈ (script exSaveMac (cmdSave exSaveMac) exUpWorld).2.hist, v.2.sig = false) := by
  decide +kernel

/-- `save` with a failing `sync`: the temporary file is removed. -/
example : (script exSaveFree (cmdSave exSaveFree) (exFailing (fun c => c = syncCmd exSaveFree) exUpWorld)).1 = .exit 1 ∧
    cmd [b!"rm", b!"-f", tempOf exSaveFree] ∈ (script exSaveFree (cmdSave exSaveFree) (exFailing (fun c => c = syncCmd exSaveFree) exUpWorld)).2.hist.map (·.1) := by
  decide +kernel

/-- `save` of an interface that is not there. -/
example : (script exSaveFree (cmdSave exSaveFree) fun _ _ => { status := 0 }).1 = .exit 1 := by decide +kernel

/-- `down` on the three systems. -/
example : (script exSaveFree (cmdDown exSaveFree) exUpWorld).1 = .exit 0 ∧ (∀ v ∈ (script exSaveFree (cmdDown exSaveFree) exUpWorld).2.hist, v.2.sig = false) ∧
    (let h := (script exSaveFree (cmdDown exSaveFree) exUpWorld).2.hist.map (·.1)
     .hook b!"echo wg0" ∈ h ∧ renameCmd exSaveFree ∈ h ∧ cmd [b!"ifconfig", b!"wg0", b!"destroy"] ∈ h ∧ cmd [b!"resolvconf", b!"-d", b!"wg0"] ∈ h ∧ .hook b!"echo bye" ∈ h) := by
  decide +kernel
example : (script exSaveOpen (cmdDown exSaveOpen) exUpWorld).1 = .exit 0 ∧ (∀ v ∈ (script exSaveOpen (cmdDown exSaveOpen) exUpWorld).2.hist, v.2.sig = false) ∧
    (let h := (script exSaveOpen (cmdDown exSaveOpen) exUpWorld).2.hist.map (·.1)
     .hook b!"echo wg3" ∈ h ∧ renameCmd exSaveOpen ∈ h ∧ cmd [b!"ifconfig", b!"wg3", b!"destroy"] ∈ h ∧ .hook b!"echo bye" ∈ h) := by
  decide +kernel
example : (script exSaveMac (cmdDown exSaveMac) exUpWorld).1 = .exit 0 ∧ (∀ v ∈ (script exSaveMac (cmdDown exSaveMac) exUpWorld).2.hist, v.2.sig = false) ∧
    (let h := (script exSaveMac (cmdDown exSaveMac) exUpWorld).2.hist.map (·.1)
     .hook b!"echo utun3" ∈ h ∧ renameCmd exSaveMac ∈ h ∧ cmd [b!"rm", b!"-f", sockOf b!"utun3"] ∈ h ∧ .hook b!"echo bye" ∈ h) := by
  decide +kernel

/-! ### What does not hold -/

/-- Saving does not keep the configuration: the length of the prefix and the search domain are lost (FreeBSD). -/
theorem c80_counterexample_prefix : ∃ (w : World) (s : St), script exSaveFree (cmdSave exSaveFree) w = (.exit 0, s) ∧ exSaveFree.opts.addresses = [b!"10.7.0.2/24"] ∧
    exSaveFree.opts.dnsSearch = [b!"corp.example"] ∧
    ∃ v ∈ s.hist, Did (writeCmd exSaveFree (b!"[Interface]\nAddress = 10.7.0.2\nDNS = 10.7.0.1\n" ++ exTail)) v := by
  refine ⟨exUpWorld, _, pairOf (by decide +kernel), rfl, rfl, ?_⟩
  unfold Did
  decide +kernel

/-- macOS: the link-local address of the interface is saved, with a scope that the next `up` cannot know. -/
theorem c80_counterexample_scope : ∃ (w : World) (s : St), script exSaveMac (cmdSave exSaveMac) w = (.exit 0, s) ∧
    ∃ v ∈ s.hist, Did (writeCmd exSaveMac (b!"[Interface]\nAddress = 10.7.0.2\nAddress = fe80::1%utun3\nDNS = 10.7.0.1\n" ++ exTail)) v := by
  refine ⟨exUpWorld, _, pairOf (by decide +kernel), ?_⟩
  unfold Did
  decide +kernel

/-- FreeBSD: `resolvconf -d` fails, for instance because the interface was never registered. The interface is gone, but the PostDown
hooks are not run. -/
theorem c81_counterexample_hooks : ∃ (w : World) (s : St), script exSaveFree (cmdDown exSaveFree) w = (.exit 1, s) ∧
    (∃ v ∈ s.hist, Did (cmd [b!"ifconfig", b!"wg0", b!"destroy"]) v) ∧ ∀ v ∈ s.hist, v.1 ≠ .hook b!"echo bye" := by
  refine ⟨exFailing (fun c => c = cmd [b!"resolvconf", b!"-d", b!"wg0"]) exUpWorld, _, pairOf (by decide +kernel), ?_⟩
  unfold Did
  decide +kernel

/-- FreeBSD: interrupted while the interface is removed, `down` ends with status 0 although name servers and hooks are left. -/
theorem c81_counterexample_status : ∃ (w : World) (s : St), script exSaveFree (cmdDown exSaveFree) w = (.exit 0, s) ∧
    (∀ v ∈ s.hist, v.1 ≠ cmd [b!"resolvconf", b!"-d", b!"wg0"]) ∧ ∀ v ∈ s.hist, v.1 ≠ .hook b!"echo bye" := by
  refine ⟨exSignal (fun c => c = cmd [b!"ifconfig", b!"wg0", b!"destroy"]) exUpWorld, _, pairOf (by decide +kernel), ?_⟩
  decide +kernel

end WG.Props
