import Verif.Proof.BsdServiceEnd
import Verif.Props.BsdUp
/-!
C82: on macOS, the DNS settings of the network services while the interface is up, and after it.
-/
namespace WG.Props
open WG.Bsd WG.Spec.Quick WG.Spec.Bsd
open WG.Quick (Call Reply Ev World Out)

section
variable {c : Cfg} {k : List UInt8} {t : Setting} {w : World} {s1 : St}

/-- After a successful `up` a listed service has the configured DNS servers and search domains. Without `DNS` its settings are not
touched. -/
theorem c82_up (hp : c.plat = .darwin) (hord : ∀ l, (c.order l).Perm l) (hk : k ≠ []) (hw : KeepsSetting k t w) (hs : PlainValues t.servers) (hd : PlainValues t.domains)
    (h : commands c (cmdUp c) w (St.start c) = (.ok (), s1)) :
    (c.opts.dns ≠ [] → ServiceRight c k t s1.hist) ∧ (c.opts.dns = [] → settingAfter k t s1.hist = t) := by
  constructor
  · intro hdns
    obtain ⟨_, _, o⟩ := safe_up ⟨hk, hw, hs, hd⟩ hord hp _ _ _ h inv_start
    exact right_of_ours (o ⟨_, rfl⟩ ours_start) (recent_up hp hdns h)
  · intro hdns
    rw [hush_setting (rel_of (hush_up hp hdns) h)]
    rfl

/-- The same holds whenever the monitor waits for the next event. -/
theorem c82_monitor (hp : c.plat = .darwin) (hord : ∀ l, (c.order l).Perm l) (hk : k ≠ []) (hw : KeepsSetting k t w) (hs : PlainValues t.servers) (hd : PlainValues t.domains)
    (h : commands c (cmdUp c) w (St.start c) = (.ok (), s1)) {w' : World} (hw' : KeepsSetting k t w') (n : Nat) {s2 : St}
    (hm : monitor c n w' { s1 with trap := .none } = (.running, s2)) :
    (c.opts.dns ≠ [] → ServiceRight c k t s2.hist) ∧ (c.opts.dns = [] → settingAfter k t s2.hist = t) := by
  constructor
  · intro hdns
    obtain ⟨_, i, o⟩ := safe_up ⟨hk, hw, hs, hd⟩ hord hp _ _ _ h inv_start
    have q : Hush s1 { s1 with trap := .none } := hush_same rfl rfl rfl
    obtain ⟨_, a, b⟩ := monitor_service ⟨hk, hw', hs, hd⟩ hord hp n hm ((i (by simp [Signalled])).hush q)
    exact right_of_ours (a rfl ((o ⟨_, rfl⟩ ours_start).hush q)) (b rfl hdns (show Recent s1.hist from recent_up hp hdns h))
  · intro hdns
    rw [hush_setting (rel_of (hush_monitor hp hdns n) hm)]
    show settingAfter k t s1.hist = t
    rw [hush_setting (rel_of (hush_up hp hdns) h)]
    rfl

/-- When the monitor has ended, whether its loop ended, a command failed or a signal came, every service has the settings it had before
`up`. -/
theorem c82_end (hp : c.plat = .darwin) (hord : ∀ l, (c.order l).Perm l) (hk : k ≠ []) (hw : KeepsSetting k t w) (hs : PlainValues t.servers) (hd : PlainValues t.domains)
    (h : commands c (cmdUp c) w (St.start c) = (.ok (), s1)) {w' : World} (hw' : KeepsSetting k t w') (n : Nat) {e : End} {s2 : St}
    (hm : daemon c n w' s1 = (e, s2)) (he : e ≠ .running) : settingAfter k t s2.hist = t := by
  obtain ⟨_, i, _⟩ := safe_up ⟨hk, hw, hs, hd⟩ hord hp _ _ _ h inv_start
  have q : Hush s1 { s1 with trap := .none } := hush_same rfl rfl rfl
  have g : Given k t w' := ⟨hk, hw', hs, hd⟩
  unfold daemon at hm
  rcases hmon : monitor c n w' { s1 with trap := .none } with ⟨o, s3⟩
  rw [hmon] at hm
  obtain ⟨a, _, _⟩ := monitor_service g hord hp n hmon ((i (by simp [Signalled])).hush q)
  have ht : s3.trap = .daemon := by
    have := monitor_trap (c := c) (w := w') (fun h => absurd (hp.symm.trans h) (by decide)) n { s1 with trap := .none }
    rw [hmon] at this
    exact this
  cases o with
  | ok u => exact daemonExit_service g hord hp ht a 0 hm
  | exit m => exact daemonExit_service g hord hp ht a m hm
  | running =>
    unfold finish at hm
    simp only [Prod.mk.injEq] at hm
    exact absurd hm.1.symm he
  | signal m =>
    unfold finish at hm
    dsimp only at hm
    rw [ht] at hm
    dsimp only at hm
    rcases h4 : trapBody c .daemon (WG.Quick.calm w') s3 with ⟨o4, s4⟩
    rw [h4] at hm
    obtain ⟨rfl, g2, _, g4⟩ := daemonTrap_service g hord hp a h4
    exact daemonExit_service g hord hp (g4.trans ht) g2 _ hm

end

/-! ### Examples -/

def exTold (vs : List (List UInt8)) : List UInt8 := if vs = [] then b!"There aren't any set.\n" else List.intercalate [10] vs ++ b!"\n"

/-- A system that keeps the settings of the service `k`, beginning with `t`. -/
def exSettings (k : List UInt8) (t : Setting) (other : World) : World := fun h q =>
  if q = dnsQuery k then { status := 0, out := exTold (settingAfter k t h).servers }
  else if q = searchQuery k then { status := 0, out := exTold (settingAfter k t h).domains }
  else match q with
    | .act (p :: op :: x :: _ :: _) [] => if p = b!"networksetup" ∧ (op = b!"-setdnsservers" ∨ op = b!"-setsearchdomains") ∧ x = k then { status := 0 } else other h q
    | _ => other h q

theorem exFilter {vs : List (List UInt8)} (h : PlainValues vs) : (List.intercalate [10] vs).filter (· ≠ 0) = List.intercalate [10] vs := by
  rw [List.filter_eq_self]
  intro c hc
  have : ∀ (vs : List (List UInt8)), (∀ v ∈ vs, v ≠ [] ∧ ∀ c ∈ v, c ≠ 0 ∧ blankSep c = false) → c ∈ List.intercalate [10] vs → c ≠ 0 := by
    intro vs
    induction vs with
    | nil => intro _ h; exact absurd h (by simp)
    | cons v vs ih =>
      intro hv hc
      cases vs with
      | nil =>
        rw [List.intercalate_singleton] at hc
        exact ((hv v (by simp)).2 c hc).1
      | cons x xs =>
        rw [List.intercalate_cons_cons] at hc
        rcases List.mem_append.1 hc with hc | hc
        · rcases List.mem_append.1 hc with hc | hc
          · exact ((hv v (by simp)).2 c hc).1
          · rw [List.mem_singleton.1 hc]; decide
        · exact ih (fun y hy => hv y (List.mem_cons_of_mem _ hy)) hc
  simpa using this vs h.2 hc

theorem exLast {vs : List (List UInt8)} (h : PlainValues vs) (h0 : vs ≠ []) : ∃ a x, List.intercalate [10] vs = a ++ [x] ∧ x ≠ 10 := by
  have : ∀ (vs : List (List UInt8)), vs ≠ [] → (∀ v ∈ vs, v ≠ [] ∧ ∀ c ∈ v, c ≠ 0 ∧ blankSep c = false) → ∃ a x, List.intercalate [10] vs = a ++ [x] ∧ x ≠ 10 := by
    intro vs
    induction vs with
    | nil => intro h; exact absurd rfl h
    | cons v vs ih =>
      intro _ hv
      cases vs with
      | nil =>
        obtain ⟨h1, h2⟩ := hv v (by simp)
        refine ⟨v.dropLast, v.getLast h1, by rw [List.intercalate_singleton, List.dropLast_append_getLast], ?_⟩
        intro e
        have := (h2 _ (List.getLast_mem h1)).2
        rw [e] at this
        exact absurd this (by decide)
      | cons x xs =>
        obtain ⟨a, y, e, hy⟩ := ih (by simp) fun y hy => hv y (List.mem_cons_of_mem _ hy)
        exact ⟨v ++ [10] ++ a, y, by rw [List.intercalate_cons_cons, e]; simp, hy⟩
  exact this vs h0 h.2

theorem exToldTells {vs : List (List UInt8)} (h : PlainValues vs) : Tells (exTold vs) vs := by
  by_cases h0 : vs = []
  · subst h0
    exact .inl ⟨rfl, by decide⟩
  · refine .inr ⟨h0, ?_⟩
    unfold exTold
    rw [if_neg h0]
    unfold captured
    rw [List.filter_append, exFilter h]
    obtain ⟨a, x, e, hx⟩ := exLast h h0
    rw [e]
    show ((a ++ [x]) ++ [10]).rdropWhile (· = 10) = a ++ [x]
    rw [List.rdropWhile_concat_pos _ _ _ (by simp), List.rdropWhile_concat_neg _ _ _ (by simpa using hx)]

theorem exSettings_keeps (k : List UInt8) (t : Setting) (other : World) (hl : ∀ h, SeenListed k h → Listed k (other h listServices).out) :
    KeepsSetting k t (exSettings k t other) := by
  refine ⟨fun h hv => ?_, fun h hv => ?_, fun h v vs => ?_, fun h v vs => ?_, fun h hs => ?_⟩
  · have : exSettings k t other h (dnsQuery k) = { status := 0, out := exTold (settingAfter k t h).servers } := by
      unfold exSettings; rw [if_pos rfl]
    rw [this]
    exact ⟨rfl, exToldTells hv⟩
  · have : exSettings k t other h (searchQuery k) = { status := 0, out := exTold (settingAfter k t h).domains } := by
      unfold exSettings; rw [if_neg (by simp [searchQuery, dnsQuery]), if_pos rfl]
    rw [this]
    exact ⟨rfl, exToldTells hv⟩
  · unfold exSettings setDnsCmd cmd
    rw [if_neg (by simp [dnsQuery]), if_neg (by simp [searchQuery])]
    dsimp only [List.cons_append, List.nil_append]
    rw [if_pos (by simp)]
  · unfold exSettings setSearchCmd cmd
    rw [if_neg (by simp [dnsQuery]), if_neg (by simp [searchQuery])]
    dsimp only [List.cons_append, List.nil_append]
    rw [if_pos (by simp)]
  · have : exSettings k t other h listServices = other h listServices := by
      unfold exSettings
      rw [if_neg (by simp [dnsQuery, listServices]), if_neg (by simp [searchQuery, listServices])]
      rfl
    rw [this]
    exact hl h hs

/-- A listing. -/
def exListing (names : List UInt8) : Reply := { status := 0, out := b!"An asterisk (*) denotes that a network service is disabled.\n" ++ names }

/-- macOS: the name file appears when `wireguard-go` has run; the listings of the services are those given, the last one forever. -/
def exServices (ls : List (List UInt8)) : World := exKept fun h c =>
  if c = .query [b!"test", b!"-f", b!"/var/run/wireguard/tun.name"] then { status := if exCount (cmd [b!"WG_TUN_NAME_FILE=/var/run/wireguard/tun.name", b!"wireguard-go", b!"utun"]) h = 0 then 1 else 0 }
  else if c = .query [b!"cat", b!"/var/run/wireguard/tun.name"] then { status := 0, out := b!"utun3\n" }
  else if c = .query [b!"networksetup", b!"-listallnetworkservices"] then exListing ((ls[min (exCount c h) (ls.length - 1)]?).getD [])
  else if c = .query [b!"ALRM"] then { status := 1 }
  else exOther exGateways exEndpoints b!"0.0.0.0/0" 2 h c

def exSetting : Setting := ⟨[b!"192.0.2.53", b!"192.0.2.54"], []⟩
def exSearch : Cfg := { exMac with opts := { exMac.opts with dnsSearch := [b!"corp.example"] } }
def exTwoServices : World := exSettings b!"Wi-Fi" exSetting (exServices [b!"Wi-Fi\n*Bluetooth\n"])

/-- Two servers and no search domains are replaced, and restored after two events. -/
example : exSearch.plat = .darwin ∧ (∀ l, (exSearch.order l).Perm l) ∧ KeepsSetting b!"Wi-Fi" exSetting exTwoServices ∧ PlainValues exSetting.servers ∧ PlainValues exSetting.domains ∧
    (commands exSearch (cmdUp exSearch) exTwoServices (St.start exSearch)).1 = .ok () ∧
    (let s1 := (commands exSearch (cmdUp exSearch) exTwoServices (St.start exSearch)).2
     settingAfter b!"Wi-Fi" exSetting s1.hist = ⟨[b!"10.7.0.1"], [b!"corp.example"]⟩ ∧
     (monitor exSearch 1 exTwoServices { s1 with trap := .none }).1 = .running ∧
     settingAfter b!"Wi-Fi" exSetting (monitor exSearch 1 exTwoServices { s1 with trap := .none }).2.hist = ⟨[b!"10.7.0.1"], [b!"corp.example"]⟩ ∧
     (daemon exSearch 3 exTwoServices s1).1 = .exit 0 ∧
     settingAfter b!"Wi-Fi" exSetting (daemon exSearch 3 exTwoServices s1).2.hist = exSetting) := by
  refine ⟨rfl, fun l => List.Perm.refl l, exSettings_keeps _ _ _ fun h _ => ?_, ?_, ?_, ?_⟩
  · have : (exServices [b!"Wi-Fi\n*Bluetooth\n"] h listServices).out = (exListing b!"Wi-Fi\n*Bluetooth\n").out := by
      unfold exServices exKept exKeeper
      dsimp only [listServices]
      rw [if_neg (by decide), if_neg (by decide), if_pos rfl]
      simp
    rw [this, svcListed_iff]
    decide +kernel
  · unfold PlainValues exSetting; decide
  · unfold PlainValues exSetting; decide
  · decide +kernel

def exAway : World := exSettings b!"Wi-Fi" exSetting (exServices [b!"Wi-Fi\nEthernet\n", b!"Ethernet\n", b!"Wi-Fi\nEthernet\n"])

/-- A service that is not listed for a while: it is forgotten, so that when it is back, the servers of the tunnel are taken for its own,
and "restored" at the end. `stays` is needed. -/
theorem c82_counterexample_away : ∃ (w : World) (k : List UInt8) (t : Setting),
    (∀ h, PlainValues (settingAfter k t h).servers → (w h (dnsQuery k)).status = 0 ∧ Tells (w h (dnsQuery k)).out (settingAfter k t h).servers) ∧
    (∀ h v vs, (w h (setDnsCmd k (v :: vs))).status = 0) ∧ PlainValues t.servers ∧ PlainValues t.domains ∧
    ∃ s1, commands exMac (cmdUp exMac) w (St.start exMac) = (.ok (), s1) ∧ ∃ s2, daemon exMac 3 w s1 = (.exit 0, s2) ∧
      settingAfter k t s2.hist ≠ t ∧ (settingAfter k t s2.hist).servers = exMac.opts.dns := by
  refine ⟨exAway, b!"Wi-Fi", exSetting, fun h hv => ?_, fun h v vs => ?_, by unfold PlainValues exSetting; decide, by unfold PlainValues exSetting; decide, ?_⟩
  · have : exAway h (dnsQuery b!"Wi-Fi") = { status := 0, out := exTold (settingAfter b!"Wi-Fi" exSetting h).servers } := by
      unfold exAway exSettings; rw [if_pos rfl]
    rw [this]
    exact ⟨rfl, exToldTells hv⟩
  · unfold exAway exSettings setDnsCmd cmd
    rw [if_neg (by simp [dnsQuery]), if_neg (by simp [searchQuery])]
    dsimp only [List.cons_append, List.nil_append]
    rw [if_pos (by decide)]
  · refine ⟨(commands exMac (cmdUp exMac) exAway (St.start exMac)).2, pairOf (by decide +kernel), ?_⟩
    exact ⟨(daemon exMac 3 exAway (commands exMac (cmdUp exMac) exAway (St.start exMac)).2).2, pairOf (by decide +kernel), by decide +kernel, by decide +kernel⟩

end WG.Props
