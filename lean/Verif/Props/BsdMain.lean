import Verif.Proof.BsdMain
import Verif.Props.BsdUp
import Verif.Props.QuickMain
/-!
C83: `wg-quick` as a whole on the BSDs, from its arguments to the state of the interface.
-/
namespace WG.Props
open WG.Bsd WG.Spec WG.Spec.Quick WG.Spec.Bsd
open WG.Quick (Call Reply Ev World Out Opts parseConf Parsed stripText ifaceOf)

section
variable {h : Host} {w : World} {c : Cfg}

theorem temp_plat {c' : Cfg} (e : c.plat = c'.plat) {dir : CStr} {l : List Ev} (ht : TempStep c dir l) : TempStep c' dir l := by
  unfold TempStep at ht ⊢
  rwa [← e]

theorem only_plat {c' : Cfg} (e : c.plat = c'.plat) {k : Nat} {got : Prop} {en : End} {l : List Ev} (ho : OnlyTemp c k got en l) : OnlyTemp c' k got en l := by
  unfold OnlyTemp TempStep Cleaned TempRemoved TempLeft at ho ⊢
  rwa [← e]

theorem usage_only (hc : c.plat = h.plat) (n : Nat) : OnlyTemp c n ((usage h w n).usage = true) (usage h w n).end_ (usage h w n).st.hist := by
  refine only_plat (c := h.bare) hc.symm ?_
  unfold usage
  dsimp only
  by_cases hn : n = 0
  · subst hn
    rw [if_pos rfl]
    exact idle_ends (.inl ⟨rfl, rfl⟩) rfl
  · rw [if_neg hn]
    exact idle_ends (.inr rfl) rfl

/-- Help: the usage message and nothing else, with success. -/
theorem c83_help (hc : c.plat = h.plat) (args : List CStr) (ha : IsHelp args) :
    OnlyTemp c 0 ((bsdMain h w args).usage = true) (bsdMain h w args).end_ (bsdMain h w args).st.hist ∧ (bsdMain h w args).out = [] := by
  have : bsdMain h w args = usage h w 0 := by rcases ha with rfl | rfl | rfl <;> rfl
  rw [this]
  exact ⟨usage_only hc 0, rfl⟩

/-- Anything that is neither help nor an operation with exactly one argument: the usage message and nothing else, with status 1. -/
theorem c83_wrong_usage (hc : c.plat = h.plat) (args : List CStr) (h1 : ¬ IsHelp args) (h2 : ¬ ∃ op arg, IsOperation op ∧ args = [op, arg]) :
    OnlyTemp c 1 ((bsdMain h w args).usage = true) (bsdMain h w args).end_ (bsdMain h w args).st.hist ∧ (bsdMain h w args).out = [] := by
  have : bsdMain h w args = usage h w 1 := by
    match args with
    | [] => rfl
    | [a] =>
      rw [bsdMain, if_neg]
      intro ha
      apply h1
      rcases ha with rfl | rfl | rfl <;> simp [IsHelp]
    | [op, arg] =>
      have : ¬ IsOperation op := fun ho => h2 ⟨op, arg, ho, rfl⟩
      simp only [IsOperation, not_or] at this
      simp only [bsdMain]
      rw [if_neg this.1, if_neg this.2.1, if_neg this.2.2.1, if_neg this.2.2.2]
    | _ :: _ :: _ :: _ => rfl
  rw [this]
  exact ⟨usage_only hc 1, rfl⟩

theorem main_up (arg : CStr) : bsdMain h w [b!"up", arg] = operate h w [b!"up", arg] arg fun c => operatedUp h c w := by
  simp only [bsdMain]; rw [if_pos trivial]

theorem main_down (arg : CStr) : bsdMain h w [b!"down", arg] = operate h w [b!"down", arg] arg fun c => operated c (cmdDown c) w := by
  simp only [bsdMain]; rw [if_neg (by decide), if_pos trivial]

theorem main_save (arg : CStr) : bsdMain h w [b!"save", arg] = operate h w [b!"save", arg] arg fun c => operated c (cmdSave c) w := by
  simp only [bsdMain]; rw [if_neg (by decide), if_neg (by decide), if_pos trivial]

theorem main_strip (arg : CStr) : bsdMain h w [b!"strip", arg] = operate h w [b!"strip", arg] arg fun c => operatedStrip c w := by
  simp only [bsdMain]; rw [if_neg (by decide), if_neg (by decide), if_neg (by decide), if_pos trivial]

theorem main_operate (op arg : CStr) (ho : IsOperation op) : ∃ f : Cfg → Ran, bsdMain h w [op, arg] = operate h w [op, arg] arg f := by
  rcases ho with rfl | rfl | rfl | rfl
  · exact ⟨_, main_up arg⟩
  · exact ⟨_, main_down arg⟩
  · exact ⟨_, main_save arg⟩
  · exact ⟨_, main_strip arg⟩

/-- Without root rights nothing is done but replacing the script by `sudo` or `doas`, which is to run it again with the same arguments
(and, on FreeBSD, making a directory for temporary files). -/
theorem c83_not_root (hc : c.plat = h.plat) (op arg : CStr) (ho : IsOperation op) (hr : h.root = false) :
    ((bsdMain h w [op, arg]).end_ = .exec ((if h.plat = .openbsd then [b!"doas"] else [b!"sudo", b!"-p", h.prompt]) ++ [b!"--", h.bash, b!"--", h.self, op, arg]) ∧
      ∃ dir, TempStep c dir (bsdMain h w [op, arg]).st.hist) ∨
    (h.plat = .freebsd ∧ OnlyTemp.TempNotMade (bsdMain h w [op, arg]).end_ (bsdMain h w [op, arg]).st.hist) := by
  obtain ⟨f, e⟩ := main_operate (h := h) (w := w) op arg ho
  rw [e]
  unfold operate
  rw [if_neg (by rw [hr]; decide)]
  rcases e1 : commands h.bare (Sh.pure ()) w (St.start h.bare) with ⟨o, s⟩
  cases o with
  | ok u =>
    rcases begin_inv e1 with ⟨_, h1, _⟩ | ⟨_, _, hb⟩
    · refine .inl ⟨?_, _, temp_plat hc.symm h1⟩
      show End.exec (suArgv h [op, arg]) = _
      unfold suArgv
      cases h.plat <;> rfl
    · rcases hb with ⟨hb, _⟩ | ⟨⟨_, hb⟩, _⟩ <;> cases hb
  | _ =>
    rcases e2 : script h.bare (Sh.pure ()) w with ⟨en, s2⟩
    have hi := idle_ends (k := 0) (.inl ⟨rfl, rfl⟩) e2
    have hst : started h.bare w = false := by unfold started; rw [e1]
    rcases hi with ⟨hi, _⟩ | ⟨_, hp, hi⟩
    · rw [hst] at hi; cases hi
    · refine .inr ⟨hp, ?_⟩
      show OnlyTemp.TempNotMade (script h.bare (Sh.pure ()) w).1 (script h.bare (Sh.pure ()) w).2.hist
      rw [e2]; exact hi

/-- A refusal before anything is done: if there is no such file, its name is not that of an interface, its directory cannot be entered
(macOS), it cannot be read, or it says something about SaveConfig that is neither true nor false, then every operation ends with status
1. -/
theorem c83_refused (hc : c.plat = h.plat) (op arg : CStr) (ho : IsOperation op) (hr : h.root = true)
    (hbad : ∀ path, FileOf h.plat (fun p => h.fs.exists_ p = true) arg path → (∀ n, ¬ NamedIn path n) ∨
      ∀ file, ReadAs h.plat h.fs.resolve h.fs.cd path file → h.fs.content file = none ∨
        ∃ content lines kept sets, h.fs.content file = some content ∧ ScriptLines content lines ∧ Says lines kept sets ∧
          ∃ v ∈ valuesOf b!"saveconfig" sets, ¬ EqNoCase v b!"true" ∧ ¬ EqNoCase v b!"false") :
    (∃ got, OnlyTemp c 1 got (bsdMain h w [op, arg]).end_ (bsdMain h w [op, arg]).st.hist) ∧ (bsdMain h w [op, arg]).out = [] ∧ (bsdMain h w [op, arg]).usage = false := by
  have hn : parseOptions h arg = none := by
    rcases hp : parseOptions h arg with _ | p
    · rfl
    obtain ⟨path, content, h1, h2, h3, h4, h5⟩ := (parseOptions_iff h arg p).1 hp
    rcases hbad path h1 with hb | hb
    · exact absurd ((c55_iface _ _).1 h2) (hb _)
    · rcases hb _ h3 with hb | ⟨content', lines, kept, sets, k1, k2, k3, k4⟩
      · rw [hb] at h4; cases h4
      · rw [h4] at k1; cases k1
        rw [(c54_refused k2 k3).2 k4] at h5; cases h5
  obtain ⟨f, e⟩ := main_operate (h := h) (w := w) op arg ho
  rw [e]
  unfold operate
  rw [if_pos hr, hn]
  refine ⟨⟨_, only_plat (c := h.bare) hc.symm (idle_ends (.inr rfl) rfl)⟩, rfl, rfl⟩

/-- Otherwise the operation asked for, and no other, is carried out with the settings of that file: `strip` prints the lines that are not
wg-quick's own; the others run the commands of `up`, `down` or `save` (to which C75 to C82 apply). -/
theorem c83_accepted (arg path n file : CStr) (hr : h.root = true) (hp : FileOf h.plat (fun p => h.fs.exists_ p = true) arg path) (hn : NamedIn path n)
    (hf : ReadAs h.plat h.fs.resolve h.fs.cd path file) (content : List UInt8) (hcon : h.fs.content file = some content) (lines kept : List CStr) (sets : List (CStr × CStr))
    (hl : ScriptLines content lines) (hs : Says lines kept sets) (hok : ∀ v ∈ valuesOf b!"saveconfig" sets, EqNoCase v b!"true" ∨ EqNoCase v b!"false") :
    ∃ o, parseConf content = some o ∧ ∀ c, c = h.cfg ⟨n, file, o⟩ →
      (∃ got, OnlyTemp c 0 got (bsdMain h w [b!"strip", arg]).end_ (bsdMain h w [b!"strip", arg]).st.hist ∧
        (got → (bsdMain h w [b!"strip", arg]).out = kept.flatMap (· ++ b!"\n") ++ b!"\n") ∧ (¬ got → (bsdMain h w [b!"strip", arg]).out = [])) ∧
      ((bsdMain h w [b!"up", arg]).end_, (bsdMain h w [b!"up", arg]).st) = script c (cmdUp c) w ∧
      ((bsdMain h w [b!"down", arg]).end_, (bsdMain h w [b!"down", arg]).st) = script c (cmdDown c) w ∧
      ((bsdMain h w [b!"save", arg]).end_, (bsdMain h w [b!"save", arg]).st) = script c (cmdSave c) w := by
  cases ho : parseConf content with
  | none =>
    obtain ⟨v, hv, h1, h2⟩ := (c54_refused hl hs).1 ho
    rcases hok v hv with h | h
    · exact absurd h h1
    · exact absurd h h2
  | some o =>
    have hpo : parseOptions h arg = some ⟨n, file, o⟩ := (parseOptions_iff _ _ _).2 ⟨path, content, hp, (c55_iface _ _).2 hn, hf, hcon, ho⟩
    refine ⟨o, rfl, ?_⟩
    rintro c rfl
    have hm : ∀ op f, operate h w [op, arg] arg f = f (h.cfg ⟨n, file, o⟩) := by
      intro op f
      unfold operate
      rw [if_pos hr, hpo]
    refine ⟨⟨started (h.cfg ⟨n, file, o⟩) w = true, ?_, ?_, ?_⟩, ?_, ?_, ?_⟩
    · rw [main_strip, hm]
      exact idle_ends (.inl ⟨rfl, rfl⟩) rfl
    · intro hg
      rw [main_strip, hm]
      unfold operatedStrip
      dsimp only
      rw [if_pos hg]
      exact c51_strip ho hl hs
    · intro hg
      rw [main_strip, hm]
      unfold operatedStrip
      dsimp only
      rw [if_neg hg]
    · rw [main_up, hm]; rfl
    · rw [main_down, hm]; rfl
    · rw [main_save, hm]; rfl

/-- From the file to the interface: when `wg-quick up` ends with status 0 and there were no signals, all steps of `up` were done with the
settings of the file; and `wg setconf`, in any system and in whatever way it reached the interface, took it from any state to the one
described by the lines that are not wg-quick's own. -/
theorem c83_up_configures (hsort : ∀ l, (h.sort l).Perm l) (hord : ∀ l, (h.order l).Perm l) (arg path n file : CStr) (hr : h.root = true)
    (hp : FileOf h.plat (fun p => h.fs.exists_ p = true) arg path) (hn : NamedIn path n)
    (hf : ReadAs h.plat h.fs.resolve h.fs.cd path file) (content : List UInt8) (hcon : h.fs.content file = some content) (lines kept : List CStr) (sets : List (CStr × CStr))
    (hl : ScriptLines content lines) (hs : Says lines kept sets)
    (h0 : (bsdMain h w [b!"up", arg]).end_ = .exit 0) (hsig : ∀ v ∈ (bsdMain h w [b!"up", arg]).st.hist, v.2.sig = false) :
    ∃ o, parseConf content = some o ∧ ∃ dir real h' l, (bsdMain h w [b!"up", arg]).st.hist = h' ++ l ∧ UpDone (h.cfg ⟨n, file, o⟩) dir real h' ∧ TempRemoved (h.cfg ⟨n, file, o⟩) dir l ∧
    ∃ text r, ((.act ([b!"wg", b!"setconf", real] ++ (if h.plat = .freebsd then [b!"/dev/stdin"] else [])) text, r) : Ev) ∈ (bsdMain h w [b!"up", arg]).st.hist ∧ r.status = 0 ∧
      ∀ {R : Readers} {sys : System} (_ : Sane R sys) (env : Env) (_ : 0xffffffff < env.ulongMax) (sort : List PubkeyOrigin → List PubkeyOrigin) (ipc : Ipc)
        (fd : CStr) (f : FileObj) (_ : env.file fd = some f) (_ : f.bytes = text) (tr : List SockEv) (sent : List Sent)
        (_ : Carried sys ipc tr (setconfMain env sort ipc [b!"setconf", real, fd]).calls sent) (_ : (setconfMain env sort ipc [b!"setconf", real, fd]).end_ = .ok 0),
        ∃ secs x, FileSays (docNow env) kept secs ∧ sent = [x] ∧
          (EndpointsRead R sys x (fileMeaning false secs) → Makes R sys (real.take 15) x (requestOf (fileMeaning false secs))) := by
  cases ho : parseConf content with
  | none =>
    have hx := (c83_refused (c := h.bare) (w := w) rfl b!"up" arg (.inl rfl) hr fun q hq => by
      have e : q = path := (fileOf_confPath hq).symm.trans (fileOf_confPath hp)
      subst e
      refine .inr fun f' hf' => .inr ⟨content, lines, kept, sets, ?_, hl, hs, (c54_refused hl hs).1 ho⟩
      have e : f' = file := Option.some.inj (((resolved_iff _ _ _).2 hf').symm.trans ((resolved_iff _ _ _).2 hf))
      rw [e]; exact hcon).1
    obtain ⟨got, hx⟩ := hx
    rw [h0] at hx
    rcases hx with ⟨_, dir, lt, l, _, _, h1⟩ | ⟨_, _, h1⟩
    · rcases h1 with ⟨_, h1⟩ | ⟨_, m, hm, h1⟩
      · cases h1
      · cases h1; exact absurd rfl hm
    · rcases h1 with ⟨_, _, _, h1⟩ | ⟨_, _, _, h1⟩
      · rcases h1 with ⟨_, _, h1⟩ | ⟨_, h1⟩ <;> cases h1
      · cases h1
  | some o =>
    have hok : ∀ v ∈ valuesOf b!"saveconfig" sets, EqNoCase v b!"true" ∨ EqNoCase v b!"false" := by
      intro v hv
      by_contra hne
      rw [not_or] at hne
      have := (c54_refused hl hs).2 ⟨v, hv, hne⟩
      rw [ho] at this; cases this
    obtain ⟨o', ho', hacc⟩ := c83_accepted (w := w) arg path n file hr hp hn hf content hcon lines kept sets hl hs hok
    rw [ho] at ho'; cases ho'
    obtain ⟨_, hup, _, _⟩ := hacc _ rfl
    rw [h0] at hup
    refine ⟨o, rfl, ?_⟩
    obtain ⟨dir, real, h', l, e1, e2, e3⟩ := c75_exit (c := h.cfg ⟨n, file, o⟩) hsort hord hup.symm hsig
    refine ⟨dir, real, h', l, e1, e2, e3, ?_⟩
    obtain ⟨ltemp, lcheck, ladd, lpre, conf, laddrs, lmtu, up, ldns, q, routes, lroutes, ldirect, llate, mon, lpost, eh, _, _, _, _, hconf, _⟩ := e2
    obtain ⟨hc1, hc2⟩ := hconf
    refine ⟨stripText o, conf.2, ?_, hc2, ?_⟩
    · have : conf ∈ (bsdMain h w [b!"up", arg]).st.hist := by rw [e1, eh]; simp
      have e : conf = (conf.1, conf.2) := rfl
      rw [e, hc1] at this
      exact this
    intro R sys hsys env hM sort ipc fd f hf hbytes tr sent hrun hend
    obtain ⟨secs, x, k1, k2, k3⟩ := Props.c62_setconf hsys env hM sort ipc b!"setconf" real fd (.inl rfl) tr sent hrun hend
    obtain ⟨f', k4, k5, -⟩ := k1
    rw [hf] at k4; cases k4
    refine ⟨secs, x, ?_, k2, k3⟩
    rw [hbytes, c51_strip ho hl hs] at k5
    have hl' := hl
    rw [WG.Quick.scriptLines_iff] at hl'; subst hl'
    exact (fileSays_kept fun l hk => WG.Quick.bodyLines_bytes content l ((WG.Quick.says_sublist hs).subset hk)).1 k5

end

/-! ### Examples -/

/-- A file with settings of both kinds. -/
def exBsdFile : List UInt8 :=
  b!"[Interface]\nAddress = 10.7.0.2/24\nListenPort = 51820\nPostUp = echo %i\n\n[Peer]\nPublicKey = AQAAAAAAAAAAAAAAAAAAAAAAAAAAAAAAAAAAAAAAAAA=\nAllowedIPs = 10.7.0.0/24\n"
/-- What `wg` is told of it. -/
def exBsdKept : List UInt8 :=
  b!"[Interface]\nListenPort = 51820\n\n[Peer]\nPublicKey = AQAAAAAAAAAAAAAAAAAAAAAAAAAAAAAAAAAAAAAAAAA=\nAllowedIPs = 10.7.0.0/24\n\n"

/-- A host on which that is the file `file`, with the working directory `/home`. -/
def exBsdHost (plat : Plat) (root : Bool) (file : CStr) (files : List CStr) : Host where
  plat := plat
  root := root
  bash := b!"/bin/bash"
  self := b!"/usr/bin/wg-quick"
  prompt := b!"root?"
  launchd := true
  fs := { exists_ := fun p => p ∈ files, resolve := id,
          cd := fun d => if d = [] then some b!"/home" else if d ∈ files then none else some d,
          content := fun p => if p = file then some exBsdFile else if p ∈ files then some [] else none }
  userspace := b!"wireguard-go"
  sort := id
  patsub := true
  order := id
  patience := 3

/-- A file in the second directory of the search path. -/
def exLocal (root : Bool) (plat : Plat) : Host := exBsdHost plat root b!"/usr/local/etc/wireguard/wg0.conf" [b!"/usr/local/etc/wireguard/wg0.conf"]
def exFreeTemp : World := exFreeWorld { status := 0 } { status := 0 }

/-- The hypotheses of `c83_accepted` and `c83_up_configures` are met on FreeBSD … -/
example : FileOf .freebsd (fun p => (exLocal true .freebsd).fs.exists_ p = true) b!"wg0" b!"/usr/local/etc/wireguard/wg0.conf" ∧
    NamedIn b!"/usr/local/etc/wireguard/wg0.conf" b!"wg0" ∧
    ReadAs .freebsd (exLocal true .freebsd).fs.resolve (exLocal true .freebsd).fs.cd b!"/usr/local/etc/wireguard/wg0.conf" b!"/usr/local/etc/wireguard/wg0.conf" ∧
    (bsdMain (exLocal true .freebsd) exFreeTemp [b!"up", b!"wg0"]).end_ = .exit 0 ∧
    (∀ v ∈ (bsdMain (exLocal true .freebsd) exFreeTemp [b!"up", b!"wg0"]).st.hist, v.2.sig = false) ∧
    (.act [b!"wg", b!"setconf", b!"wg0", b!"/dev/stdin"] exBsdKept) ∈ (bsdMain (exLocal true .freebsd) exFreeTemp [b!"up", b!"wg0"]).st.hist.map (·.1) ∧
    (bsdMain (exLocal true .freebsd) exFreeTemp [b!"strip", b!"wg0"]).out = exBsdKept :=
  ⟨confPath_fileOf (h := exLocal true .freebsd) (arg := b!"wg0") (by decide +kernel), (c55_iface _ _).1 (by decide +kernel), rfl,
    by decide +kernel, by decide +kernel, by decide +kernel, by decide +kernel⟩

/-- The same on macOS, in the first directory although there is another. -/
def exTun : Host := exBsdHost .darwin true b!"/etc/wireguard/tun.conf" [b!"/usr/local/etc/wireguard/tun.conf", b!"/etc/wireguard/tun.conf"]

/-- … and on macOS, where `up` waits for the monitor when launched by launchd. -/
example : FileOf .darwin (fun p => (exTun).fs.exists_ p = true) b!"tun" b!"/etc/wireguard/tun.conf" ∧
    ReadAs .darwin (exTun).fs.resolve (exTun).fs.cd b!"/etc/wireguard/tun.conf" b!"/etc/wireguard/tun.conf" ∧
    (bsdMain (exTun) exMacWorld [b!"up", b!"tun"]).end_ = .exit 0 ∧ (bsdMain (exTun) exMacWorld [b!"up", b!"tun"]).waits = true ∧
    (∀ v ∈ (bsdMain (exTun) exMacWorld [b!"up", b!"tun"]).st.hist, v.2.sig = false) ∧
    (.act [b!"wg", b!"setconf", b!"utun3"] exBsdKept) ∈ (bsdMain (exTun) exMacWorld [b!"up", b!"tun"]).st.hist.map (·.1) :=
  ⟨confPath_fileOf (h := exTun) (arg := b!"tun") (by decide +kernel),
    ⟨b!"/etc/wireguard", b!"tun.conf", b!"/etc/wireguard", .inl ⟨by decide, by decide⟩, by decide +kernel, by decide +kernel⟩,
    by decide +kernel, by decide +kernel, by decide +kernel, by decide +kernel⟩

/-- OpenBSD does not look in the second directory: the hypothesis of `c83_refused`. -/
example : (∀ path, ¬ FileOf .openbsd (fun p => (exLocal true .openbsd).fs.exists_ p = true) b!"wg0" path) ∧
    (bsdMain (exLocal true .openbsd) exPlain [b!"down", b!"wg0"]).end_ = .exit 1 ∧ (bsdMain (exLocal true .openbsd) exPlain [b!"down", b!"wg0"]).st.hist = [] ∧
    (bsdMain (exLocal true .openbsd) exPlain [b!"down"]).usage = true ∧ (bsdMain (exLocal true .openbsd) exPlain [b!"down"]).end_ = .exit 1 := by
  refine ⟨fun path hp => ?_, by decide +kernel, by decide +kernel, by decide +kernel, by decide +kernel⟩
  have h1 := fileOf_confPath (h := exLocal true .openbsd) hp
  have h2 := hp.1
  rw [← h1] at h2
  revert h2
  decide +kernel

/-- Without root rights. -/
example : (bsdMain (exLocal false .openbsd) exPlain [b!"up", b!"wg0"]).end_ =
      .exec [b!"doas", b!"--", b!"/bin/bash", b!"--", b!"/usr/bin/wg-quick", b!"up", b!"wg0"] ∧ (bsdMain (exLocal false .openbsd) exPlain [b!"up", b!"wg0"]).st.hist = [] ∧
    (bsdMain (exLocal false .darwin) exPlain [b!"up", b!"wg0"]).end_ =
      .exec [b!"sudo", b!"-p", b!"root?", b!"--", b!"/bin/bash", b!"--", b!"/usr/bin/wg-quick", b!"up", b!"wg0"] := by decide +kernel

/-! ### What does not hold -/

def exTempWorld : World := fun _ c => if c = cmd [b!"mktemp", b!"-d"] then { status := 0, out := b!"/tmp/x\n" } else { status := 0 }

/-- FreeBSD: without root rights a temporary directory is made, and stays. -/
theorem c83_counterexample_temp_left : ∃ (h : Host) (w : World) (p : List CStr), h.plat = .freebsd ∧ (bsdMain h w [b!"strip", b!"wg0"]).end_ = .exec p ∧
    (cmd [b!"mktemp", b!"-d"], { status := 0, out := b!"/tmp/x\n" }) ∈ (bsdMain h w [b!"strip", b!"wg0"]).st.hist ∧
    ∀ v ∈ (bsdMain h w [b!"strip", b!"wg0"]).st.hist, v.1 ≠ cmd [b!"rm", b!"-rf", b!"/tmp/x"] := by
  refine ⟨exLocal false .freebsd, exTempWorld,
    [b!"sudo", b!"-p", b!"root?", b!"--", b!"/bin/bash", b!"--", b!"/usr/bin/wg-quick", b!"strip", b!"wg0"], rfl, by decide +kernel, by decide +kernel, by decide +kernel⟩

/-- macOS: an existing file that can be read, given by its name in the working directory, is refused (elsewhere it is not). -/
theorem c83_counterexample_bare : ∃ (arg n : CStr), ∀ plat, ∃ h : Host, h.plat = plat ∧ h.root = true ∧ h.fs.exists_ arg = true ∧ NamedIn arg n ∧
    h.fs.content arg = some exBsdFile ∧ ∃ w : World, (bsdMain h w [b!"strip", arg]).end_ = .exit (if plat = .darwin then 1 else 0) := by
  refine ⟨b!"interface-one.conf", b!"interface-one", fun plat => ⟨exBsdHost plat true b!"interface-one.conf" [b!"interface-one.conf"],
    rfl, rfl, by cases plat <;> decide +kernel, (c55_iface _ _).1 (by decide +kernel), by cases plat <;> decide +kernel, exTempWorld, ?_⟩⟩
  cases plat <;> decide +kernel

/-- macOS: for a file in the root directory, the file of that name in the working directory is read. -/
theorem c83_counterexample_root : ∃ (h : Host) (w : World), h.plat = .darwin ∧ h.root = true ∧ h.fs.exists_ b!"/wg0.conf" = true ∧ h.fs.content b!"/wg0.conf" = some [] ∧
    h.fs.content b!"/home/wg0.conf" = some exBsdFile ∧ (bsdMain h w [b!"strip", b!"/wg0.conf"]).end_ = .exit 0 ∧ (bsdMain h w [b!"strip", b!"/wg0.conf"]).out = exBsdKept := by
  refine ⟨exBsdHost .darwin true b!"/home/wg0.conf" [b!"/wg0.conf", b!"/home/wg0.conf"], fun _ _ => { status := 0 }, rfl, rfl, by decide +kernel, by decide +kernel, by decide +kernel,
    by decide +kernel, by decide +kernel⟩

end WG.Props
