import Verif.Model.QuickMain
import Verif.Props.Quick
import Verif.Props.QuickRun
import Verif.Props.QuickSave
import Verif.Props.EndToEnd
/-! C64: wg-quick as a whole, from its arguments to the state of the interface. -/
namespace WG
open Spec Spec.Quick Quick

/-- The operations of wg-quick. -/
abbrev IsOperation (op : CStr) : Prop := op = b!"up" ∨ op = b!"down" ∨ op = b!"save" ∨ op = b!"strip"

/-- A request for help. -/
abbrev IsHelp (args : List CStr) : Prop := args = [b!"--help"] ∨ args = [b!"-h"] ∨ args = [b!"help"]

/-- The file wg-quick reads for the argument `arg`. -/
def fileFor (arg : CStr) (path : CStr) : Prop :=
  (IsIfaceName arg → path = b!"/etc/wireguard/" ++ arg ++ b!".conf") ∧ (¬ IsIfaceName arg → path = arg)

/-- `n` is the last component of `path` without `.conf`, and a valid name. -/
def NamedIn (path n : CStr) : Prop := IsIfaceName n ∧ (path = n ++ b!".conf" ∨ ∃ dir, path = dir ++ b!"/" ++ n ++ b!".conf")

/-- C64. Help: the usage message and nothing else, with success. -/
theorem c64_help (h : Host) (w : World) (args : List CStr) (ha : IsHelp args) : quickMain h w args = { end_ := .exit 0, usage := true } := by
  rcases ha with rfl | rfl | rfl <;> rfl

/-- C64. Anything that is neither help nor an operation with exactly one argument: the usage message and nothing else, with status 1. -/
theorem c64_wrong_usage (h : Host) (w : World) (args : List CStr) (h1 : ¬ IsHelp args) (h2 : ¬ ∃ op arg, IsOperation op ∧ args = [op, arg]) :
    quickMain h w args = { end_ := .exit 1, usage := true } := by
  match args with
  | [] => rfl
  | [a] =>
    rw [quickMain, if_neg]
    intro ha
    apply h1
    rcases ha with rfl | rfl | rfl <;> simp [IsHelp]
  | [op, arg] =>
    have : ¬ IsOperation op := fun ho => h2 ⟨op, arg, ho, rfl⟩
    simp only [IsOperation, not_or] at this
    simp only [quickMain]
    rw [if_neg this.1, if_neg this.2.1, if_neg this.2.2.1, if_neg this.2.2.2]
  | _ :: _ :: _ :: _ => rfl

/-- C64. Without root rights nothing is done but replacing the script by `sudo`, which is to run it again with the same arguments. -/
theorem c64_not_root (h : Host) (w : World) (op arg : CStr) (ho : IsOperation op) (hr : h.root = false) :
    quickMain h w [op, arg] = { end_ := .exec [b!"sudo", b!"-p", h.prompt, b!"--", h.bash, b!"--", h.self, op, arg] } := by
  rcases ho with rfl | rfl | rfl | rfl <;> simp [quickMain, operate, autoSu, hr]

theorem fileFor_confPath (arg : CStr) : fileFor arg (confPath arg) := by
  unfold fileFor confPath
  rw [← isName_iff]
  constructor
  · intro h; rw [if_pos h]
  · intro h; rw [if_neg h]

theorem fileFor_unique {arg p q : CStr} (h1 : fileFor arg p) (h2 : fileFor arg q) : p = q := by
  by_cases h : IsIfaceName arg
  · rw [h1.1 h, h2.1 h]
  · rw [h1.2 h, h2.2 h]

theorem parseOptions_some (fs : Fs) (arg : CStr) (p : Parsed) (h : parseOptions fs arg = some p) :
    ∃ path content, fileFor arg path ∧ fs.exists_ path = true ∧ NamedIn path p.iface ∧ p.configFile = fs.resolve path ∧ fs.content (fs.resolve path) = some content ∧
      parseConf content = some p.opts := by
  unfold parseOptions at h
  dsimp only at h
  split at h
  swap
  · cases h
  rename_i hex
  split at h
  · cases h
  rename_i iface hi
  split at h
  · cases h
  rename_i content hc
  split at h
  · cases h
  rename_i o ho
  cases h
  exact ⟨_, content, fileFor_confPath arg, hex, (c55_iface _ _).1 hi, rfl, hc, ho⟩

theorem parseOptions_none (fs : Fs) (arg : CStr) : parseOptions fs arg = none ↔
    ∀ path, fileFor arg path → fs.exists_ path = false ∨ (∀ n, ¬ NamedIn path n) ∨ fs.content (fs.resolve path) = none ∨
      ∃ content, fs.content (fs.resolve path) = some content ∧ parseConf content = none := by
  constructor
  · intro h path hp
    cases fileFor_unique hp (fileFor_confPath arg)
    unfold parseOptions at h
    dsimp only at h
    split at h
    swap
    · rename_i hex; left; simpa using hex
    split at h
    · rename_i hi
      right; left
      intro n hn
      rw [NamedIn, ← c55_iface, hi] at hn
      cases hn
    split at h
    · rename_i hc; exact .inr (.inr (.inl hc))
    rename_i content hc
    split at h
    · rename_i ho; exact .inr (.inr (.inr ⟨content, hc, ho⟩))
    · cases h
  · intro h
    cases hp : parseOptions fs arg with
    | none => rfl
    | some p =>
      obtain ⟨path, content, h1, h2, h3, -, h4, h5⟩ := parseOptions_some fs arg p hp
      rcases h path h1 with h | h | h | ⟨c, hc, h⟩
      · rw [h] at h2; cases h2
      · exact absurd h3 (h _)
      · rw [h] at h4; cases h4
      · rw [hc] at h4; cases h4; rw [h] at h5; cases h5

/-- C64. A refusal before anything is done: if the file does not exist, is not named like an interface, cannot be read, or says something about SaveConfig that is neither true nor false,
then every operation exits with status 1 without running any command. -/
theorem c64_refused (h : Host) (w : World) (op arg path : CStr) (ho : IsOperation op) (hr : h.root = true) (hp : fileFor arg path)
    (hbad : h.fs.exists_ path = false ∨ (∀ n, ¬ NamedIn path n) ∨ h.fs.content (h.fs.resolve path) = none ∨
      ∃ content lines kept sets, h.fs.content (h.fs.resolve path) = some content ∧ ScriptLines content lines ∧ Says lines kept sets ∧
        ∃ v ∈ valuesOf b!"saveconfig" sets, ¬ EqNoCase v b!"true" ∧ ¬ EqNoCase v b!"false") :
    quickMain h w [op, arg] = { end_ := .exit 1 } := by
  have hn : parseOptions h.fs arg = none := by
    rw [parseOptions_none]
    intro q hq
    cases fileFor_unique hp hq
    rcases hbad with hb | hb | hb | ⟨content, lines, kept, sets, h1, h2, h3, h4⟩
    · exact .inl hb
    · exact .inr (.inl hb)
    · exact .inr (.inr (.inl hb))
    · exact .inr (.inr (.inr ⟨content, h1, (c54_refused h2 h3).2 h4⟩))
  rcases ho with rfl | rfl | rfl | rfl <;> simp [quickMain, operate, autoSu, hr, hn]

/-- C64. Otherwise the operation asked for, and no other, is carried out with the settings of that file: `strip` prints the lines that are not wg-quick's own and runs no command; the others run the
commands of `up`, `down` or `save` and exit with 0 if they reach their end. -/
theorem c64_accepted (h : Host) (w : World) (arg path : CStr) (hr : h.root = true) (hp : fileFor arg path) (hex : h.fs.exists_ path = true) (n : CStr) (hn : NamedIn path n)
    (content : List UInt8) (hc : h.fs.content (h.fs.resolve path) = some content) (lines kept : List CStr) (sets : List (CStr × CStr)) (hl : ScriptLines content lines)
    (hs : Says lines kept sets) (hok : ∀ v ∈ valuesOf b!"saveconfig" sets, EqNoCase v b!"true" ∨ EqNoCase v b!"false") :
    ∃ o, parseConf content = some o ∧
      let c := h.cfg ⟨n, h.fs.resolve path, o⟩
      quickMain h w [b!"strip", arg] = { end_ := .exit 0, out := kept.flatMap (· ++ b!"\n") ++ b!"\n" } ∧
      quickMain h w [b!"up", arg] = endOf (cmdUp c w {}) ∧ quickMain h w [b!"down", arg] = endOf (cmdDown c w {}) ∧ quickMain h w [b!"save", arg] = endOf (cmdSave c w {}) := by
  cases ho : parseConf content with
  | none =>
    obtain ⟨v, hv, h1, h2⟩ := (c54_refused hl hs).1 ho
    rcases hok v hv with h | h
    · exact absurd h h1
    · exact absurd h h2
  | some o =>
    have hpo : parseOptions h.fs arg = some ⟨n, h.fs.resolve path, o⟩ := by
      have he := fileFor_unique hp (fileFor_confPath arg)
      unfold parseOptions
      dsimp only
      rw [← he, if_pos hex, (c55_iface _ _).2 hn]
      simp only [hc, ho]
    refine ⟨o, rfl, ?_, ?_, ?_, ?_⟩
    · simp only [quickMain, operate, autoSu, hr, hpo]
      rw [← show stripText o = _ from c51_strip ho hl hs]
      rfl
    all_goals simp only [quickMain, operate, autoSu, hr, hpo]; rfl

theorem fileSays_kept {V : ValueSyntax} {kept : List CStr} (h : ∀ l ∈ kept, (10 : UInt8) ∉ l ∧ (0 : UInt8) ∉ l) {secs : List Section} :
    FileSays V ((fileLines (kept.flatMap (· ++ [10]) ++ [10])).map beforeNul) secs ↔ FileSays V kept secs := by
  have := cleanLines_kept kept h
  unfold cleanLines at this
  unfold FileSays
  have e : ((getlines (kept.flatMap (· ++ [10]) ++ [10])).map cstr) = (fileLines (kept.flatMap (· ++ [10]) ++ [10])).map beforeNul := by
    rw [getlines_eq]; rfl
  rw [← e, this]

/-- C64. From the file to the interface: when `wg-quick up` exits with status 0, did not delete the interface again and no command of the undoing failed, then all steps of `up` were done with the
settings of the file; and `wg setconf`, in any system and in whatever way it reached the interface, took it from any state to the one described by the lines that are not wg-quick's own. -/
theorem c64_up_configures (h : Host) (w : World) (arg path : CStr) (hr : h.root = true) (hp : fileFor arg path) (hex : h.fs.exists_ path = true) (n : CStr) (hn : NamedIn path n)
    (content : List UInt8) (hc : h.fs.content (h.fs.resolve path) = some content) (lines kept : List CStr) (sets : List (CStr × CStr)) (hl : ScriptLines content lines)
    (hs : Says lines kept sets)
    (h0 : (quickMain h w [b!"up", arg]).end_ = .exit 0)
    (hd : ∀ e ∈ (quickMain h w [b!"up", arg]).hist, e.1 ≠ .act [b!"ip", b!"link", b!"delete", b!"dev", n] [])
    (hu : ∀ e ∈ (quickMain h w [b!"up", arg]).hist, IsUndo (h.cfg ⟨n, h.fs.resolve path, {}⟩) e.1 → e.2.status = 0) :
    ∃ o check a b, parseConf content = some o ∧ (quickMain h w [b!"up", arg]).hist = check :: (a ++ b) ∧ Added (h.cfg ⟨n, h.fs.resolve path, o⟩) a ∧ RestSteps (h.cfg ⟨n, h.fs.resolve path, o⟩) b ∧
    ∃ text r, ((.act [b!"wg", b!"setconf", n] text, r) : Ev) ∈ (quickMain h w [b!"up", arg]).hist ∧ r.status = 0 ∧
      ∀ {R : Readers} {sys : System} (_ : Sane R sys) (env : Env) (_ : 0xffffffff < env.ulongMax) (sort : List PubkeyOrigin → List PubkeyOrigin) (ipc : Ipc)
        (fd : CStr) (f : FileObj) (_ : env.file fd = some f) (_ : f.bytes = text) (tr : List SockEv) (sent : List Sent)
        (_ : Carried sys ipc tr (setconfMain env sort ipc [b!"setconf", n, fd]).calls sent) (_ : (setconfMain env sort ipc [b!"setconf", n, fd]).end_ = .ok 0),
        ∃ secs x, FileSays (docNow env) kept secs ∧ sent = [x] ∧
          (EndpointsRead R sys x (fileMeaning false secs) → Makes R sys n x (requestOf (fileMeaning false secs))) := by
  cases ho : parseConf content with
  | none =>
    have := c64_refused h w b!"up" arg path (.inl rfl) hr hp (.inr (.inr (.inr ⟨content, lines, kept, sets, hc, hl, hs, (c54_refused hl hs).1 ho⟩)))
    rw [this] at h0; cases h0
  | some o =>
    have hok : ∀ v ∈ valuesOf b!"saveconfig" sets, EqNoCase v b!"true" ∨ EqNoCase v b!"false" := by
      intro v hv
      by_contra hne
      rw [not_or] at hne
      have := (c54_refused hl hs).2 ⟨v, hv, hne⟩
      rw [ho] at this; cases this
    obtain ⟨o', ho', -, hup, -, -⟩ := c64_accepted h w arg path hr hp hex n hn content hc lines kept sets hl hs hok
    rw [ho] at ho'; cases ho'
    set c := h.cfg ⟨n, h.fs.resolve path, o⟩ with hcdef
    have hci : c.iface = n := rfl
    have hundo : ∀ a, IsUndo c a ↔ IsUndo (h.cfg ⟨n, h.fs.resolve path, {}⟩) a := fun _ => Iff.rfl
    rw [hup] at h0 hd hu ⊢
    have hhist : (endOf (cmdUp c w {})).hist = (cmdUp c w {}).2.hist := by
      rcases cmdUp c w {} with ⟨_ | _ | _ | _, s⟩ <;> rfl
    rw [hhist] at hd hu ⊢
    by_cases hs1 : (w [] (upCheck c)).sig = true
    · unfold cmdUp at h0
      rw [bind_call, if_pos (show (w ({} : St).hist (linkShow c)).sig = true from hs1)] at h0
      cases h0
    have hs1 : (w [] (upCheck c)).sig = false := by simpa using hs1
    by_cases hs2 : captured (w [] (upCheck c)).out = []
    swap
    · have := (c50_existing c w hs1 hs2).1
      rcases hx : cmdUp c w {} with ⟨q, s⟩
      rw [hx] at h0 this
      cases this; cases h0
    have hfin : (cmdUp c w {}).1 = .ok () := by
      rcases hx : cmdUp c w {} with ⟨q, s⟩
      cases q with
      | ok u => rfl
      | signal m => exact absurd (by rw [hx]) (c50_no_signal_end c w m hs1)
      | running => rw [hx] at h0; cases h0
      | exit m =>
        obtain ⟨h', e, g1, g2⟩ := c50_interface_deleted c w m hs1 hs2 (by rw [hx])
        have hm : e ∈ (cmdUp c w {}).2.hist := by rw [g1]; simp
        rcases g2 with g2 | ⟨g2, g3⟩
        · exact absurd g2 (hd e hm)
        · exact absurd (hu e hm ((hundo _).1 g2)) g3
    obtain ⟨a, b, g1, g2, g3, g4⟩ := c50_success c w () hs1 hs2 hfin
    refine ⟨o, _, a, b, rfl, g1, g2, g3, ?_⟩
    obtain ⟨hpre, rset, haddrs, hmtu, hdns, q, routes, hroutes, hpost, hb, -⟩ := g3
    have hmem : (((.act [b!"wg", b!"setconf", n] (stripText o), rset) : Ev)) ∈ b := by rw [hb]; simp [stripText, hcdef, Host.cfg]
    refine ⟨stripText o, rset, by rw [g1]; simp [hmem], (g4 _ hmem).2 rfl, ?_⟩
    intro R sys hsys env hM sort ipc fd f hf hbytes tr sent hrun hend
    obtain ⟨secs, x, k1, k2, k3⟩ := Props.c62_setconf hsys env hM sort ipc b!"setconf" n fd (.inl rfl) tr sent hrun hend
    obtain ⟨f', k4, k5, -⟩ := k1
    rw [hf] at k4; cases k4
    refine ⟨secs, x, ?_, k2, ?_⟩
    · rw [hbytes, c51_strip ho hl hs] at k5
      have hl' := hl
      rw [scriptLines_iff] at hl'; subst hl'
      exact (fileSays_kept fun l hk => bodyLines_bytes content l ((says_sublist hs).subset hk)).1 k5
    · rw [List.take_of_length_le hn.1.2.1] at k3
      exact k3

/-- C64. `wg-quick down` exits with 0 only if it was carried out on the interface of the file: every step, in order (see C58). -/
theorem c64_down (h : Host) (w : World) (arg : CStr) (h0 : (quickMain h w [b!"down", arg]).end_ = .exit 0) (hr : h.root = true) :
    ∃ path n content o, fileFor arg path ∧ h.fs.exists_ path = true ∧ NamedIn path n ∧ h.fs.content (h.fs.resolve path) = some content ∧ parseConf content = some o ∧
      (quickMain h w [b!"down", arg]) = endOf (cmdDown (h.cfg ⟨n, h.fs.resolve path, o⟩) w {}) := by
  have e : quickMain h w [b!"down", arg] = operate h [b!"down", arg] arg fun p => endOf (cmdDown (h.cfg p) w {}) := rfl
  cases hp : parseOptions h.fs arg with
  | none =>
    rw [e] at h0
    simp only [operate, autoSu, hr, hp, if_true] at h0
    cases h0
  | some p =>
    obtain ⟨path, content, h1, h2, h3, h4, h5, h6⟩ := parseOptions_some h.fs arg p hp
    refine ⟨path, p.iface, content, p.opts, h1, h2, h3, h5, h6, ?_⟩
    rw [e, ← h4]
    simp only [operate, autoSu, hr, hp, if_true]

/-! ### `save` -/

namespace Quick

/-- `m` exits with 0, or is stopped by a signal, only if some command was stopped by a signal. -/
def Candid (m : Sh α) : Prop := ∀ w s, ((m w s).1 = .exit 0 ∨ ∃ n, (m w s).1 = .signal n) → ∃ e ∈ (m w s).2.hist, e.2.sig = true

theorem candid_bind {m : Sh α} {f : α → Sh β} (hm : Candid m) (hf : ∀ a, Candid (f a)) : Candid (m.bind f) := by
  intro w s h
  have := hm w s
  unfold Sh.bind at h ⊢
  rcases e : m w s with ⟨_ | _ | _ | _, s'⟩ <;> rw [e] at h this
  · exact hf _ w s' h
  · exact this (by simpa using h)
  · exact this (by simp)
  · rcases h with h | ⟨n, h⟩ <;> cases h

theorem candid_pure (a : α) : Candid (Sh.pure a) := by
  intro w s h
  rcases h with h | ⟨n, h⟩ <;> cases h

theorem candid_exit {n : Nat} (hn : n ≠ 0) : Candid (exitWith n : Sh α) := by
  intro w s h
  rcases h with h | ⟨n, h⟩
  · cases h; exact absurd rfl hn
  · cases h

theorem candid_call (a : Call) : Candid (call a) := by
  intro w s h
  unfold call at h ⊢
  by_cases hs : (w s.hist a).sig = true
  · rw [if_pos hs]; exact ⟨(a, w s.hist a), by simp, hs⟩
  · rw [if_neg hs] at h
    rcases h with h | ⟨n, h⟩ <;> cases h

theorem rm_exit' (c : Cfg) (n : Nat) (w : World) (s : St) :
    ∃ r m, onExit (rmCleanup c) n w s = (.exit m, { s with hist := s.hist ++ [(removeTmp c, r)] }) ∧ (m = n ∨ m ≠ 0) := by
  unfold onExit rmCleanup
  rw [bind_call, if_neg (by simp [calm])]
  by_cases h : (calm w s.hist (removeTmp c)).status ≠ 0
  · rw [if_pos h]; exact ⟨_, _, rfl, .inr h⟩
  · rw [if_neg h]; exact ⟨_, _, rfl, .inl rfl⟩

theorem candid_guarded (c : Cfg) {m : Sh Unit} (hm : Candid m) : Candid (guarded (rmCleanup c) m) := by
  intro w s h
  have hc := hm w s
  unfold guarded at h ⊢
  rcases e : m w s with ⟨_ | n | n | _, s'⟩ <;> rw [e] at h hc
  · rcases h with h | ⟨n, h⟩ <;> cases h
  · obtain ⟨r, k, h1, h2⟩ := rm_exit' c n w s'
    dsimp only at h ⊢
    rw [h1] at h ⊢
    rcases h with h | ⟨n, h⟩
    · cases h
      rcases h2 with h2 | h2
      · subst h2
        obtain ⟨e, he, hs⟩ := hc (.inl rfl)
        exact ⟨e, List.mem_append_left _ he, hs⟩
      · exact absurd rfl h2
    · cases h
  · obtain ⟨e, he, hs⟩ := hc (.inr ⟨n, rfl⟩)
    refine ⟨e, ?_, hs⟩
    obtain ⟨r, h3, h4⟩ := rm_run c w s'
    dsimp only at h ⊢
    rcases e2 : rmCleanup c (calm w) s' with ⟨o2, s2⟩
    rw [e2] at h3 h4
    dsimp only at h3 h4
    subst h3
    rcases h4 with rfl | ⟨k, rfl⟩
    · obtain ⟨r, k, h1, -⟩ := rm_exit' c n w { s' with hist := s'.hist ++ [(removeTmp c, r)] }
      dsimp only
      rw [h1]
      simp [he]
    · obtain ⟨r, k, h1, -⟩ := rm_exit' c k w { s' with hist := s'.hist ++ [(removeTmp c, r)] }
      dsimp only
      rw [h1]
      simp [he]
  · rcases h with h | ⟨n, h⟩ <;> cases h

theorem candid_step (a : Call) : Candid ((call a).bind fun r => if r.status ≠ 0 then exitWith r.status else Sh.pure ()) := by
  refine candid_bind (candid_call _) fun r => ?_
  by_cases h : r.status ≠ 0
  · rw [if_pos h]; exact candid_exit h
  · rw [if_neg h]; exact candid_pure _

theorem candid_ifacePrefix : Candid ifacePrefix := by
  unfold ifacePrefix
  refine candid_bind (candid_call _) fun t => ?_
  by_cases h : t.status ≠ 0
  · rw [if_pos h]; exact candid_pure _
  · rw [if_neg h]
    refine candid_bind (candid_call _) fun r => ?_
    cases (readLoopLines r.out).findSome? orderPrefix <;> exact candid_pure _

theorem candid_save (c : Cfg) : Candid (cmdSave c) := by
  unfold cmdSave checkIface
  refine candid_bind (candid_bind (candid_call _) fun r => ?_) fun _ => ?_
  · split
    · exact candid_pure _
    · exact candid_exit (by decide)
  rw [saveConfig_eq]
  unfold gather resolvShow savedMtu
  refine candid_bind (candid_bind (candid_call _) fun a => candid_bind (candid_bind candid_ifacePrefix fun _ => candid_bind (candid_call _) fun r => ?_) fun d =>
      candid_bind ?_ fun m => candid_bind (candid_call _) fun s => candid_pure _) fun g => ?_
  · split
    · exact candid_pure _
    · exact candid_bind candid_ifacePrefix fun _ => candid_bind (candid_call _) fun _ => candid_pure _
  · split
    · exact candid_pure _
    · exact candid_bind (candid_call _) fun _ => candid_pure _
  · by_cases h : g.2.2.2.status ≠ 0
    · rw [if_pos h]; exact candid_exit h
    rw [if_neg h]
    refine candid_guarded c ?_
    unfold saveBody
    refine candid_bind (candid_call _) fun r => ?_
    by_cases h1 : r.status ≠ 0
    · rw [if_pos h1]; exact candid_exit (by decide)
    rw [if_neg h1]
    unfold run
    refine candid_bind (candid_bind (candid_call _) fun r => ?_) fun _ => candid_bind (candid_call _) fun r => ?_
    · split
      · rename_i h2; exact candid_exit (by simpa using h2)
      · exact candid_pure _
    · split
      · exact candid_exit (by decide)
      · exact candid_pure _

end Quick

/-- C64. When `wg-quick save` exits with 0 and no command was interrupted, the file it was asked about (behind all symbolic links) holds the complete new configuration of the interface of that name;
and at every point before, if the machine stops there, it holds the complete old one or the complete new one. -/
theorem c64_save (h : Host) (w : World) (arg path : CStr) (hr : h.root = true) (hp : fileFor arg path) (n : CStr) (hn : NamedIn path n) (old : List UInt8)
    (h0 : (quickMain h w [b!"save", arg]).end_ = .exit 0) (hsig : ∀ e ∈ (quickMain h w [b!"save", arg]).hist, e.2.sig = false) :
    ∃ content o, h.fs.content (h.fs.resolve path) = some content ∧ parseConf content = some o ∧
      let c := h.cfg ⟨n, h.fs.resolve path, o⟩
      let hist := (quickMain h w [b!"save", arg]).hist
      (∃ x, NewConfig c hist x ∧ (diskAfter (h.fs.resolve path) old hist).holds = some x) ∧
      ∀ p, p <+: hist → ∀ x ∈ (diskAfter (h.fs.resolve path) old p).conf, x = old ∨ NewConfig c hist x := by
  have e : quickMain h w [b!"save", arg] = operate h [b!"save", arg] arg fun p => endOf (cmdSave (h.cfg p) w {}) := rfl
  cases hpo : parseOptions h.fs arg with
  | none =>
    rw [e] at h0
    simp only [operate, autoSu, hr, hpo, if_true] at h0
    cases h0
  | some p =>
    obtain ⟨path', content, h1, h2, h3, h4, h5, h6⟩ := parseOptions_some h.fs arg p hpo
    cases fileFor_unique hp h1
    have hpn : p.iface = n := by
      have := (c55_iface path n).2 hn
      rw [(c55_iface path p.iface).2 h3] at this
      cases this; rfl
    refine ⟨content, p.opts, h5, h6, ?_⟩
    have e2 : quickMain h w [b!"save", arg] = endOf (cmdSave (h.cfg ⟨n, h.fs.resolve path, p.opts⟩) w {}) := by
      rw [e, ← h4, ← hpn]
      simp only [operate, autoSu, hr, hpo, if_true]
    rw [e2] at h0 hsig ⊢
    have hcf : (h.cfg ⟨n, h.fs.resolve path, p.opts⟩).file = h.fs.resolve path := rfl
    generalize h.cfg ⟨n, h.fs.resolve path, p.opts⟩ = c at *
    have hhist : (endOf (cmdSave c w {})).hist = (cmdSave c w {}).2.hist := by
      rcases cmdSave c w {} with ⟨_ | _ | _ | _, s⟩ <;> rfl
    have hfin : (cmdSave c w {}).1 = .ok () := by
      have hc := candid_save c w {}
      rw [← hhist] at hc
      rcases hx : cmdSave c w {} with ⟨_ | k | k | _, s⟩
      · rfl
      · rw [hx] at h0 hc hsig
        cases h0
        obtain ⟨e, he, hs⟩ := hc (.inl rfl)
        rw [hsig e he] at hs; cases hs
      · rw [hx] at h0; cases h0
      · rw [hx] at h0; cases h0
    rw [← hcf]
    dsimp only
    rw [hhist]
    exact ⟨c52_saved c w old hfin, fun p hp x hx => c52_crash_safe c w old hp hx⟩

/-! ### An example -/

/-- A file with settings of both kinds. -/
def exFile : List UInt8 :=
  b!"[Interface]\nAddress = 10.0.0.2/24\nListenPort = 51820\nDNS = 10.0.0.1, corp\n\n[Peer]\nPublicKey = AQAAAAAAAAAAAAAAAAAAAAAAAAAAAAAAAAAAAAAAAAA=\nAllowedIPs = 0.0.0.0/0\n"

/-- A host on which `/etc/wireguard/wg0.conf` is that file. -/
def exHost (root : Bool) : Host where
  root := root
  bash := b!"/bin/bash"
  self := b!"/usr/bin/wg-quick"
  prompt := b!"root?"
  fs := { exists_ := fun p => p = b!"/etc/wireguard/wg0.conf", resolve := id, content := fun p => if p = b!"/etc/wireguard/wg0.conf" then some exFile else none }
  userspace := b!"wireguard-go"
  sort := id
  plusMatch := fun _ => none
  patsub := true
  patience := 5

/-- The hypotheses of `c64_up_configures` are met. -/
example : fileFor b!"wg0" b!"/etc/wireguard/wg0.conf" ∧ (exHost true).fs.exists_ b!"/etc/wireguard/wg0.conf" = true ∧ NamedIn b!"/etc/wireguard/wg0.conf" b!"wg0" ∧
    (quickMain (exHost true) exWorld [b!"up", b!"wg0"]).end_ = .exit 0 ∧
    (∀ e ∈ (quickMain (exHost true) exWorld [b!"up", b!"wg0"]).hist, e.1 ≠ .act [b!"ip", b!"link", b!"delete", b!"dev", b!"wg0"] [] ∧ e.2.sig = false ∧ (isAct e.1 = true → e.2.status = 0)) ∧
    ((.act [b!"wg", b!"setconf", b!"wg0"]
      b!"[Interface]\nListenPort = 51820\n\n[Peer]\nPublicKey = AQAAAAAAAAAAAAAAAAAAAAAAAAAAAAAAAAAAAAAAAAA=\nAllowedIPs = 0.0.0.0/0\n\n", ⟨0, [], false⟩) : Ev) ∈
      (quickMain (exHost true) exWorld [b!"up", b!"wg0"]).hist := by
  refine ⟨fileFor_confPath b!"wg0", by decide, (c55_iface _ _).1 (by decide), by decide +kernel, by decide +kernel, by decide +kernel⟩

example : (quickMain (exHost true) exWorld [b!"strip", b!"wg0"]).out =
    b!"[Interface]\nListenPort = 51820\n\n[Peer]\nPublicKey = AQAAAAAAAAAAAAAAAAAAAAAAAAAAAAAAAAAAAAAAAAA=\nAllowedIPs = 0.0.0.0/0\n\n" := by decide +kernel

example : (quickMain (exHost false) exWorld [b!"up", b!"wg0"]).end_ = .exec [b!"sudo", b!"-p", b!"root?", b!"--", b!"/bin/bash", b!"--", b!"/usr/bin/wg-quick", b!"up", b!"wg0"] ∧
    (quickMain (exHost true) exWorld [b!"up", b!"wg1"]).end_ = .exit 1 ∧ (quickMain (exHost true) exWorld [b!"reload", b!"wg0"]).usage = true := by decide +kernel

/-- The hypotheses of `c64_save` are met. -/
def exSaveWorld : World := fun _ a => if a = ifaceCheck then ⟨0, b!"wg0\n", false⟩ else if a = .query [b!"wg", b!"showconf", b!"wg0"] then ⟨0, b!"[Interface]\nListenPort = 1\n", false⟩ else ⟨0, [], false⟩

example : (quickMain (exHost true) exSaveWorld [b!"save", b!"wg0"]).end_ = .exit 0 ∧ (∀ e ∈ (quickMain (exHost true) exSaveWorld [b!"save", b!"wg0"]).hist, e.2.sig = false) ∧
    (cmd [b!"mv", b!"/etc/wireguard/wg0.conf.tmp", b!"/etc/wireguard/wg0.conf"], ⟨0, [], false⟩) ∈ (quickMain (exHost true) exSaveWorld [b!"save", b!"wg0"]).hist := by decide +kernel

end WG
