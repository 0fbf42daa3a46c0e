import Verif.Model.Systemd
import Verif.Props.QuickMain
/-! C99: reloading `wg-quick@.service`. -/
namespace WG
open Spec Spec.Quick Quick Systemd Props

namespace Systemd

/-- What the file `content` says to wg-quick: `kept` are the lines that are not wg-quick's own, in order. It is refused if `SaveConfig` is neither true nor false. -/
def Config (content : List UInt8) (kept : List CStr) : Prop :=
  ∃ lines sets, ScriptLines content lines ∧ Says lines kept sets ∧ ∀ v ∈ valuesOf b!"saveconfig" sets, EqNoCase v b!"true" ∨ EqNoCase v b!"false"

/-- The file of the instance. -/
abbrev pathOf (inst : CStr) : CStr := b!"/etc/wireguard/" ++ inst ++ b!".conf"

theorem namedIn_pathOf {inst : CStr} (h : IsIfaceName inst) : NamedIn (pathOf inst) inst :=
  ⟨h, .inr ⟨b!"/etc/wireguard", by simp [pathOf]⟩⟩

theorem pipe_accepted (h : Host) (w : World) (other : List UInt8) (inst : CStr) (hr : h.root = true) (hi : IsIfaceName inst) (hex : h.fs.exists_ (pathOf inst) = true)
    (content : List UInt8) (hc : h.fs.content (h.fs.resolve (pathOf inst)) = some content) (kept : List CStr) (hk : Config content kept) :
    pipe h w other inst = kept.flatMap (· ++ b!"\n") ++ b!"\n" := by
  obtain ⟨lines, sets, hl, hs, hok⟩ := hk
  obtain ⟨o, -, h1, -⟩ := c64_accepted h w inst (pathOf inst) hr ⟨fun _ => rfl, fun h => absurd hi h⟩ hex inst (namedIn_pathOf hi) content hc lines kept sets hl hs hok
  unfold pipe
  rw [h1]

theorem pipe_file {h : Host} {w : World} {other : List UInt8} {inst : CStr} {env : Env} {fd : CStr} {V : ValueSyntax} {secs : List Section} {kept : List CStr}
    (hp : pipe h w other inst = kept.flatMap (· ++ b!"\n") ++ b!"\n") (hkept : ∀ l ∈ kept, (10 : UInt8) ∉ l ∧ (0 : UInt8) ∉ l)
    (hg : FileGives V { unitEnv env with file := fun p => if p = fd then some { content := pipe h w other inst, seekable := false } else env.file p } fd secs) :
    FileSays V kept secs := by
  obtain ⟨f, h1, h2, -⟩ := hg
  simp only [if_true, Option.some.injEq] at h1
  subst h1
  rw [show FileObj.bytes { content := pipe h w other inst, seekable := false } = pipe h w other inst from rfl, hp] at h2
  exact (fileSays_kept hkept).1 h2

theorem config_kept {content : List UInt8} {kept : List CStr} (hk : Config content kept) : ∀ l ∈ kept, (10 : UInt8) ∉ l ∧ (0 : UInt8) ∉ l := by
  obtain ⟨lines, sets, hl, hs, -⟩ := hk
  rw [scriptLines_iff] at hl; subst hl
  exact fun l h => bodyLines_bytes content l ((says_sublist hs).subset h)

end Systemd

/-- C99. If the reload of `wg-quick@inst` ends with status 0, the interface `inst` was made what the lines of `/etc/wireguard/inst.conf` that are not wg-quick's own say: its peers are exactly those
of the file, and its settings and the owners of its networks those `wg setconf` would have given it; in any system, in whatever way the interface was reached. -/
theorem c99_reload {R : Readers} {sys : System} (hsys : Sane R sys) (h : Host) (w : World) (other : List UInt8) (env : Env) (hM : 0xffffffff < env.ulongMax) (fd : CStr)
    (sort : List PubkeyOrigin → List PubkeyOrigin) (hsort : IsSort sort) (ipc : Ipc) (inst : CStr) (hr : h.root = true) (hi : IsIfaceName inst)
    (hex : h.fs.exists_ (pathOf inst) = true) (content : List UInt8) (hc : h.fs.content (h.fs.resolve (pathOf inst)) = some content) (kept : List CStr) (hk : Systemd.Config content kept)
    (tr : List SockEv) (sent : List Sent) (hrun : Carried sys ipc tr (reload h w other env fd sort ipc inst).calls sent) (h0 : (reload h w other env fd sort ipc inst).end_ = .ok 0) :
    ∃ secs x, FileSays (docNow (unitEnv env)) kept secs ∧ sent = [x] ∧ (EndpointsRead R sys x (fileMeaning false secs) →
      ∀ s, s.WF → (∀ rt, ipc.get inst = (0, some rt) → Agrees s rt) → (∃ sync, Gives R sys inst x s sync) ∧
        ∀ sync, Gives R sys inst x s sync →
          let setc := applyReq s (requestOf (fileMeaning false secs))
          (∀ k, (sync.peers k).isSome = true ↔ k ∈ fileKeys secs) ∧
          sync.privateKey = setc.privateKey ∧ sync.listenPort = setc.listenPort ∧ sync.fwmark = setc.fwmark ∧ sync.owner = setc.owner ∧
          ∀ k,
            (Mentions secs k (·.flags.hasPresharedKey = true) → (sync.peers k).map (·.psk) = (setc.peers k).map (·.psk)) ∧
            (Mentions secs k (·.endpoint ≠ .unset) → (sync.peers k).map (·.endpoint) = (setc.peers k).map (·.endpoint)) ∧
            (Mentions secs k (·.flags.hasKeepalive = true) → (sync.peers k).map (·.keepalive) = (setc.peers k).map (·.keepalive))) := by
  have hlen : inst.take 15 = inst := List.take_of_length_le hi.2.1
  obtain ⟨secs, x, h1, h2, h3⟩ := Props.c62_syncconf hsys _ (by exact hM) sort hsort ipc inst fd tr sent hrun h0
  rw [hlen] at h3
  exact ⟨secs, x, pipe_file (pipe_accepted h w other inst hr hi hex content hc kept hk) (config_kept hk) h1, h2, h3⟩

/-- C99. When the file and the interface have peers, the peers that stay are not disturbed by the reload: what is sent does not replace all peers, removes those that are not in the file and no
others, and then gives the peers of the file as they are. -/
theorem c99_undisturbed (h : Host) (w : World) (other : List UInt8) (env : Env) (hM : 0xffffffff < env.ulongMax) (fd : CStr)
    (sort : List PubkeyOrigin → List PubkeyOrigin) (hsort : IsSort sort) (ipc : Ipc) (inst : CStr) (hr : h.root = true) (hi : IsIfaceName inst)
    (hex : h.fs.exists_ (pathOf inst) = true) (content : List UInt8) (hc : h.fs.content (h.fs.resolve (pathOf inst)) = some content) (kept : List CStr) (hk : Systemd.Config content kept)
    (d rt : Device) (hset : .set d ∈ (reload h w other env fd sort ipc inst).calls) (hg : ipc.get inst = (0, some rt)) (hne : rt.peers ≠ []) (hdup : (rt.peers.map (·.publicKey)).Nodup) :
    ∃ secs, FileSays (docNow (unitEnv env)) kept secs ∧ (peerSections secs ≠ [] →
      d.name = inst ∧ d.flags.replacePeers = false ∧
      ∃ gone : List Key, d.peers = gone.map (fun k => { publicKey := k, flags := { removeMe := true } }) ++ (peerSections secs).map peerMeaning ∧
        gone.Nodup ∧ ∀ k, k ∈ gone ↔ k ∈ rt.peers.map (·.publicKey) ∧ k ∉ fileKeys secs) := by
  have hlen : inst.take 15 = inst := List.take_of_length_le hi.2.1
  obtain ⟨secs, h1, h2⟩ := c20_staying_peers_undisturbed _ (by exact hM) sort hsort ipc inst fd d rt hset (by rw [hlen]; exact hg) hne hdup
  have hname := (c47_target _ sort ipc b!"syncconf" inst [fd]).2 _ hset
  rw [hlen] at hname
  exact ⟨secs, pipe_file (pipe_accepted h w other inst hr hi hex content hc kept hk) (config_kept hk) h1, fun hs => ⟨hname, h2 hs⟩⟩

/-- C99. If those lines are not a configuration for `wg` (under no reading of the documented syntax), nothing is sent to the interface. -/
theorem c99_refused (h : Host) (w : World) (other : List UInt8) (env : Env) (hM : 0xffffffff < env.ulongMax) (fd : CStr)
    (sort : List PubkeyOrigin → List PubkeyOrigin) (ipc : Ipc) (inst : CStr) (hr : h.root = true) (hi : IsIfaceName inst)
    (hex : h.fs.exists_ (pathOf inst) = true) (content : List UInt8) (hc : h.fs.content (h.fs.resolve (pathOf inst)) = some content) (kept : List CStr) (hk : Systemd.Config content kept)
    (hbad : ¬ ∃ secs, FileSays (docNow (unitEnv env)) kept secs) : ∀ d, .set d ∉ (reload h w other env fd sort ipc inst).calls := by
  intro d hd
  obtain ⟨d0, hd0, -⟩ := syncconf_sends _ sort ipc inst fd d hd
  obtain ⟨secs, h1, -⟩ := c14_read_sound _ (by exact hM) false fd d0 hd0
  exact hbad ⟨secs, pipe_file (pipe_accepted h w other inst hr hi hex content hc kept hk) (config_kept hk) h1⟩

/-- C99 does not hold in full: if wg-quick refuses to read the file -- it is not there or cannot be read, or a line for wg-quick is wrong -- then `strip` fails with nothing printed, but `wg` reads that
nothing as a configuration: the interface loses its private key, its port and all its peers, and the reload succeeds. -/
theorem c99_counterexample_empty (h : Host) (w : World) (other : List UInt8) (env : Env) (fd : CStr) (sort : List PubkeyOrigin → List PubkeyOrigin) (ipc : Ipc) (inst : CStr)
    (hr : h.root = true) (hi : IsIfaceName inst)
    (hbad : h.fs.exists_ (pathOf inst) = false ∨ h.fs.content (h.fs.resolve (pathOf inst)) = none ∨
      ∃ content lines kept sets, h.fs.content (h.fs.resolve (pathOf inst)) = some content ∧ ScriptLines content lines ∧ Says lines kept sets ∧
        ∃ v ∈ valuesOf b!"saveconfig" sets, ¬ EqNoCase v b!"true" ∧ ¬ EqNoCase v b!"false") (hipc : ∀ d, ipc.set d = 0) :
    (quickMain h w [b!"strip", inst]).end_ = .exit 1 ∧ (reload h w other env fd sort ipc inst).end_ = .ok 0 ∧
    ∃ d, (reload h w other env fd sort ipc inst).calls = [.set d] ∧ d.name = inst ∧
      ∀ s, let s' := applyReq s (requestOf d); s'.privateKey = zeroKey ∧ s'.listenPort = 0 ∧ s'.fwmark = 0 ∧ (∀ k, s'.peers k = none) ∧ ∀ n, s'.owner n = none := by
  have hq : quickMain h w [b!"strip", inst] = { end_ := .exit 1 } :=
    c64_refused h w b!"strip" inst (pathOf inst) (.inr (.inr (.inr rfl))) hr ⟨fun _ => rfl, fun h => absurd hi h⟩ (by
      rcases hbad with h1 | h1 | h1
      · exact .inl h1
      · exact .inr (.inr (.inl h1))
      · exact .inr (.inr (.inr h1)))
  have hpipe : pipe h w other inst = [] := by unfold pipe; rw [hq]
  have hlen : inst.take 15 = inst := List.take_of_length_le hi.2.1
  have hrun : reload h w other env fd sort ipc inst = ⟨.ok 0, [.set { (configReadInit false).device with name := inst }]⟩ := by
    unfold reload setconfMain readConfigFile
    simp only [if_true, hpipe]
    rw [show FileObj.bytes { content := [], seekable := false } = [] from rfl, show decide (b!"syncconf" = b!"addconf") = false from by decide]
    have e : configReadFinish (configReadInit false) = some (configReadInit false).device := by decide +kernel
    simp only [getlines, List.map_nil, readLines, Res.bind, e, Res.ofOption, copyName, hlen]
    have e2 : ((configReadInit false).device.peers) = [] := by decide +kernel
    simp only [syncConf, e2, if_true, sendDevice_eq, hipc]
    rfl
  refine ⟨by rw [hq], by rw [hrun], _, by rw [hrun], rfl, fun s => ?_⟩
  exact ⟨rfl, rfl, rfl, fun _ => rfl, fun _ => rfl⟩

/-- C99. The programs of the unit try to resolve the names of endpoints without limit. -/
theorem c99_retries (env : Env) : parseDnsRetries (unitEnv env) = .ok none := rfl

/-! ### Examples -/

namespace Systemd

/-- An interface with one peer that is not in the file. -/
def exIpc : Ipc := ⟨fun _ => (0, some { peers := [{ publicKey := Vector.replicate 32 9, flags := { hasPublicKey := true } }] }), fun _ => 0⟩

/-- The peer of `exFile`. -/
def exPeer : Key := ⟨#[1, 0, 0, 0, 0, 0, 0, 0, 0, 0, 0, 0, 0, 0, 0, 0, 0, 0, 0, 0, 0, 0, 0, 0, 0, 0, 0, 0, 0, 0, 0, 0], rfl⟩

theorem exConfig : ∃ kept, Config exFile kept := by
  obtain ⟨lines, kept, sets, hl, hs, -⟩ := c51_determined exFile
  refine ⟨kept, lines, sets, hl, hs, fun v hv => ?_⟩
  by_contra hne
  rw [not_or] at hne
  have := (c54_refused hl hs).2 ⟨v, hv, hne⟩
  exact absurd this (by decide +kernel)

end Systemd

/-- The hypotheses of `c99_reload` and `c99_undisturbed` are met: the reload removes the peer that is not in the file and gives that of the file. -/
example : (exHost true).root = true ∧ IsIfaceName b!"wg0" ∧ (exHost true).fs.exists_ (pathOf b!"wg0") = true ∧
    (exHost true).fs.content ((exHost true).fs.resolve (pathOf b!"wg0")) = some exFile ∧ (∃ kept, Systemd.Config exFile kept) ∧
    (reload (exHost true) exWorld [] stdEnv b!"/dev/fd/63" isort exIpc b!"wg0").end_ = .ok 0 ∧
    ∃ d, (reload (exHost true) exWorld [] stdEnv b!"/dev/fd/63" isort exIpc b!"wg0").calls = [.get b!"wg0", .set d] ∧ d.listenPort = 51820 ∧
      d.peers.map (fun p => (p.publicKey, p.flags.removeMe)) = [(Vector.replicate 32 9, true), (exPeer, false)] := by
  refine ⟨rfl, (isName_iff _).1 (by decide), rfl, rfl, exConfig, by decide +kernel, ?_⟩
  have h : (reload (exHost true) exWorld [] stdEnv b!"/dev/fd/63" isort exIpc b!"wg0").calls =
      [.get b!"wg0", .set (match (reload (exHost true) exWorld [] stdEnv b!"/dev/fd/63" isort exIpc b!"wg0").calls with | [_, .set d] => d | _ => {})] := by decide +kernel
  exact ⟨_, h, by decide +kernel, by decide +kernel⟩

/-- The hypotheses of `c99_counterexample_empty` are met: `wg1` has no file. -/
example : IsIfaceName b!"wg1" ∧ (exHost true).fs.exists_ (pathOf b!"wg1") = false ∧ (reload (exHost true) exWorld [] stdEnv b!"/dev/fd/63" isort exIpc b!"wg1").end_ = .ok 0 :=
  ⟨(isName_iff _).1 (by decide), by decide, by decide +kernel⟩

end WG
