import Verif.Proof.Command
/-! C10-C15: configuration files and `wg set` argument lists. -/
namespace WG.Props
open WG WG.Spec

/-! ### C10 -/

/-- C10. The effect of a line depends only on its characters before the first `#` with white space removed. -/
theorem c10_only_cleaned_text_matters (env : Env) (ctx : Ctx) (l l' : CStr) (h : cleaned l = cleaned l') :
    configReadLine env ctx l = configReadLine env ctx l' := by
  simp only [configReadLine, cleanLine_eq, h]

/-- C10. Blank and comment-only lines have no effect. -/
theorem c10_blank (env : Env) (ctx : Ctx) (l : CStr) (h : ∀ c ∈ l.takeWhile (· ≠ c!"#"), isSpace c = true) :
    configReadLine env ctx l = .ok ctx := by
  have : cleaned l = [] := by
    simp only [cleaned, List.filter_eq_nil_iff]
    intro c hc; simp [h c hc]
  simp [configReadLine, cleanLine_eq, this]

/-- C10. The letter case of the key name of a setting does not matter. -/
theorem c10_key_case (env : Env) (ctx : Ctx) (l l' k k' v : CStr) (hl : cleaned l = k ++ c!"=" :: v)
    (hl' : cleaned l' = k' ++ c!"=" :: v) (hk : k.map lower = k'.map lower) (hn : c!"=" ∉ k) :
    configReadLine env ctx l = configReadLine env ctx l' := by
  have hn' : c!"=" ∉ k' := by
    intro h
    have := map_lower_mem_61 _ h
    rw [← hk, List.mem_map] at this
    obtain ⟨c, hc, h61⟩ := this
    exact hn ((lower_eq_61 c).1 h61 ▸ hc)
  have hg : ∀ K name, K.map lower = name → getValue (k ++ c!"=" :: v) (K ++ [61]) = getValue (k' ++ c!"=" :: v) (K ++ [61]) := by
    intro K name hK
    apply Option.ext
    intro w
    rw [getValue_setting _ _ name _ hK, getValue_setting _ _ name _ hK]
    have key : ∀ a b : CStr, c!"=" ∉ a → a.map lower = b.map lower →
        IsSetting (a ++ c!"=" :: v) name w → IsSetting (b ++ c!"=" :: v) name w := by
      rintro a b ha hab ⟨hw, x, hx, he⟩
      have hx61 : c!"=" ∉ x ∨ c!"=" ∈ x := by tauto
      rcases hx61 with hx1 | hx1
      · have t1 := takeWhile_ne_append 61 a v ha
        have t2 := dropWhile_ne_append 61 a v ha
        rw [he, takeWhile_ne_append 61 _ _ hx1] at t1
        rw [he, dropWhile_ne_append 61 _ _ hx1] at t2
        simp only [List.cons.injEq, true_and] at t2
        subst t1; subst t2
        exact ⟨hw, b, by rw [EqNoCase, ← hab]; exact hx, rfl⟩
      · -- impossible only for names without '='; the prefix a ++ "=" still matches
        obtain ⟨x1, x2, hx2⟩ := List.append_of_mem hx1
        subst hx2
        -- a is a prefix of x
        have hlen : a.length ≤ x1.length ∨ x1.length < a.length := by omega
        rcases hlen with hlen | hlen
        · have hpre : ∃ y, x1 ++ c!"=" :: x2 = a ++ y := by
            have h1 : a <+: x1 ++ c!"=" :: x2 := by
              apply List.prefix_of_prefix_length_le (l₃ := a ++ c!"=" :: v) (List.prefix_append _ _)
              · rw [he]; exact List.prefix_append _ _
              · simp; omega
            obtain ⟨y, hy⟩ := h1; exact ⟨y, hy.symm⟩
          obtain ⟨y, hy⟩ := hpre
          rw [hy] at hx he
          rw [List.append_assoc] at he
          have he' := List.append_cancel_left he
          refine ⟨hw, b ++ y, ?_, by rw [he', List.append_assoc]⟩
          rw [EqNoCase, List.map_append, ← hab, ← List.map_append]; exact hx
        · exfalso
          apply ha
          have h1 : x1 ++ [c!"="] <+: a := by
            apply List.prefix_of_prefix_length_le (l₃ := a ++ c!"=" :: v)
            · rw [he]; simp
            · exact List.prefix_append _ _
            · simp; omega
          exact h1.subset (by simp)
    exact ⟨key k k' hn hk, key k' k hn' hk.symm⟩
  have hh : (k ++ c!"=" :: v).map tolowerC = (k' ++ c!"=" :: v).map tolowerC := by
    have : k.map tolowerC = k'.map tolowerC := hk
    rw [List.map_append, List.map_append, this]
  have e : ∀ h, strcaseeq (k ++ c!"=" :: v) h = strcaseeq (k' ++ c!"=" :: v) h := by
    intro h; simp only [strcaseeq, hh]
  have hlen : (k ++ c!"=" :: v).length = (k' ++ c!"=" :: v).length := by
    have := congrArg List.length hh; simpa using this
  simp only [configReadLine, cleanLine_eq, hl, hl', hlen]
  split
  · rfl
  · simp only [processLine, e]
    rw [show getValue (k ++ c!"=" :: v) b!"ListenPort=" = _ from hg b!"ListenPort" _ rfl,
      show getValue (k ++ c!"=" :: v) b!"FwMark=" = _ from hg b!"FwMark" _ rfl,
      show getValue (k ++ c!"=" :: v) b!"PrivateKey=" = _ from hg b!"PrivateKey" _ rfl,
      show getValue (k ++ c!"=" :: v) b!"Endpoint=" = _ from hg b!"Endpoint" _ rfl,
      show getValue (k ++ c!"=" :: v) b!"PublicKey=" = _ from hg b!"PublicKey" _ rfl,
      show getValue (k ++ c!"=" :: v) b!"AllowedIPs=" = _ from hg b!"AllowedIPs" _ rfl,
      show getValue (k ++ c!"=" :: v) b!"PersistentKeepalive=" = _ from hg b!"PersistentKeepalive" _ rfl,
      show getValue (k ++ c!"=" :: v) b!"PresharedKey=" = _ from hg b!"PresharedKey" _ rfl]
    rfl

/-- C10. The letter case of section headers does not matter. -/
theorem c10_header_case (env : Env) (ctx : Ctx) (l : CStr) :
    (EqNoCase (cleaned l) b!"[interface]" → configReadLine env ctx l = configReadLine env ctx b!"[Interface]") ∧
    (EqNoCase (cleaned l) b!"[peer]" → configReadLine env ctx l = configReadLine env ctx b!"[Peer]") := by
  have ne : ∀ w : CStr, w ≠ [] → EqNoCase (cleaned l) w → ¬ (cleaned l).length = 0 := by
    intro w hw h h0
    rw [EqNoCase, List.length_eq_zero_iff.1 h0] at h
    exact hw h.symm
  have c1 : cleaned b!"[Interface]" = b!"[Interface]" := by decide +kernel
  have c2 : cleaned b!"[Peer]" = b!"[Peer]" := by decide +kernel
  constructor
  · intro h
    simp only [configReadLine, cleanLine_eq, c1]
    rw [if_neg (ne _ (by simp) h), if_neg (by simp), processLine, processLine, if_pos ((hdr1 _).2 h), if_pos (by decide)]
  · intro h
    have h1 : ¬ strcaseeq (cleaned l) b!"[Interface]" = true := by
      rw [hdr1]; intro h'; rw [EqNoCase] at h h'; rw [h'] at h; exact absurd h (by decide)
    simp only [configReadLine, cleanLine_eq, c2]
    rw [if_neg (ne _ (by simp) h), if_neg (by simp), processLine, processLine, if_neg h1, if_pos ((hdr2 _).2 h), if_neg (by decide), if_pos (by decide)]

example : cleaned b!"  Listen Port = 51820 # comment" = b!"ListenPort=51820" ∧ cleaned b!"# x" = [] := by decide +kernel

/-! ### C11-C14: whole files -/

/-- The file named `path`, as far as it can be read, says the sections `secs`, each peer section giving a public key. -/
def FileGives (V : ValueSyntax) (env : Env) (path : CStr) (secs : List Section) : Prop :=
  ∃ f, env.file path = some f ∧ FileSays V ((fileLines f.bytes).map beforeNul) secs ∧
    ∀ l ∈ peerSections secs, ∃ k, PeerSetting.publicKey k ∈ l

/-- C11, C12, C13, C14 (soundness). Whatever device is read from a file is exactly what the file says, by the documented
syntax: last value wins, lists accumulate, every peer section has a public key, peers in the order written. -/
theorem c14_read_sound (env : Env) (hM : 0xffffffff < env.ulongMax) (append : Bool) (path : CStr) (d : Device)
    (h : readConfigFile env append path = .ok d) :
    ∃ secs, FileGives (docNow env) env path secs ∧ d = fileMeaning append secs := by
  obtain ⟨f, secs, h1, h2, h3, h4⟩ := readConfigFile_sound env append path d h
  exact ⟨secs, ⟨f, h1, fileSays_mono (model_le_doc env hM) h2, h3⟩, h4⟩

/-- C11, C14 (completeness). Every file that follows the documented syntax, with endpoints that resolve, is read as what
it says. -/
theorem c14_read_complete (env : Env) (hM : 0xffffffff < env.ulongMax) (append : Bool) (path : CStr) (secs : List Section)
    (h : FileGives (docStable env) env path secs) : readConfigFile env append path = .ok (fileMeaning append secs) := by
  obtain ⟨f, h1, h2, h3⟩ := h
  exact readConfigFile_complete env append path f secs h1 (fileSays_mono (doc_le_stable env hM) h2) h3

/-- C14: reading a file never has undefined behaviour, whatever its content. -/
theorem c14_read_safe (env : Env) (append : Bool) (path : CStr) : readConfigFile env append path ≠ .ub :=
  readConfigFile_ne_ub env append path

/-- C11. `wg setconf`/`wg addconf`: the only thing ever done to an interface is one set operation with the complete
meaning of a completely accepted file, and the exit status is that of the set; in every other case no interface is
contacted and the command does not exit with status 0. -/
theorem c11_all_or_nothing (env : Env) (hM : 0xffffffff < env.ulongMax) (sort : List PubkeyOrigin → List PubkeyOrigin) (ipc : Ipc) (cmd iface path : CStr)
    (hc : cmd = b!"setconf" ∨ cmd = b!"addconf") :
    (∃ secs d, FileGives (docNow env) env path secs ∧ d = { fileMeaning (cmd = b!"addconf") secs with name := iface.take 15 } ∧
      setconfMain env sort ipc [cmd, iface, path] = ⟨.ok (if ipc.set d = 0 then 0 else 1), [.set d]⟩) ∨
    ((setconfMain env sort ipc [cmd, iface, path]).calls = [] ∧ (setconfMain env sort ipc [cmd, iface, path]).end_ ≠ .ok 0 ∧
     (setconfMain env sort ipc [cmd, iface, path]).end_ ≠ .ub) := by
  have hs : ¬ cmd = b!"syncconf" := by rcases hc with rfl | rfl <;> decide
  simp only [setconfMain]
  cases hr : readConfigFile env (decide (cmd = b!"addconf")) path with
  | ok d =>
    obtain ⟨secs, h1, rfl⟩ := c14_read_sound env hM _ path d hr
    refine .inl ⟨secs, _, h1, rfl, ?_⟩
    simp only [if_neg hs]
    exact sendDevice_eq ipc _
  | ub => exact absurd hr (c14_read_safe _ _ _)
  | _ => exact .inr ⟨rfl, by simp, by simp⟩

/-- C11: a file with a bad line, or a peer without public key, is refused with status 1 (or the process keeps waiting for
a name to resolve); contrapositive of `c11_all_or_nothing` in terms of the file alone. -/
theorem c11_bad_file_never_applied (env : Env) (hM : 0xffffffff < env.ulongMax) (sort : List PubkeyOrigin → List PubkeyOrigin) (ipc : Ipc) (cmd iface path : CStr)
    (h : ¬ ∃ secs, FileGives (docNow env) env path secs) :
    (setconfMain env sort ipc [cmd, iface, path]).calls = [] ∧
    ((setconfMain env sort ipc [cmd, iface, path]).end_ = .ok 1 ∨ (setconfMain env sort ipc [cmd, iface, path]).end_ = .running) := by
  simp only [setconfMain]
  cases hr : readConfigFile env (decide (cmd = b!"addconf")) path with
  | ok d =>
    obtain ⟨secs, h1, -⟩ := c14_read_sound env hM _ path d hr
    exact absurd ⟨secs, h1⟩ h
  | ub => exact absurd hr (c14_read_safe _ _ _)
  | _ => simp

/-- C11: a good file is applied: `setconf` of a file with documented syntax sends exactly its meaning. -/
theorem c11_good_file_applied (env : Env) (hM : 0xffffffff < env.ulongMax) (sort : List PubkeyOrigin → List PubkeyOrigin) (ipc : Ipc) (cmd iface path : CStr)
    (hc : cmd = b!"setconf" ∨ cmd = b!"addconf") (secs : List Section) (h : FileGives (docStable env) env path secs) :
    (setconfMain env sort ipc [cmd, iface, path]).calls = [.set { fileMeaning (cmd = b!"addconf") secs with name := iface.take 15 }] := by
  have hs : ¬ cmd = b!"syncconf" := by rcases hc with rfl | rfl <;> decide
  simp only [setconfMain, c14_read_complete env hM _ path secs h, if_neg hs, sendDevice_eq, copyName]

/-- A sample file. -/
def sampleFile : List UInt8 :=
  b!"[Interface]\nPrivateKey = AQIDBAUGBwgJCgsMDQ4PEBESExQVFhcYGRobHB0eHyA= # key\nListenPort=51820\n\n[PEER]\npublickey=AQIDBAUGBwgJCgsMDQ4PEBESExQVFhcYGRobHB0eHyA=\nAllowedIPs = 10.0.0.1/32, fd00::/8\nAllowedIPs=10.0.0.2\n"

/-- An environment with one file. -/
def fileEnv (f : FileObj) : Env := { stdEnv with file := fun _ => some f }

/-- The device the sample file describes. -/
def sampleConf : Device :=
  { flags := { replacePeers := true, hasPrivateKey := true, hasListenPort := true, hasFwmark := true }
    privateKey := sampleKey, listenPort := 51820
    peers := [{ publicKey := sampleKey, flags := { replaceAllowedIPs := true, hasPublicKey := true }
                allowedIPs := [⟨.v4 #v[10, 0, 0, 1], 32⟩, ⟨.v6 #v[253, 0, 0, 0, 0, 0, 0, 0, 0, 0, 0, 0, 0, 0, 0, 0], 8⟩, ⟨.v4 #v[10, 0, 0, 2], 32⟩] }] }

theorem sampleConf_read : readConfigFile (fileEnv ⟨sampleFile, none, true⟩) false b!"f" = .ok sampleConf := by decide +kernel

-- the hypotheses of the theorems above are met by a file with all kinds of lines
example : 0xffffffff < (fileEnv ⟨sampleFile, none, true⟩).ulongMax ∧
    ∃ secs, FileGives (docNow (fileEnv ⟨sampleFile, none, true⟩)) (fileEnv ⟨sampleFile, none, true⟩) b!"f" secs ∧ sampleConf = fileMeaning false secs :=
  ⟨by decide, c14_read_sound _ (by decide) _ _ _ sampleConf_read⟩

/-- C11, finding. A read error in the middle of the file is taken for its end (setconf.c:124 does not call `ferror`): the
part before the error is applied as if it were the whole file, and the command exits with status 0. Here the error
comes before the peer's last AllowedIPs line. -/
theorem c11_read_error_counterexample :
    ∃ (content : List UInt8) (n : Nat) (d d' : Device) (ipc : Ipc), n < content.length ∧ d ≠ d' ∧
      setconfMain (fileEnv ⟨content, none, true⟩) id ipc [b!"setconf", b!"wg0", b!"f"] = ⟨.ok 0, [.set d]⟩ ∧
      setconfMain (fileEnv ⟨content, some n, true⟩) id ipc [b!"setconf", b!"wg0", b!"f"] = ⟨.ok 0, [.set d']⟩ := by
  refine ⟨sampleFile, sampleFile.length - 20, { sampleConf with name := b!"wg0" },
    { sampleConf with name := b!"wg0", peers := sampleConf.peers.map fun p => { p with allowedIPs := p.allowedIPs.take 2 } },
    ⟨fun _ => (0, none), fun _ => 0⟩, by decide +kernel, by decide +kernel, ?_, ?_⟩
  · have h : readConfigFile (fileEnv ⟨sampleFile, none, true⟩) (b!"setconf" = b!"addconf") b!"f" = .ok sampleConf := by decide +kernel
    simp only [setconfMain, h]; rfl
  · have h : readConfigFile (fileEnv ⟨sampleFile, some (sampleFile.length - 20), true⟩) (b!"setconf" = b!"addconf") b!"f"
        = .ok { sampleConf with peers := sampleConf.peers.map fun p => { p with allowedIPs := p.allowedIPs.take 2 } } := by decide +kernel
    simp only [setconfMain, h]; rfl

/-- C12. Every peer of a device read from a file has an explicitly given public key, which is the last one given in its
section; the peers are the peer sections in order. -/
theorem c12_file_peers_have_keys (env : Env) (hM : 0xffffffff < env.ulongMax) (append : Bool) (path : CStr) (d : Device)
    (h : readConfigFile env append path = .ok d) :
    ∃ secs, FileGives (docNow env) env path secs ∧
      List.Forall₂ (fun (p : Peer) l => p.flags.hasPublicKey = true ∧ ∃ pre post k, l = pre ++ PeerSetting.publicKey k :: post ∧
        (∀ k', PeerSetting.publicKey k' ∉ post) ∧ p.publicKey = k) d.peers (peerSections secs) := by
  obtain ⟨secs, h1, rfl⟩ := c14_read_sound env hM append path d h
  refine ⟨secs, h1, ?_⟩
  obtain ⟨f, -, -, hk⟩ := h1
  simp only [fileMeaning]
  generalize peerSections secs = L at hk
  induction L with
  | nil => exact .nil
  | cons l L ih =>
    refine .cons ?_ (ih fun l' hl' => hk l' (by simp [hl']))
    obtain ⟨k, hkm⟩ := hk l (by simp)
    have : ∃ pre post k, l = pre ++ PeerSetting.publicKey k :: post ∧ (∀ k', PeerSetting.publicKey k' ∉ post) := by
      clear ih hk
      induction l with
      | nil => simp at hkm
      | cons s t ih =>
        by_cases ht : ∃ k', PeerSetting.publicKey k' ∈ t
        · obtain ⟨k', hk'⟩ := ht
          by_cases hkt : PeerSetting.publicKey k ∈ t
          · obtain ⟨pre, post, k, e, hp⟩ := ih hkt
            exact ⟨s :: pre, post, k, by rw [e]; rfl, hp⟩
          · obtain ⟨a, b, e⟩ := List.append_of_mem hk'
            -- take the last one in t
            have : ∀ t : List PeerSetting, (∃ k', PeerSetting.publicKey k' ∈ t) → ∃ pre post k, t = pre ++ PeerSetting.publicKey k :: post ∧
                (∀ k', PeerSetting.publicKey k' ∉ post) := by
              intro t
              induction t with
              | nil => simp
              | cons x t iht =>
                rintro ⟨k', hk'⟩
                by_cases hx : ∃ k', PeerSetting.publicKey k' ∈ t
                · obtain ⟨pre, post, k, e, hp⟩ := iht hx
                  exact ⟨x :: pre, post, k, by rw [e]; rfl, hp⟩
                · rcases List.mem_cons.1 hk' with rfl | hk'
                  · exact ⟨[], t, k', rfl, by simpa using hx⟩
                  · exact absurd ⟨k', hk'⟩ hx
            obtain ⟨pre, post, k, e, hp⟩ := this t ⟨k', hk'⟩
            exact ⟨s :: pre, post, k, by rw [e]; rfl, hp⟩
        · rcases List.mem_cons.1 hkm with rfl | hkm
          · exact ⟨[], t, k, rfl, by simpa using ht⟩
          · exact absurd ⟨k, hkm⟩ ht
    obtain ⟨pre, post, k, rfl, hp⟩ := this
    have hpost : post.filterMap (·.pub?) = [] := by
      rw [List.filterMap_eq_nil_iff]
      intro a ha
      cases a with
      | publicKey k' => exact absurd ha (hp k')
      | _ => rfl
    refine ⟨?_, pre, post, k, rfl, hp, ?_⟩
    · simp [peerMeaning, PeerSetting.pub?]
    · have : (PeerSetting.publicKey k :: post).filterMap (·.pub?) = [k] := by
        show k :: post.filterMap (·.pub?) = [k]; rw [hpost]
      simp only [peerMeaning, List.filterMap_append, this, lastOr_snoc]

/-- C13. A file read for setconf or syncconf requests replacing the peers and setting private key, port and mark, whatever
it contains; what it does not mention is set to zero. -/
theorem c13_setconf_flags (env : Env) (path : CStr) (d : Device) (h : readConfigFile env false path = .ok d) :
    d.flags.replacePeers = true ∧ d.flags.hasPrivateKey = true ∧ d.flags.hasListenPort = true ∧ d.flags.hasFwmark = true ∧
    ∀ p ∈ d.peers, p.flags.replaceAllowedIPs = true ∧ p.flags.removeMe = false := by
  obtain ⟨f, secs, -, -, -, rfl⟩ := readConfigFile_sound env false path d h
  refine ⟨rfl, rfl, rfl, rfl, ?_⟩
  intro p hp
  simp only [fileMeaning, List.mem_map] at hp
  obtain ⟨l, -, rfl⟩ := hp
  exact ⟨rfl, rfl⟩

/-- C13: a file with no interface settings read for setconf requests the zero key, port 0 and mark 0. -/
theorem c13_setconf_omitted (env : Env) (hM : 0xffffffff < env.ulongMax) (path : CStr) (d : Device) (h : readConfigFile env false path = .ok d) :
    ∃ secs, FileGives (docNow env) env path secs ∧
      ((∀ k, DevSetting.privateKey k ∉ devSettings secs) → d.privateKey = zeroKey) ∧
      ((∀ k, DevSetting.listenPort k ∉ devSettings secs) → d.listenPort = 0) ∧
      ((∀ k, DevSetting.fwmark k ∉ devSettings secs) → d.fwmark = 0) := by
  obtain ⟨secs, h1, rfl⟩ := c14_read_sound env hM false path d h
  have nil : ∀ {β : Type} (g : DevSetting → Option β) (l : List DevSetting), (∀ a ∈ l, g a = none) → l.filterMap g = [] :=
    fun g l h => List.filterMap_eq_nil_iff.2 h
  refine ⟨secs, h1, ?_, ?_, ?_⟩ <;> intro hn <;> simp only [fileMeaning]
  · rw [nil]; · rfl
    intro a ha; cases a with | privateKey k => exact absurd ha (hn k) | _ => rfl
  · rw [nil]; · rfl
    intro a ha; cases a with | listenPort k => exact absurd ha (hn k) | _ => rfl
  · rw [nil]; · rfl
    intro a ha; cases a with | fwmark k => exact absurd ha (hn k) | _ => rfl

/-- C13. A file read for addconf never requests replacing the peers, and requests a device setting exactly if the file
mentions it. -/
theorem c13_addconf_flags (env : Env) (hM : 0xffffffff < env.ulongMax) (path : CStr) (d : Device) (h : readConfigFile env true path = .ok d) :
    ∃ secs, FileGives (docNow env) env path secs ∧ d.flags.replacePeers = false ∧
      (d.flags.hasPrivateKey = true ↔ ∃ k, DevSetting.privateKey k ∈ devSettings secs) ∧
      (d.flags.hasListenPort = true ↔ ∃ k, DevSetting.listenPort k ∈ devSettings secs) ∧
      (d.flags.hasFwmark = true ↔ ∃ k, DevSetting.fwmark k ∈ devSettings secs) := by
  obtain ⟨secs, h1, rfl⟩ := c14_read_sound env hM true path d h
  have ne : ∀ {β : Type} (g : DevSetting → Option β) (l : List DevSetting), (!(l.filterMap g).isEmpty) = true ↔ ∃ a ∈ l, ∃ b, g a = some b := by
    intro β g l
    simp only [Bool.not_eq_true', List.isEmpty_eq_false_iff, ne_eq, List.filterMap_eq_nil_iff, not_forall, Option.ne_none_iff_exists', exists_prop]
  refine ⟨secs, h1, rfl, ?_, ?_, ?_⟩ <;> simp only [fileMeaning, Bool.not_true, Bool.false_or, ne]
  · constructor
    · rintro ⟨a, ha, b, hb⟩; cases a <;> simp [DevSetting.priv?] at hb; exact ⟨_, ha⟩
    · rintro ⟨k, hk⟩; exact ⟨_, hk, k, rfl⟩
  · constructor
    · rintro ⟨a, ha, b, hb⟩; cases a <;> simp [DevSetting.port?] at hb; exact ⟨_, ha⟩
    · rintro ⟨k, hk⟩; exact ⟨_, hk, k, rfl⟩
  · constructor
    · rintro ⟨a, ha, b, hb⟩; cases a <;> simp [DevSetting.mark?] at hb; exact ⟨_, ha⟩
    · rintro ⟨k, hk⟩; exact ⟨_, hk, k, rfl⟩

/-! ### C15: `wg set` -/

/-- C15 (soundness). Whatever `wg set` arguments are accepted follow the documented grammar, and the device update is exactly
what they say; nothing unmentioned is marked as set. -/
theorem c15_set_sound (env : Env) (hM : 0xffffffff < env.ulongMax) (argv : List CStr) (ctx : Ctx) (h : configReadCmd env argv = .ok ctx) :
    ∃ devs groups, CmdSays (docNow env) (docKeyfile env) argv devs groups ∧ ctx.device = cmdMeaning devs groups := by
  obtain ⟨ds, gs, h1, h2⟩ := cmd_sound env argv ctx h
  exact ⟨ds, gs, cmdSays_mono (model_le_doc env hM) (fun p k hk => (c16_keyfile env p k).1 hk) h1, h2⟩

/-- C15 (completeness). Arguments that follow the grammar (with endpoints that resolve) are accepted as what they say. -/
theorem c15_set_complete (env : Env) (hM : 0xffffffff < env.ulongMax) (argv : List CStr) (devs : List DevSetting)
    (groups : List (Key × List PeerArg)) (h : CmdSays (docStable env) (docKeyfile env) argv devs groups) :
    ∃ ctx, configReadCmd env argv = .ok ctx ∧ ctx.device = cmdMeaning devs groups :=
  cmd_complete env argv devs groups (cmdSays_mono (doc_le_stable env hM) (fun p k hk => (c16_keyfile env p k).2 hk) h)

/-- C15, C11 for `wg set`: one set operation with exactly the meaning of a fully accepted argument list, or nothing. -/
theorem c15_set_all_or_nothing (env : Env) (hM : 0xffffffff < env.ulongMax) (ipc : Ipc) (cmd iface a : CStr) (rest : List CStr) :
    (∃ devs groups d, CmdSays (docNow env) (docKeyfile env) (a :: rest) devs groups ∧ d = { cmdMeaning devs groups with name := iface.take 15 } ∧
      setMain env ipc (cmd :: iface :: a :: rest) = ⟨.ok (if ipc.set d = 0 then 0 else 1), [.set d]⟩) ∨
    ((setMain env ipc (cmd :: iface :: a :: rest)).calls = [] ∧
      ((setMain env ipc (cmd :: iface :: a :: rest)).end_ = .ok 1 ∨ (setMain env ipc (cmd :: iface :: a :: rest)).end_ = .running)) := by
  simp only [setMain]
  cases hr : configReadCmd env (a :: rest) with
  | ok ctx =>
    obtain ⟨ds, gs, h1, h2⟩ := c15_set_sound env hM _ ctx hr
    refine .inl ⟨ds, gs, _, h1, rfl, ?_⟩
    simp only [h2]
    exact sendDevice_eq ipc _
  | ub => exact absurd hr (cmd_ne_ub env _ _ _ (Nat.le_refl _))
  | _ => exact .inr (by simp)

/-- C12 for `wg set`: every peer sent has the public key written after its `peer` word. -/
theorem c12_cmd_peers_have_keys (env : Env) (argv : List CStr) (ctx : Ctx) (h : configReadCmd env argv = .ok ctx) :
    ∀ p ∈ ctx.device.peers, p.flags.hasPublicKey = true := by
  obtain ⟨ds, gs, -, h2⟩ := cmd_sound env argv ctx h
  rw [h2]
  intro p hp
  simp only [cmdMeaning, List.mem_map] at hp
  obtain ⟨g, -, rfl⟩ := hp; rfl

example : ∃ ctx, configReadCmd stdEnv [b!"listen-port", b!"51820", b!"peer", b!"AQIDBAUGBwgJCgsMDQ4PEBESExQVFhcYGRobHB0eHyA=",
      b!"allowed-ips", b!"10.0.0.1/32, 10.0.0.2", b!"persistent-keepalive", b!"25", b!"peer", b!"AQIDBAUGBwgJCgsMDQ4PEBESExQVFhcYGRobHB0eHyA=", b!"remove"] = .ok ctx ∧
    ctx.device = { listenPort := 51820, flags := { hasListenPort := true }
                   peers := [{ publicKey := sampleKey, keepalive := 25
                               allowedIPs := [⟨.v4 #v[10, 0, 0, 1], 32⟩, ⟨.v4 #v[10, 0, 0, 2], 32⟩]
                               flags := { hasPublicKey := true, replaceAllowedIPs := true, hasKeepalive := true } },
                             { publicKey := sampleKey, flags := { hasPublicKey := true, removeMe := true } }] } :=
  ⟨_, rfl, by decide +kernel⟩

end WG.Props
