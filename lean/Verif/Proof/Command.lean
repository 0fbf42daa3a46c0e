import Verif.Proof.Setconf
import Verif.Spec.Command
namespace WG
open Spec

def docKeyfile (env : Env) (path : CStr) (k : Key) : Prop :=
  ∃ f, env.file path = some f ∧ f.errAt = none ∧
    ((f.content = [] ∧ f.seekable = true ∧ k = zeroKey) ∨
     ∃ ws, f.content = rfc4648 k.toList ++ ws ∧ ∀ c ∈ ws, isSpace c = true)

theorem stripSpaces_eq (env : Env) (v : CStr) : stripSpaces env v = v.filter fun c => !isSpace c := by
  simp only [stripSpaces, charIsSpace_spec]

/-- One more item after `devs`, `groups`. -/
inductive CmdStep : List DevSetting → List (Key × List PeerArg) → CmdItem → List DevSetting → List (Key × List PeerArg) → Prop
  | dev (ds s) : CmdStep ds [] (.dev s) (ds ++ [s]) []
  | newPeer (ds gs k) : CmdStep ds gs (.newPeer k) ds (gs ++ [(k, [])])
  | arg (ds gs k l a) : CmdStep ds (gs ++ [(k, l)]) (.arg a) ds (gs ++ [(k, l ++ [a])])

theorem cmdItems_step {ds gs i ds' gs'} (h : CmdStep ds gs i ds' gs') : cmdItems ds' gs' = cmdItems ds gs ++ [i] := by
  cases h <;> simp [cmdItems]

theorem cmdItems_snoc {ds gs its i} (h : cmdItems ds gs = its ++ [i]) :
    ∃ ds0 gs0, cmdItems ds0 gs0 = its ∧ CmdStep ds0 gs0 i ds gs := by
  rcases List.eq_nil_or_concat gs with rfl | ⟨gs0, ⟨k, l⟩, rfl⟩
  · rcases List.eq_nil_or_concat ds with rfl | ⟨ds0, s, rfl⟩
    · have := congrArg List.length h; simp [cmdItems] at this
    · simp only [cmdItems, List.flatMap_nil, List.append_nil, List.concat_eq_append, List.map_append, List.map_cons, List.map_nil] at h
      obtain ⟨rfl, hi⟩ := List.append_inj' h rfl
      cases hi
      exact ⟨ds0, [], by simp [cmdItems], by simpa using CmdStep.dev ds0 s⟩
  · rcases List.eq_nil_or_concat l with rfl | ⟨l0, a, rfl⟩
    · have h' : cmdItems ds gs0 ++ [.newPeer k] = its ++ [i] := by rw [← h]; simp [cmdItems]
      obtain ⟨rfl, hi⟩ := List.append_inj' h' rfl
      cases hi
      exact ⟨ds, gs0, rfl, by simpa using CmdStep.newPeer ds gs0 k⟩
    · have h' : cmdItems ds (gs0 ++ [(k, l0)]) ++ [.arg a] = its ++ [i] := by rw [← h]; simp [cmdItems]
      obtain ⟨rfl, hi⟩ := List.append_inj' h' rfl
      cases hi
      exact ⟨ds, gs0 ++ [(k, l0)], rfl, by simpa using CmdStep.arg ds gs0 k l0 a⟩

def applyArg (p : Peer) : PeerArg → Peer
  | .remove => { p with flags := { p.flags with removeMe := true } }
  | .endpoint e => { p with endpoint := e }
  | .allowedIPs l => { p with allowedIPs := p.allowedIPs ++ l, flags := { p.flags with replaceAllowedIPs := true } }
  | .keepalive n => { p with keepalive := n, flags := { p.flags with hasKeepalive := true } }
  | .presharedKey k => { p with presharedKey := k, flags := { p.flags with hasPresharedKey := true } }

theorem groupMeaning_snoc (k : Key) (l : List PeerArg) (a : PeerArg) :
    groupMeaning (k, l ++ [a]) = applyArg (groupMeaning (k, l)) a := by
  cases a <;> simp [groupMeaning, applyArg, PeerArg.remove?, PeerArg.endpoint?, PeerArg.ips?, PeerArg.keepalive?, PeerArg.psk?, lastOr_snoc]

theorem cmdMeaning_dev (ds : List DevSetting) (s : DevSetting) :
    cmdMeaning (ds ++ [s]) [] = applyDev (cmdMeaning ds []) s := by
  cases s <;> simp [cmdMeaning, applyDev, DevSetting.port?, DevSetting.mark?, DevSetting.priv?, lastOr_snoc]

theorem cmdMeaning_new (ds : List DevSetting) (gs : List (Key × List PeerArg)) (k : Key) :
    cmdMeaning ds (gs ++ [(k, [])]) = { cmdMeaning ds gs with
      peers := (cmdMeaning ds gs).peers ++ [{ publicKey := k, flags := { hasPublicKey := true } }] } := by
  simp [cmdMeaning, groupMeaning, lastOr]

theorem cmdMeaning_arg (ds : List DevSetting) (gs : List (Key × List PeerArg)) (k : Key) (l : List PeerArg) (a : PeerArg) :
    updLast (fun p => applyArg p a) (cmdMeaning ds (gs ++ [(k, l)])).peers = some (cmdMeaning ds (gs ++ [(k, l ++ [a])])).peers := by
  simp [cmdMeaning, updLast_snoc, groupMeaning_snoc]

theorem updPeer_arg (ctx : Ctx) (ds : List DevSetting) (gs : List (Key × List PeerArg)) (a : PeerArg)
    (hd : ctx.device = cmdMeaning ds gs) (hp : gs ≠ []) :
    ∃ ctx' gs', ctx.updPeer (fun p => applyArg p a) = .ok ctx' ∧ CmdStep ds gs (.arg a) ds gs' ∧ ctx'.device = cmdMeaning ds gs' := by
  rcases List.eq_nil_or_concat gs with rfl | ⟨gs0, ⟨k, l⟩, rfl⟩
  · exact absurd rfl hp
  · simp only [List.concat_eq_append] at *
    refine ⟨{ ctx with device := { ctx.device with peers := (cmdMeaning ds (gs0 ++ [(k, l ++ [a])])).peers } }, gs0 ++ [(k, l ++ [a])], ?_, .arg .., ?_⟩
    · simp only [Ctx.updPeer, hd, cmdMeaning_arg]
    · simp [hd, cmdMeaning]

theorem peers_nil {ds : List DevSetting} {gs : List (Key × List PeerArg)} {d : Device} (hd : d = cmdMeaning ds gs) :
    d.peers.isEmpty = true ↔ gs = [] := by
  subst hd; simp [cmdMeaning]

theorem cmdSays_step {V : ValueSyntax} {kf : CStr → Key → Prop} {pre w ds gs i ds' gs'} (h : CmdSays V kf pre ds gs) (hw : ItemWords V kf w i)
    (hs : CmdStep ds gs i ds' gs') : CmdSays V kf (pre ++ w) ds' gs' := by
  obtain ⟨c, rfl, hf⟩ := h
  refine ⟨c ++ [w], by simp, ?_⟩
  rw [cmdItems_step hs]
  exact forall2_append hf (.cons hw .nil)

theorem readCmd_sound (env : Env) (n : Nat) : ∀ (argv pre : List CStr) (ctx ctx' : Ctx) (ds : List DevSetting) (gs : List (Key × List PeerArg)),
    argv.length ≤ n → ctx.device = cmdMeaning ds gs → CmdSays (modelSyntax env) (fun p k => parseKeyfile env p = some k) pre ds gs →
    readCmdLoop env ctx argv = .ok ctx' →
    ∃ ds' gs', CmdSays (modelSyntax env) (fun p k => parseKeyfile env p = some k) (pre ++ argv) ds' gs' ∧ ctx'.device = cmdMeaning ds' gs' := by
  induction n with
  | zero =>
    intro argv pre ctx ctx' ds gs hl hd hp h
    cases argv with
    | nil => simp only [readCmdLoop] at h; cases h; exact ⟨ds, gs, by simpa using hp, hd⟩
    | cons a t => simp at hl
  | succ n ih =>
    intro argv pre ctx ctx' ds gs hl hd hp h
    match argv with
    | [] => simp only [readCmdLoop] at h; cases h; exact ⟨ds, gs, by simpa using hp, hd⟩
    | [a] =>
      simp only [readCmdLoop] at h
      split at h
      · rename_i hc
        simp only [Bool.and_eq_true, decide_eq_true_eq, Bool.not_eq_true', ← Bool.not_eq_true] at hc
        obtain ⟨rfl, hne⟩ := hc
        rw [peers_nil hd] at hne
        obtain ⟨c, gs', h1, h2, h3⟩ := updPeer_arg ctx ds gs .remove hd hne
        change ctx.updPeer (fun p => applyArg p .remove) = _ at h
        rw [h1] at h; cases h
        exact ⟨ds, gs', cmdSays_step hp .remove h2, h3⟩
      · cases h
    | a :: v :: rest =>
      simp only [List.length_cons] at hl
      have two : ∀ {i ds' gs' c}, CmdStep ds gs i ds' gs' → ItemWords (modelSyntax env) (fun p k => parseKeyfile env p = some k) [a, v] i →
          c.device = cmdMeaning ds' gs' → readCmdLoop env c rest = .ok ctx' →
          ∃ ds' gs', CmdSays (modelSyntax env) (fun p k => parseKeyfile env p = some k) (pre ++ a :: v :: rest) ds' gs' ∧ ctx'.device = cmdMeaning ds' gs' := by
        intro i ds' gs' c hs hw hd' hr
        have := ih rest (pre ++ [a, v]) c ctx' ds' gs' (by omega) hd' (cmdSays_step hp hw hs) hr
        simpa using this
      unfold readCmdLoop at h
      simp only [Bool.and_eq_true, decide_eq_true_eq, Bool.not_eq_true', ← Bool.not_eq_true, Bool.not_not] at h
      simp only [peers_nil hd] at h
      split at h
      · rename_i hc; obtain ⟨rfl, rfl⟩ := hc
        obtain ⟨p, h1, h2⟩ := res_bind_ok.1 h
        exact two (.dev _ (.listenPort p)) (.listenPort (ofOption_ok.1 h1)) (by simp only [hd, cmdMeaning_dev]; rfl) h2
      split at h
      · rename_i hc; obtain ⟨rfl, rfl⟩ := hc
        obtain ⟨p, h1, h2⟩ := res_bind_ok.1 h
        exact two (.dev _ (.fwmark p)) (.fwmark (ofOption_ok.1 h1)) (by simp only [hd, cmdMeaning_dev]; rfl) h2
      split at h
      · rename_i hc; obtain ⟨rfl, rfl⟩ := hc
        obtain ⟨p, h1, h2⟩ := res_bind_ok.1 h
        exact two (.dev _ (.privateKey p)) (.privateKey (ofOption_ok.1 h1)) (by simp only [hd, cmdMeaning_dev]; rfl) h2
      split at h
      · rename_i hc; subst hc
        obtain ⟨p, h1, h2⟩ := res_bind_ok.1 h
        exact two (.newPeer _ _ p) (.peer (ofOption_ok.1 h1)) (by simp only [hd, cmdMeaning_new]) h2
      split at h
      · rename_i hc; obtain ⟨rfl, hne⟩ := hc
        obtain ⟨c, gs', h1, h2, h3⟩ := updPeer_arg ctx ds gs .remove hd hne
        obtain ⟨c', h4, h5⟩ := res_bind_ok.1 h
        change ctx.updPeer (fun p => applyArg p .remove) = _ at h4
        rw [h1] at h4; cases h4
        have := ih (v :: rest) (pre ++ [b!"remove"]) c ctx' ds gs' (by simp; omega) h3 (cmdSays_step hp .remove h2) h5
        simpa using this
      split at h
      · rename_i hc; obtain ⟨rfl, hne⟩ := hc
        obtain ⟨e, he, h⟩ := res_bind_ok.1 h
        obtain ⟨c', h4, h5⟩ := res_bind_ok.1 h
        obtain ⟨c, gs', h1, h2, h3⟩ := updPeer_arg { ctx with tick := (parseEndpoint env ctx.tick v).2.1 } ds gs (.endpoint e) hd hne
        change Ctx.updPeer _ (fun p => applyArg p (.endpoint e)) = _ at h4
        rw [h1] at h4; cases h4
        exact two h2 (.endpoint ⟨_, he⟩) h3 h5
      split at h
      · rename_i hc; obtain ⟨rfl, hne⟩ := hc
        obtain ⟨⟨as, ws⟩, he, h⟩ := res_bind_ok.1 h
        obtain ⟨c', h4, h5⟩ := res_bind_ok.1 h
        obtain ⟨c, gs', h1, h2, h3⟩ := updPeer_arg { ctx with warnings := ctx.warnings ++ ws } ds gs (.allowedIPs as) hd hne
        change Ctx.updPeer _ (fun p => applyArg p (.allowedIPs as)) = _ at h4
        rw [h1] at h4; cases h4
        rw [stripSpaces_eq] at he
        exact two h2 (.allowedIPs ⟨_, ofOption_ok.1 he⟩) h3 h5
      split at h
      · rename_i hc; obtain ⟨rfl, hne⟩ := hc
        obtain ⟨e, he, h⟩ := res_bind_ok.1 h
        obtain ⟨c', h4, h5⟩ := res_bind_ok.1 h
        obtain ⟨c, gs', h1, h2, h3⟩ := updPeer_arg ctx ds gs (.keepalive e) hd hne
        change Ctx.updPeer _ (fun p => applyArg p (.keepalive e)) = _ at h4
        rw [h1] at h4; cases h4
        exact two h2 (.keepalive (ofOption_ok.1 he)) h3 h5
      split at h
      · rename_i hc; obtain ⟨rfl, hne⟩ := hc
        obtain ⟨e, he, h⟩ := res_bind_ok.1 h
        obtain ⟨c', h4, h5⟩ := res_bind_ok.1 h
        obtain ⟨c, gs', h1, h2, h3⟩ := updPeer_arg ctx ds gs (.presharedKey e) hd hne
        change Ctx.updPeer _ (fun p => applyArg p (.presharedKey e)) = _ at h4
        rw [h1] at h4; cases h4
        exact two h2 (.presharedKey (ofOption_ok.1 he)) h3 h5
      · cases h

/-- One item is processed as the specification says. -/
theorem readCmd_item (env : Env) (ctx : Ctx) (ds ds' : List DevSetting) (gs gs' : List (Key × List PeerArg)) (i : CmdItem) (w rest : List CStr)
    (hd : ctx.device = cmdMeaning ds gs) (hs : CmdStep ds gs i ds' gs')
    (hw : ItemWords (stableSyntax env) (fun p k => parseKeyfile env p = some k) w i) :
    ∃ ctx', ctx'.device = cmdMeaning ds' gs' ∧ readCmdLoop env ctx (w ++ rest) = readCmdLoop env ctx' rest := by
  have args : ∀ a, i = .arg a → ∃ gs0 k l, gs = gs0 ++ [(k, l)] ∧ gs' = gs0 ++ [(k, l ++ [a])] ∧ ds = ds' := by
    rintro a rfl; cases hs; exact ⟨_, _, _, rfl, rfl, rfl⟩
  have upd : ∀ (c : Ctx) a gs0 k l, c.device = cmdMeaning ds (gs0 ++ [(k, l)]) →
      ∃ c', c.updPeer (fun p => applyArg p a) = .ok c' ∧ c'.device = cmdMeaning ds (gs0 ++ [(k, l ++ [a])]) := by
    intro c a gs0 k l hc
    refine ⟨{ c with device := { c.device with peers := (cmdMeaning ds (gs0 ++ [(k, l ++ [a])])).peers } }, ?_, ?_⟩
    · simp only [Ctx.updPeer, hc, cmdMeaning_arg]
    · simp [hc, cmdMeaning]
  cases hw with
  | @listenPort v p h =>
    cases hs
    have he := (peers_nil hd).2 rfl
    simp only [stableSyntax, modelSyntax] at h
    refine ⟨_, ?_, by simp only [List.cons_append, List.nil_append, readCmdLoop, he, h, Res.ofOption, Res.bind]; rfl⟩
    simp only [hd, cmdMeaning_dev]; rfl
  | @fwmark v p h =>
    cases hs
    have he := (peers_nil hd).2 rfl
    simp only [stableSyntax, modelSyntax] at h
    refine ⟨_, ?_, by simp only [List.cons_append, List.nil_append, readCmdLoop, he, h, Res.ofOption, Res.bind]; rfl⟩
    simp only [hd, cmdMeaning_dev]; rfl
  | @privateKey v p h =>
    cases hs
    have he := (peers_nil hd).2 rfl
    refine ⟨_, ?_, by simp only [List.cons_append, List.nil_append, readCmdLoop, he, h, Res.ofOption, Res.bind]; rfl⟩
    simp only [hd, cmdMeaning_dev]; rfl
  | @peer v p h =>
    cases hs
    simp only [stableSyntax, modelSyntax] at h
    refine ⟨{ ctx with device := { ctx.device with
          peers := ctx.device.peers ++ [{ publicKey := p, flags := { hasPublicKey := true } }] } }, ?_, ?_⟩
    · simp only [hd, cmdMeaning_new]
    · simp only [List.cons_append, List.nil_append, readCmdLoop, h, Res.ofOption, Res.bind]
      simp
  | remove =>
    obtain ⟨gs0, k, l, rfl, rfl, rfl⟩ := args _ rfl
    have he : ctx.device.peers.isEmpty = false := by simp [hd, cmdMeaning]
    obtain ⟨c', h1, h2⟩ := upd ctx .remove gs0 k l hd
    refine ⟨c', h2, ?_⟩
    change Ctx.updPeer ctx (fun p => { p with flags := { p.flags with removeMe := true } }) = _ at h1
    cases rest with
    | nil => simp only [List.cons_append, List.nil_append, readCmdLoop, he, h1]; simp
    | cons v rest => simp only [List.cons_append, List.nil_append]; rw [readCmdLoop]; simp only [he, h1, Res.bind]; simp
  | @endpoint v e h =>
    obtain ⟨gs0, k, l, rfl, rfl, rfl⟩ := args _ rfl
    have he : ctx.device.peers.isEmpty = false := by simp [hd, cmdMeaning]
    obtain ⟨c', h1, h2⟩ := upd { ctx with tick := (parseEndpoint env ctx.tick v).2.1 } (.endpoint e) gs0 k l hd
    refine ⟨c', h2, ?_⟩
    have h := h ctx.tick
    change Ctx.updPeer _ (fun p => { p with endpoint := e }) = _ at h1
    simp only [List.cons_append, List.nil_append]; rw [readCmdLoop]; simp only [he, h, Res.bind, h1]; simp
  | @allowedIPs v as h =>
    obtain ⟨gs0, k, l, rfl, rfl, rfl⟩ := args _ rfl
    have he : ctx.device.peers.isEmpty = false := by simp [hd, cmdMeaning]
    obtain ⟨ws, h⟩ := h
    rw [← stripSpaces_eq env] at h
    obtain ⟨c', h1, h2⟩ := upd { ctx with warnings := ctx.warnings ++ ws } (.allowedIPs as) gs0 k l hd
    refine ⟨c', h2, ?_⟩
    change Ctx.updPeer _ (fun p => { p with allowedIPs := p.allowedIPs ++ as, flags := { p.flags with replaceAllowedIPs := true } }) = _ at h1
    simp only [List.cons_append, List.nil_append]; rw [readCmdLoop]; simp only [he, h, Res.ofOption, Res.bind, h1]; simp
  | @keepalive v n h =>
    obtain ⟨gs0, k, l, rfl, rfl, rfl⟩ := args _ rfl
    have he : ctx.device.peers.isEmpty = false := by simp [hd, cmdMeaning]
    simp only [stableSyntax, modelSyntax] at h
    obtain ⟨c', h1, h2⟩ := upd ctx (.keepalive n) gs0 k l hd
    refine ⟨c', h2, ?_⟩
    change Ctx.updPeer _ (fun p => { p with keepalive := n, flags := { p.flags with hasKeepalive := true } }) = _ at h1
    simp only [List.cons_append, List.nil_append]; rw [readCmdLoop]; simp only [he, h, Res.ofOption, Res.bind, h1]; simp
  | @presharedKey v n h =>
    obtain ⟨gs0, k, l, rfl, rfl, rfl⟩ := args _ rfl
    have he : ctx.device.peers.isEmpty = false := by simp [hd, cmdMeaning]
    obtain ⟨c', h1, h2⟩ := upd ctx (.presharedKey n) gs0 k l hd
    refine ⟨c', h2, ?_⟩
    change Ctx.updPeer _ (fun p => { p with presharedKey := n, flags := { p.flags with hasPresharedKey := true } }) = _ at h1
    simp only [List.cons_append, List.nil_append]; rw [readCmdLoop]; simp only [he, h, Res.ofOption, Res.bind, h1]; simp

/-- Prefixes of a well-formed item list are reached. -/
theorem readCmd_prefix (env : Env) (ctx : Ctx) (hd : ctx.device = cmdMeaning [] []) (n : Nat) :
    ∀ (chunks : List (List CStr)) (ds : List DevSetting) (gs : List (Key × List PeerArg)) (rest : List CStr), chunks.length = n →
    List.Forall₂ (ItemWords (stableSyntax env) (fun p k => parseKeyfile env p = some k)) chunks (cmdItems ds gs) →
    ∃ ctx', ctx'.device = cmdMeaning ds gs ∧ readCmdLoop env ctx (chunks.flatten ++ rest) = readCmdLoop env ctx' rest := by
  induction n with
  | zero =>
    intro chunks ds gs rest hl hf
    have : chunks = [] := List.length_eq_zero_iff.1 hl
    subst this
    have h0 : cmdItems ds gs = [] := by cases hx : cmdItems ds gs with | nil => rfl | cons a t => rw [hx] at hf; cases hf
    have h1 : ds = [] := by cases ds with | nil => rfl | cons a t => simp [cmdItems] at h0
    have h2 : gs = [] := by cases gs with | nil => rfl | cons a t => simp [cmdItems] at h0
    subst h1; subst h2
    exact ⟨ctx, hd, rfl⟩
  | succ n ih =>
    intro chunks ds gs rest hl hf
    rcases List.eq_nil_or_concat (cmdItems ds gs) with h0 | ⟨its, i, h0⟩
    · rw [h0] at hf; cases hf; simp at hl
    · rw [h0, List.concat_eq_append] at hf
      rw [List.concat_eq_append] at h0
      obtain ⟨c1, w, rfl, hf1, hw⟩ := forall2_snoc hf
      obtain ⟨ds0, gs0, rfl, hs⟩ := cmdItems_snoc h0
      obtain ⟨ctx1, h1, h2⟩ := ih c1 ds0 gs0 (w ++ rest) (by simp at hl; exact hl) hf1
      obtain ⟨ctx2, h3, h4⟩ := readCmd_item env ctx1 ds0 ds gs0 gs i w rest h1 hs hw
      exact ⟨ctx2, h3, by rw [← h4, ← h2]; simp⟩

theorem itemWords_mono {V W : ValueSyntax} {kf kf' : CStr → Key → Prop} (h : ValueSyntax.Le V W) (hk : ∀ p k, kf p k → kf' p k) {l s}
    (hl : ItemWords V kf l s) : ItemWords W kf' l s := by
  cases hl with
  | listenPort a => exact .listenPort (h.port _ _ a)
  | fwmark a => exact .fwmark (h.fwmark _ _ a)
  | privateKey a => exact .privateKey (hk _ _ a)
  | peer a => exact .peer (h.key _ _ a)
  | remove => exact .remove
  | endpoint a => exact .endpoint (h.endpoint _ _ a)
  | allowedIPs a => exact .allowedIPs (h.allowedIPs _ _ a)
  | keepalive a => exact .keepalive (h.keepalive _ _ a)
  | presharedKey a => exact .presharedKey (hk _ _ a)

theorem cmdSays_mono {V W : ValueSyntax} {kf kf' : CStr → Key → Prop} (h : ValueSyntax.Le V W) (hk : ∀ p k, kf p k → kf' p k) {l ds gs}
    (hl : CmdSays V kf l ds gs) : CmdSays W kf' l ds gs := by
  obtain ⟨c, hc, hf⟩ := hl
  exact ⟨c, hc, hf.imp fun _ _ => itemWords_mono h hk⟩

theorem cmd_sound (env : Env) (argv : List CStr) (ctx : Ctx) (h : configReadCmd env argv = .ok ctx) :
    ∃ ds gs, CmdSays (modelSyntax env) (fun p k => parseKeyfile env p = some k) argv ds gs ∧ ctx.device = cmdMeaning ds gs := by
  have := readCmd_sound env argv.length argv [] _ _ [] [] (Nat.le_refl _) rfl ⟨[], rfl, .nil⟩ h
  simpa using this

theorem cmd_complete (env : Env) (argv : List CStr) (ds : List DevSetting) (gs : List (Key × List PeerArg))
    (h : CmdSays (stableSyntax env) (fun p k => parseKeyfile env p = some k) argv ds gs) :
    ∃ ctx, configReadCmd env argv = .ok ctx ∧ ctx.device = cmdMeaning ds gs := by
  obtain ⟨c, rfl, hf⟩ := h
  obtain ⟨ctx, h1, h2⟩ := readCmd_prefix env { device := {} } rfl _ c ds gs [] rfl hf
  refine ⟨ctx, ?_, h1⟩
  rw [configReadCmd, ← List.append_nil c.flatten, h2, readCmdLoop]

theorem cmd_ne_ub (env : Env) (n : Nat) : ∀ (argv : List CStr) (ctx : Ctx), argv.length ≤ n → readCmdLoop env ctx argv ≠ .ub := by
  induction n with
  | zero =>
    intro argv ctx hl
    cases argv with
    | nil => simp [readCmdLoop]
    | cons a t => simp at hl
  | succ n ih =>
    intro argv ctx hl
    match argv with
    | [] => simp [readCmdLoop]
    | [a] =>
      simp only [readCmdLoop]
      split
      · rename_i hc
        simp only [Bool.and_eq_true, decide_eq_true_eq, Bool.not_eq_true', ← Bool.not_eq_true] at hc
        exact updPeer_ne_ub _ _ (by simpa using hc.2)
      · simp
    | a :: v :: rest =>
      simp only [List.length_cons] at hl
      unfold readCmdLoop
      simp only [Bool.and_eq_true, decide_eq_true_eq, Bool.not_eq_true', ← Bool.not_eq_true, Bool.not_not]
      repeat' split
      all_goals first
        | (intro h; cases h)
        | exact bind_ne_ub (ofOption_ne_ub _) fun _ _ => ih _ _ (by omega)
        | exact bind_ne_ub (updPeer_ne_ub _ _ (by simp_all)) fun _ _ => ih _ _ (by simp; omega)
        | exact bind_ne_ub (parseEndpoint_ne_ub _ _ _) fun _ _ => bind_ne_ub (updPeer_ne_ub _ _ (by simp_all)) fun _ _ => ih _ _ (by omega)
        | exact bind_ne_ub (ofOption_ne_ub _) fun _ _ => bind_ne_ub (updPeer_ne_ub _ _ (by simp_all)) fun _ _ => ih _ _ (by omega)

end WG
