import Verif.Proof.Completion
import Verif.Props.Show
import Verif.Props.Config
import Verif.Model.Main
/-!
C97 (src/completion/wg.bash-completion): the words offered for what comes next on a command line of `wg` are those that `wg` takes there.
-/
namespace WG.Props
open WG.Completion WG.Spec WG.Spec.Completion

/-- C97. After any complete arguments of `wg set` the options offered are exactly those that can be next, whether bash breaks words at `=` and `:` or not. -/
theorem c97_set (env : Completion.Env) (brk : UInt8 → Bool) (hu : Usual brk) (he : Expands env.expand) (iface cur : CStr) (hc : cur ≠ b!"=")
    (l : Line) (hl : l.Proper brk) :
    complete env (typed brk iface l.args cur) (cursor brk l.args) = .words (startingWith cur (nextNames l)) := by
  rw [typed_eq, cursor, complete_set, line_words]
  unfold completeSet
  simp only
  have hcur : ([b!"wg", b!"set", iface] ++ (devPart brk l.dev ++ peerPart brk l.peers ++ [cur])).getD
      (3 + (devPart brk l.dev ++ peerPart brk l.peers).length) [] = cur := getD_cur [b!"wg", b!"set", iface] _ cur []
  rw [hcur]
  by_cases hp : l.peers = []
  · have hn : nextNames l = (devNames.filter fun n => n ∉ l.dev.map (·.1)) ++ [b!"peer"] := by simp [nextNames, hp]
    have hs := seen_none hu l.dev hl.dev iface [cur]
    have hev := devPart_even hu l.dev hl.dev
    rw [hp, show peerPart brk [] = [] from rfl, List.append_nil, hs, hn]
    obtain ⟨-, -, -, h4⟩ := seen_all l.dev {}
    rw [if_pos h4, if_pos (by omega), compgenW, expand_dev he, devWords_eq]
    rfl
  · obtain ⟨p, peers, hpe⟩ := List.exists_cons_of_ne_nil hp
    have hw := peerPart_cons hu (brk := brk) p peers
    rw [← hpe] at hw
    have hlen : (peerPart brk l.peers).length > 0 := by rw [hw]; simp
    have hs := seen_peer hu l.dev hl.dev iface
      (wordsOf brk (rfc4648 p.1.toList) ++ (optWords brk p.2 ++ peerPart brk peers) ++ [cur])
      (3 + (devPart brk l.dev ++ peerPart brk l.peers).length) (by simp; omega)
    have e1 : [b!"wg", b!"set", iface] ++ (devPart brk l.dev ++ peerPart brk l.peers ++ [cur]) = [b!"wg", b!"set", iface] ++ (devPart brk l.dev ++
        b!"peer" :: (wordsOf brk (rfc4648 p.1.toList) ++ (optWords brk p.2 ++ peerPart brk peers) ++ [cur])) := by rw [hw]; simp
    rw [← e1] at hs
    rw [hs, if_neg (by omega)]
    obtain ⟨pre, w, hlw, hwp⟩ := last_word hu l.peers hp hl.opts
    have hb : ([b!"wg", b!"set", iface] ++ (devPart brk l.dev ++ peerPart brk l.peers ++ [cur])).getD
        (3 + (devPart brk l.dev ++ peerPart brk l.peers).length - 1) [] = w := by
      have := getD_cur [b!"wg", b!"set", iface] (devPart brk l.dev ++ pre) w [cur]
      rw [hlw]
      have e : 3 + (devPart brk l.dev ++ (pre ++ [w])).length - 1 = [b!"wg", b!"set", iface].length + (devPart brk l.dev ++ pre).length := by
        simp; omega
      rw [e]
      exact Eq.trans (by congr 1; simp) this
    rw [hb, if_neg hwp]
    have hloop := peerLoop_peers hu l.peers hl.opts ([b!"wg", b!"set", iface] ++ devPart brk l.dev) [cur] (by simpa using hc)
      (3 + (devPart brk l.dev ++ peerPart brk l.peers).length) {} (by simp; omega)
    have e2 : ([b!"wg", b!"set", iface] ++ devPart brk l.dev).length = 3 + (devPart brk l.dev).length := by simp; omega
    have e3 : [b!"wg", b!"set", iface] ++ devPart brk l.dev ++ (peerPart brk l.peers ++ [cur]) =
        [b!"wg", b!"set", iface] ++ (devPart brk l.dev ++ peerPart brk l.peers ++ [cur]) := by simp
    have e4 : 3 + (devPart brk l.dev).length + (peerPart brk l.peers).length = 3 + (devPart brk l.dev ++ peerPart brk l.peers).length := by simp; omega
    rw [e2, e3, e4] at hloop
    have hend : ∀ ws n g, peerLoop ws n n g = (g, n) := by intro ws n g; rw [peerLoop]; simp
    rw [hloop, hend]
    simp only [if_true, compgenW]
    rw [expand_peer he]
    cases hq : l.peers.getLast? with
    | none => simp at hq; exact absurd hq hp
    | some q =>
      simp only [Option.map_some, Option.getD_some, nextNames, hq]
      rw [peerWords_eq]
      rfl

/-- `peer` somewhere on the line: what the first loop finds. -/
theorem seen_some {brk} (hu : Usual brk) (l : Line) (hl : l.Proper brk) (iface : CStr) (aft : List CStr) (hp : l.peers ≠ [] ∨ aft.head? = some b!"peer") (cword : Nat)
    (h : 3 + (devPart brk l.dev ++ peerPart brk l.peers).length ≤ cword) (h2 : l.peers = [] → 3 + (devPart brk l.dev).length < cword) :
    (devLoop ([b!"wg", b!"set", iface] ++ (devPart brk l.dev ++ peerPart brk l.peers ++ aft)) cword 3 {}).peer = 3 + (devPart brk l.dev).length := by
  rw [List.length_append] at h
  cases hpe : l.peers with
  | nil =>
    have ha : aft.head? = some b!"peer" := hp.resolve_left (by simp [hpe])
    cases aft with
    | nil => simp at ha
    | cons x aft =>
      simp at ha
      subst ha
      rw [show peerPart brk [] = [] from rfl, List.append_nil]
      exact seen_peer hu l.dev hl.dev iface aft cword (h2 hpe)
  | cons p peers =>
    have hw := peerPart_cons hu (brk := brk) p peers
    rw [hpe, hw] at h
    have := seen_peer hu l.dev hl.dev iface (wordsOf brk (rfc4648 p.1.toList) ++ (optWords brk p.2 ++ peerPart brk peers) ++ aft) cword (by simp at h; omega)
    rw [hw]
    simpa using this

/-- C97. After `peer` the keys of the peers of the interface are offered. -/
theorem c97_keys (env : Completion.Env) (brk : UInt8 → Bool) (hu : Usual brk) (he : Expands env.expand) (iface cur : CStr) (l : Line) (hl : l.Proper brk)
    (senv : ShowEnv) (ipc : ShowIpc) (d : Device) (hi : iface ≠ b!"all" ∧ iface ≠ b!"interfaces") (hg : ipc.get iface = (0, some d))
    (ho : env.peers iface = (showMain senv ipc [iface, b!"peers"]).out) :
    complete env (typed brk iface (l.args ++ [b!"peer"]) cur) (cursor brk (l.args ++ [b!"peer"])) =
      .words (startingWith cur (d.peers.map fun p => rfc4648 p.publicKey.toList)) := by
  have hpw := name_words hu b!"peer" (by decide)
  have e0 : (l.args ++ [b!"peer"]).flatMap (wordsOf brk) = devPart brk l.dev ++ peerPart brk l.peers ++ [b!"peer"] := by
    rw [List.flatMap_append, line_words]; simp [hpw]
  rw [typed_eq, cursor, complete_set, e0]
  unfold completeSet
  simp only
  have e1 : devPart brk l.dev ++ peerPart brk l.peers ++ [b!"peer"] ++ [cur] = devPart brk l.dev ++ peerPart brk l.peers ++ [b!"peer", cur] := by simp
  have hcur := getD_cur [b!"wg", b!"set", iface] (devPart brk l.dev ++ peerPart brk l.peers ++ [b!"peer"]) cur []
  have hbef := getD_cur [b!"wg", b!"set", iface] (devPart brk l.dev ++ peerPart brk l.peers) b!"peer" [cur]
  have hs := seen_some hu l hl iface [b!"peer", cur] (.inr rfl) (3 + (devPart brk l.dev ++ peerPart brk l.peers ++ [b!"peer"]).length) (by simp) (by intro; simp)
  rw [← e1] at hs hbef
  rw [show [b!"wg", b!"set", iface].length = 3 from rfl] at hcur hbef
  have hbef' : ([b!"wg", b!"set", iface] ++ (devPart brk l.dev ++ peerPart brk l.peers ++ [b!"peer"] ++ [cur])).getD
      (3 + (devPart brk l.dev ++ peerPart brk l.peers ++ [b!"peer"]).length - 1) [] = b!"peer" := by
    have : 3 + (devPart brk l.dev ++ peerPart brk l.peers ++ [b!"peer"]).length - 1 = 3 + (devPart brk l.dev ++ peerPart brk l.peers).length := by
      simp only [List.length_append, List.length_cons, List.length_nil]; omega
    rw [this]
    exact hbef
  rw [hs, hcur, hbef', if_neg (by omega), if_pos rfl, compgenW]
  have h2 : ([b!"wg", b!"set", iface] ++ (devPart brk l.dev ++ peerPart brk l.peers ++ [b!"peer"] ++ [cur])).getD 2 [] = iface := rfl
  have hout : env.peers iface = (d.peers.map fun p => rfc4648 p.publicKey.toList).flatMap fun w => w ++ [10] := by
    rw [ho, showMain]
    rw [if_neg hi.1, if_neg hi.2, showOne, hg]
    simp only
    rw [if_neg (by decide)]
    simp only [uglyPrint, ifaceCol]
    simp [keyToBase64_rfc, List.flatMap_map]
  rw [h2, he]
  · rw [blankWords_substituted, hout, blankWords_lines]
    · rfl
    · intro w hw
      obtain ⟨p, -, rfl⟩ := List.mem_map.1 hw
      exact ⟨(key_plain _).1, fun c hc => ((key_plain _).2 c hc).2⟩
  · intro c hc
    have hc := substituted_mem _ c hc
    rw [hout] at hc
    simp only [List.mem_flatMap, List.mem_map, List.mem_append, List.mem_singleton] at hc
    obtain ⟨w, ⟨p, -, rfl⟩, hc | rfl⟩ := hc
    · exact ((key_plain _).2 c hc).1
    · decide

/-- C97. For the value of an option of the interface: file names for `private-key`, nothing for the others. -/
theorem c97_value (env : Completion.Env) (brk : UInt8 → Bool) (hu : Usual brk) (iface cur : CStr) (l : Line) (hl : l.Proper brk) (hp : l.peers = [])
    (n : CStr) (hn : n ∈ devNames) :
    complete env (typed brk iface (l.args ++ [n]) cur) (cursor brk (l.args ++ [n])) = if n = b!"private-key" then .files cur else .nothing := by
  have hnn : n ∈ names := (by decide : ∀ n ∈ devNames, n ∈ names) _ hn
  have hnw := name_words hu n hnn
  have e0 : (l.args ++ [n]).flatMap (wordsOf brk) = devPart brk l.dev ++ [n] := by
    rw [List.flatMap_append, line_words, hp]; simp [hnw, peerPart]
  rw [typed_eq, cursor, complete_set, e0]
  unfold completeSet
  simp only
  have hcur := getD_cur [b!"wg", b!"set", iface] (devPart brk l.dev ++ [n]) cur []
  have hbef := getD_cur [b!"wg", b!"set", iface] (devPart brk l.dev) n [cur]
  rw [show [b!"wg", b!"set", iface].length = 3 from rfl] at hcur hbef
  have e1 : devPart brk l.dev ++ [n] ++ [cur] = devPart brk l.dev ++ [n, cur] := by simp
  have e2 : 3 + (devPart brk l.dev ++ [n]).length = 3 + (devPart brk l.dev).length + 1 := by simp; omega
  have hd := devLoop_devs hu l.dev hl.dev [b!"wg", b!"set", iface] [n, cur] (3 + (devPart brk l.dev).length + 1) {} (by simp only [List.length_cons, List.length_nil]; omega)
  rw [show [b!"wg", b!"set", iface].length = 3 from rfl] at hd
  have hat := devLoop_at ([b!"wg", b!"set", iface] ++ devPart brk l.dev) [cur] n (3 + (devPart brk l.dev).length + 1)
    (l.dev.foldl (fun s o => see o.1 s) {}) (by simp; omega) (dev_not_peer hn)
  have e3 : ([b!"wg", b!"set", iface] ++ devPart brk l.dev).length = 3 + (devPart brk l.dev).length := by simp; omega
  rw [e3, List.append_assoc] at hat
  have hend : ∀ ws m s, devLoop ws m (m + 1) s = s := by intro ws m s; rw [devLoop, dif_neg (by omega)]
  have e4 : 3 + (devPart brk l.dev).length + 2 = 3 + (devPart brk l.dev).length + 1 + 1 := rfl
  simp only [List.cons_append, List.nil_append] at hat hd
  rw [hat, e4, hend] at hd
  have hpz : ∀ s, (see n s).peer = s.peer := by intro s; unfold see; split <;> split <;> split <;> rfl
  have h4 := (seen_all l.dev {}).2.2.2
  have hev := devPart_even hu l.dev hl.dev
  simp only [List.append_assoc, List.cons_append, List.nil_append] at hcur hbef ⊢
  rw [hcur, e2, hd, if_pos (by rw [hpz]; exact h4), if_neg (by omega), Nat.add_sub_cancel, hbef]
  simp only [devNames, List.mem_cons, List.not_mem_nil, or_false] at hn
  rcases hn with rfl | rfl | rfl <;> rfl

/-- C97. For the value of an option of a peer nothing is offered: not even file names for `preshared-key`. -/
theorem c97_peer_value (env : Completion.Env) (brk : UInt8 → Bool) (hu : Usual brk) (iface cur : CStr) (l : Line) (hl : l.Proper brk) (hp : l.peers ≠ [])
    (n : CStr) (hn : n ∈ peerNames) :
    complete env (typed brk iface (l.args ++ [n]) cur) (cursor brk (l.args ++ [n])) = .nothing := by
  have hnn : n ∈ names := (by decide : ∀ n ∈ peerNames, n ∈ names) _ hn
  have hnw := name_words hu n hnn
  have e0 : (l.args ++ [n]).flatMap (wordsOf brk) = devPart brk l.dev ++ peerPart brk l.peers ++ [n] := by
    rw [List.flatMap_append, line_words]; simp [hnw]
  rw [typed_eq, cursor, complete_set, e0]
  unfold completeSet
  simp only
  have hbef := getD_cur [b!"wg", b!"set", iface] (devPart brk l.dev ++ peerPart brk l.peers) n [cur]
  rw [show [b!"wg", b!"set", iface].length = 3 from rfl] at hbef
  have e1 : devPart brk l.dev ++ peerPart brk l.peers ++ [n] ++ [cur] = devPart brk l.dev ++ peerPart brk l.peers ++ [n, cur] := by simp
  have e2 : 3 + (devPart brk l.dev ++ peerPart brk l.peers ++ [n]).length = 3 + (devPart brk l.dev ++ peerPart brk l.peers).length + 1 := by simp; omega
  have hs := seen_some hu l hl iface [n, cur] (.inl hp) (3 + (devPart brk l.dev ++ peerPart brk l.peers).length + 1) (by omega) (fun h => absurd h hp)
  have hloop := peerLoop_peers hu l.peers hl.opts ([b!"wg", b!"set", iface] ++ devPart brk l.dev) [n, cur]
    (by simp only [List.getD_cons_zero]; rintro rfl; exact absurd hn (by decide)) (3 + (devPart brk l.dev ++ peerPart brk l.peers).length + 1) {} (by simp; omega)
  have hat := peerLoop_at ([b!"wg", b!"set", iface] ++ (devPart brk l.dev ++ peerPart brk l.peers)) [cur] n (3 + (devPart brk l.dev ++ peerPart brk l.peers).length + 1)
    ((l.peers.getLast?.map fun p => givenBy p.2).getD {}) (by simp; omega) (peer_not_peer hn)
  have a2 : ([b!"wg", b!"set", iface] ++ devPart brk l.dev).length = 3 + (devPart brk l.dev).length := by simp; omega
  have a3 : [b!"wg", b!"set", iface] ++ devPart brk l.dev ++ (peerPart brk l.peers ++ [n, cur]) =
      [b!"wg", b!"set", iface] ++ (devPart brk l.dev ++ peerPart brk l.peers ++ [n, cur]) := by simp
  have a4 : 3 + (devPart brk l.dev).length + (peerPart brk l.peers).length = 3 + (devPart brk l.dev ++ peerPart brk l.peers).length := by simp; omega
  have a5 : ([b!"wg", b!"set", iface] ++ (devPart brk l.dev ++ peerPart brk l.peers)).length = 3 + (devPart brk l.dev ++ peerPart brk l.peers).length := by simp; omega
  rw [a2, a3, a4] at hloop
  rw [a5, List.append_assoc, if_neg (peer_not_remove hn)] at hat
  have hend : ∀ ws m s, peerLoop ws m (m + 1) s = (s, m + 1) := by intro ws m s; rw [peerLoop, dif_neg (by omega)]
  have e4 : 3 + (devPart brk l.dev ++ peerPart brk l.peers).length + 1 + 1 = (3 + (devPart brk l.dev ++ peerPart brk l.peers).length + 1) + 1 := rfl
  simp only [List.cons_append, List.nil_append] at hat hloop
  rw [hat, e4, hend] at hloop
  simp only [List.cons_append, List.nil_append] at hs hbef e1 ⊢
  rw [e1, e2, hs, if_neg (by omega), Nat.add_sub_cancel, hbef, if_neg (peer_not_peer hn), hloop]
  simp only
  rw [if_neg (by omega)]

/-- C97. An option that is offered is taken by `wg set` in that place, if it is given a value it can have. -/
theorem c97_accepted (env : WG.Env) (brk : UInt8 → Bool) (l : Line) (hl : l.Proper brk) (ctx : Ctx) (h : configReadCmd env l.args = .ok ctx)
    (w : CStr) (hw : w ∈ nextNames l) (val : List CStr) (i : CmdItem)
    (hv : ItemWords (stableSyntax env) (fun p k => parseKeyfile env p = some k) (w :: val) i) :
    ∃ ctx', configReadCmd env (l.args ++ w :: val) = .ok ctx' := by
  have hpe := line_peers env l (fun o ho => (hl.dev o ho).1) ctx h
  have happ := readCmd_append env _ l.args (w :: val) _ ctx (Nat.le_refl _) h
  obtain ⟨ds, gs, -, hd⟩ := cmd_sound env l.args ctx h
  have hgs : gs = [] ↔ l.peers = [] := by
    rw [← hpe, ← peers_nil hd]; simp
  have step : ∃ ds' gs', CmdStep ds gs i ds' gs' := by
    have arg : ∀ a, l.peers ≠ [] → ∃ ds' gs', CmdStep ds gs (.arg a) ds' gs' := by
      intro a hne
      rcases List.eq_nil_or_concat gs with h0 | ⟨gs0, g, h0⟩
      · exact absurd (hgs.1 h0) hne
      · rw [List.concat_eq_append] at h0
        subst h0
        exact ⟨_, _, .arg ds gs0 g.1 g.2 a⟩
    have dev : ∀ s, l.peers = [] → ∃ ds' gs', CmdStep ds gs (.dev s) ds' gs' := by
      intro s h0
      have := hgs.2 h0
      subst this
      exact ⟨_, _, .dev ds s⟩
    have hno : ∀ n, n ∈ devNames → n ∈ nextNames l → l.peers = [] := by
      intro n hn hx
      cases hq : l.peers.getLast? with
      | none => simpa using hq
      | some q =>
        simp only [nextNames, hq] at hx
        simp only [devNames, List.mem_cons, List.not_mem_nil, or_false] at hn
        split at hx
        · rcases hn with rfl | rfl | rfl <;> exact absurd hx (by decide)
        · rcases List.mem_append.1 hx with hx | hx
          · rcases hn with rfl | rfl | rfl <;> exact absurd (List.mem_filter.1 hx).1 (by decide)
          · rcases hn with rfl | rfl | rfl <;> exact absurd hx (by decide)
    have hyes : ∀ n, n ∈ b!"remove" :: peerNames → n ∈ nextNames l → l.peers ≠ [] := by
      intro n hn hx h0
      simp only [nextNames, h0, List.getLast?_nil] at hx
      rcases List.mem_append.1 hx with hx | hx
      · have := (List.mem_filter.1 hx).1
        exact (by decide : ∀ n ∈ b!"remove" :: peerNames, n ∉ devNames) n hn this
      · exact (by decide : ∀ n ∈ b!"remove" :: peerNames, n ∉ [b!"peer"]) n hn hx
    cases hv with
    | listenPort _ => exact dev _ (hno _ (by decide) hw)
    | fwmark _ => exact dev _ (hno _ (by decide) hw)
    | privateKey _ => exact dev _ (hno _ (by decide) hw)
    | @peer v k _ => exact ⟨_, _, .newPeer ds gs k⟩
    | remove => exact arg _ (hyes _ (by decide) hw)
    | endpoint _ => exact arg _ (hyes _ (by decide) hw)
    | allowedIPs _ => exact arg _ (hyes _ (by decide) hw)
    | keepalive _ => exact arg _ (hyes _ (by decide) hw)
    | presharedKey _ => exact arg _ (hyes _ (by decide) hw)
  obtain ⟨ds', gs', hs⟩ := step
  obtain ⟨ctx', h1, h2⟩ := readCmd_item env ctx ds ds' gs gs' i (w :: val) [] hd hs hv
  rw [List.append_nil, readCmdLoop] at h2
  exact ⟨ctx', by rw [configReadCmd, happ, h2]⟩

/-- C97. Conversely: if `wg set` takes what follows, the word it begins with is offered, or the option was given already, or the peer is to be removed. -/
theorem c97_complete (env : WG.Env) (brk : UInt8 → Bool) (l : Line) (hl : l.Proper brk) (ctx : Ctx) (h : configReadCmd env l.args = .ok ctx)
    (w : CStr) (val : List CStr) (ctx' : Ctx) (hv : configReadCmd env (l.args ++ w :: val) = .ok ctx') :
    w ∈ nextNames l ∨ (l.peers = [] ∧ w ∈ l.dev.map (·.1)) ∨ ∃ p, l.peers.getLast? = some p ∧ (w ∈ p.2.map (·.1) ∨ b!"remove" ∈ p.2.map (·.1)) := by
  have hpe := line_peers env l (fun o ho => (hl.dev o ho).1) ctx h
  have happ := readCmd_append env _ l.args (w :: val) _ ctx (Nat.le_refl _) h
  rw [configReadCmd, happ] at hv
  by_cases hp : l.peers = []
  · have he : ctx.device.peers.isEmpty = true := by simpa using hpe.2 hp
    have hw : w ∈ devNames ∨ w = b!"peer" := by
      cases val with
      | nil => simp [readCmdLoop, he] at hv
      | cons v val =>
        unfold readCmdLoop at hv
        simp only [he, Bool.not_true, Bool.not_false, Bool.and_true, Bool.and_false, decide_eq_true_eq, Bool.false_eq_true, if_false] at hv
        split at hv
        · rename_i hx; subst hx; exact .inl (by decide)
        split at hv
        · rename_i hx; subst hx; exact .inl (by decide)
        split at hv
        · rename_i hx; subst hx; exact .inl (by decide)
        split at hv
        · rename_i hx; exact .inr hx
        · cases hv
    have hn : nextNames l = (devNames.filter fun n => n ∉ l.dev.map (·.1)) ++ [b!"peer"] := by simp [nextNames, hp]
    rw [hn]
    rcases hw with hw | rfl
    · by_cases hg : w ∈ l.dev.map (·.1)
      · exact .inr (.inl ⟨hp, hg⟩)
      · exact .inl (List.mem_append_left _ (List.mem_filter.2 ⟨hw, by simpa using hg⟩))
    · exact .inl (by simp)
  · have he : ctx.device.peers.isEmpty = false := by simpa using fun hx => hp (hpe.1 hx)
    have hw : w ∈ peerNames ∨ w = b!"remove" ∨ w = b!"peer" := by
      cases val with
      | nil =>
        simp only [readCmdLoop] at hv
        split at hv
        · rename_i hx; simp at hx; exact .inr (.inl hx.1)
        · cases hv
      | cons v val =>
        unfold readCmdLoop at hv
        simp only [he, Bool.not_true, Bool.not_false, Bool.and_true, Bool.and_false, decide_eq_true_eq, Bool.false_eq_true, if_false] at hv
        split at hv
        · rename_i hx; exact .inr (.inr hx)
        split at hv
        · rename_i hx; exact .inr (.inl hx)
        split at hv
        · rename_i hx; subst hx; exact .inl (by decide)
        split at hv
        · rename_i hx; subst hx; exact .inl (by decide)
        split at hv
        · rename_i hx; subst hx; exact .inl (by decide)
        split at hv
        · rename_i hx; subst hx; exact .inl (by decide)
        · cases hv
    cases hq : l.peers.getLast? with
    | none => simp at hq; exact absurd hq hp
    | some q =>
      by_cases hr : b!"remove" ∈ q.2.map (·.1)
      · exact .inr (.inr ⟨q, rfl, .inr hr⟩)
      · by_cases hg : w ∈ q.2.map (·.1)
        · exact .inr (.inr ⟨q, rfl, .inl hg⟩)
        · left
          simp only [nextNames, hq, if_neg hr]
          rcases hw with hw | rfl | rfl
          · exact List.mem_append_left _ (List.mem_filter.2 ⟨hw, by simpa using hg⟩)
          · simp
          · simp

/-- C97. The first argument: `help` and every subcommand there is. -/
theorem c97_subcommands (env : Completion.Env) (he : Expands env.expand) (cur : CStr) :
    complete env [b!"wg", cur] 1 = .words (startingWith cur (b!"help" :: subcommands.map (·.1))) := by
  show compgenW env _ _ = _
  rw [compgenW, he _ (by decide)]
  rfl

/-- C97. After an interface (or `all`) `wg show` takes exactly the words that are offered. -/
theorem c97_show (env : Completion.Env) (he : Expands env.expand) : ∃ params : List CStr,
    (∀ (iface cur : CStr), iface ≠ b!"interfaces" → complete env [b!"wg", b!"show", iface, cur] 3 = .words (startingWith cur params)) ∧
    (∀ cur, complete env [b!"wg", b!"show", b!"interfaces", cur] 3 = .nothing) ∧
    ∀ (senv : ShowEnv) (ipc : ShowIpc) (iface w : CStr) (d : Device), iface ≠ b!"all" → iface ≠ b!"interfaces" → ipc.get iface = (0, some d) →
      ((showMain senv ipc [iface, w]).end_ = .ok 0 ↔ w ∈ params) := by
  refine ⟨blankWords b!"public-key private-key listen-port peers preshared-keys endpoints allowed-ips fwmark latest-handshakes persistent-keepalive transfer dump" [],
    ?_, fun _ => rfl, ?_⟩
  · intro iface cur hi
    unfold complete
    simp only [List.getD_cons_succ, List.getD_cons_zero]
    rw [if_neg (by decide), if_neg (by decide), if_neg (by decide), if_neg (by decide), if_pos ⟨trivial, trivial, hi⟩, compgenW, he _ (by decide +kernel)]
    rfl
  · intro senv ipc iface w d h1 h2 hg
    rw [(c48_forms senv ipc).2.2.2.2.2.2.1 iface w h1 h2, showOne, hg]
    have e : blankWords b!"public-key private-key listen-port peers preshared-keys endpoints allowed-ips fwmark latest-handshakes persistent-keepalive transfer dump" [] =
        [b!"public-key", b!"private-key", b!"listen-port", b!"peers", b!"preshared-keys", b!"endpoints", b!"allowed-ips", b!"fwmark", b!"latest-handshakes",
          b!"persistent-keepalive", b!"transfer", b!"dump"] := by decide +kernel
    rw [e]
    simp only [List.mem_cons, List.not_mem_nil, or_false]
    rw [if_neg (by decide)]
    constructor
    · intro h
      by_contra hc
      simp only [not_or] at hc
      obtain ⟨h1, h2, h3, h4, h5, h6, h7, h8, h9, h10, h11, h12⟩ := hc
      have : uglyPrint senv d w false = none := by
        simp only [uglyPrint, if_neg h1, if_neg h2, if_neg h3, if_neg h4, if_neg h5, if_neg h6, if_neg h7, if_neg h8, if_neg h9, if_neg h10, if_neg h11, if_neg h12]
      simp only [this] at h
      exact absurd h (by decide)
    · intro h
      rcases h with rfl | rfl | rfl | rfl | rfl | rfl | rfl | rfl | rfl | rfl | rfl | rfl <;> rfl

/-- Names the shell finds nothing in, and that are one word. -/
def PlainNames (names : List CStr) : Prop := ∀ n ∈ names, n ≠ [] ∧ ∀ c ∈ n, isPlain c = true ∧ ¬ (c = 32 ∨ c = 9 ∨ c = 10)

/-- C97. The second argument: the interfaces there are; for `wg show` also `all` and `interfaces`. -/
theorem c97_interfaces (env : Completion.Env) (he : Expands env.expand) (senv : ShowEnv) (ipc : ShowIpc) (names : List CStr) (hn : PlainNames names)
    (hi : ipc.list = some names) (ho : env.interfaces = (showMain senv ipc [b!"interfaces"]).out) (sub cur : CStr)
    (hs : sub ∈ [b!"show", b!"showconf", b!"set", b!"setconf", b!"addconf", b!"syncconf"]) :
    complete env [b!"wg", sub, cur] 2 = .words (startingWith cur (names ++ if sub = b!"show" then [b!"all", b!"interfaces"] else [])) := by
  have hout : env.interfaces = namesText names := by
    rw [ho, (c48_forms senv ipc).2.2.2.2.1 names hi, namesText_eq]
  have h0 : complete env [b!"wg", sub, cur] 2 = compgenW env (substituted env.interfaces ++ if sub = b!"show" then b!" all interfaces" else []) cur := by
    unfold complete
    simp only [List.getD_cons_succ, List.getD_cons_zero]
    rw [if_neg (by decide), if_neg (by revert hs; revert sub; decide), if_neg (fun h => h hs), if_pos trivial]
  have hpl : ∀ c ∈ substituted env.interfaces, isPlain c = true := by
    intro c hc
    have := substituted_mem _ c hc
    rw [hout] at this
    rcases namesText_mem names c this with rfl | rfl | ⟨w, hw, hc⟩
    · decide
    · decide
    · exact ((hn w hw).2 c hc).1
  have hbl : blankWords (substituted env.interfaces) [] = names := by
    rw [blankWords_substituted, hout, blankWords_names]
    intro w hw
    exact ⟨(hn w hw).1, fun c hc => ((hn w hw).2 c hc).2⟩
  rw [h0, compgenW, he]
  · congr 1
    unfold startingWith
    congr 1
    split
    · show blankWords (_ ++ 32 :: b!"all interfaces") [] = _
      rw [blankWords_append _ _ _ 32 (.inl rfl), hbl]
      rfl
    · simp [hbl]
  · intro c hc
    rcases List.mem_append.1 hc with hc | hc
    · exact hpl c hc
    · split at hc
      · exact (by decide : ∀ c ∈ b!" all interfaces", isPlain c = true) c hc
      · simp at hc

/-- C97. The third argument of `setconf`, `addconf` and `syncconf` is a file; nothing is offered to `showconf` there, or to commands without arguments. -/
theorem c97_files (env : Completion.Env) (iface cur : CStr) :
    (∀ sub ∈ [b!"setconf", b!"addconf", b!"syncconf"], complete env [b!"wg", sub, iface, cur] 3 = .files cur) ∧
    complete env [b!"wg", b!"showconf", iface, cur] 3 = .nothing ∧
    ∀ sub ∈ [b!"genkey", b!"genpsk", b!"pubkey", b!"help"], complete env [b!"wg", sub, cur] 2 = .nothing := by
  refine ⟨?_, rfl, ?_⟩
  · intro sub hs
    simp only [List.mem_cons, List.not_mem_nil, or_false] at hs
    rcases hs with rfl | rfl | rfl <;> rfl
  · intro sub hs
    simp only [List.mem_cons, List.not_mem_nil, or_false] at hs
    rcases hs with rfl | rfl | rfl | rfl <;> rfl

/-! ### Examples -/

/-- COMP_WORDBREAKS as it is by default: `"'><=;|&(:` and blanks. -/
def usualBreaks (c : UInt8) : Bool := c ∈ b!" \t\n\"'><=;|&(:"

theorem usualBreaks_usual : Usual usualBreaks := by
  unfold Usual
  apply forall_u8
  decide +kernel

def exComp : Completion.Env where
  interfaces := b!"wg0 wg1\n"
  peers _ := b!"AQIDBAUGBwgJCgsMDQ4PEBESExQVFhcYGRobHB0eHyA=\n"
  expand t := blankWords t []

theorem exComp_expands : Expands exComp.expand := fun _ _ => rfl

/-- `listen-port 51820 peer … endpoint 192.0.2.1:51820 allowed-ips 10.0.0.0/8,fd00::/8` -/
def exLine : Line where
  dev := [(b!"listen-port", b!"51820")]
  peers := [(sampleKey, [(b!"endpoint", some b!"192.0.2.1:51820"), (b!"allowed-ips", some b!"10.0.0.0/8,fd00::/8")])]

theorem exLine_proper : exLine.Proper usualBreaks where
  dev := by
    intro o ho
    simp only [exLine, List.mem_singleton] at ho
    subst ho
    exact ⟨by decide, c!"5", c!"0", rfl, rfl, by decide, by decide⟩
  opts := by
    intro p hp o ho
    simp only [exLine, List.mem_singleton] at hp
    subst hp
    simp only [List.mem_cons, List.not_mem_nil, or_false] at ho
    rcases ho with rfl | rfl
    · exact .inr ⟨by decide, _, rfl, ⟨c!"1", c!"0", rfl, rfl, by decide, by decide⟩, by decide⟩
    · exact .inr ⟨by decide, _, rfl, ⟨c!"1", c!"8", rfl, rfl, by decide, by decide⟩, by decide⟩

example : complete exComp (typed usualBreaks b!"wg0" exLine.args []) (cursor usualBreaks exLine.args) =
    .words [b!"preshared-key", b!"persistent-keepalive", b!"remove", b!"peer"] :=
  c97_set exComp usualBreaks usualBreaks_usual exComp_expands b!"wg0" [] (by decide) exLine exLine_proper
example : complete exComp (typed usualBreaks b!"wg0" exLine.args b!"pe") (cursor usualBreaks exLine.args) = .words [b!"persistent-keepalive", b!"peer"] :=
  c97_set exComp usualBreaks usualBreaks_usual exComp_expands b!"wg0" b!"pe" (by decide) exLine exLine_proper
example : (match configReadCmd stdEnv (Line.args ⟨exLine.dev, [(sampleKey, [(b!"allowed-ips", some b!"10.0.0.0/8,fd00::/8")])]⟩) with | .ok _ => true | _ => false) = true := by
  decide +kernel
example : PlainNames [b!"wg0", b!"wg1"] := by unfold PlainNames; decide

/-! ### Findings -/

/-- If the value before the cursor is the word `peer`, it is taken for the option: the keys of the interface are offered. -/
theorem c97_counterexample_value : complete exComp (typed usualBreaks b!"wg0" [b!"peer", rfc4648 sampleKey.toList, b!"preshared-key", b!"peer"] [])
    (cursor usualBreaks [b!"peer", rfc4648 sampleKey.toList, b!"preshared-key", b!"peer"]) = .words [rfc4648 sampleKey.toList] := by decide +kernel

/-- A value that begins with a character bash breaks words at, as `::/0` does, is an even number of words: nothing is offered after it. -/
theorem c97_counterexample_even : complete exComp (typed usualBreaks b!"wg0" [b!"peer", rfc4648 sampleKey.toList, b!"allowed-ips", b!"::/0"] [])
    (cursor usualBreaks [b!"peer", rfc4648 sampleKey.toList, b!"allowed-ips", b!"::/0"]) = .nothing := by decide +kernel

/-- The names of interfaces are given to the shell for expansion: with an interface of this name (the kernel allows it) the command in it is run. -/
theorem c97_counterexample_expansion (env : Completion.Env) (h : env.interfaces = b!"$(reboot)\n") :
    complete env [b!"wg", b!"set", []] 2 = .words (env.expand b!"$(reboot)") := by
  show compgenW env _ _ = _
  rw [compgenW, h]
  rw [show ([b!"wg", b!"set", []].getD 2 [] : CStr) = [] from rfl]
  congr 1
  rw [List.filter_eq_self.2 (by simp)]
  rfl
end WG.Props
