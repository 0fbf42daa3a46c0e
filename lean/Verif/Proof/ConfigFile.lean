import Verif.Proof.Resolve
import Verif.Spec.ConfigFile
namespace WG
open Spec

theorem cleanLine_eq (env : Env) (l : CStr) : cleanLine env l = cleaned l := by
  simp only [cleanLine, cleaned, charIsSpace_spec]

/-- Process the cleaned, nonblank texts. -/
def readTexts (env : Env) (ctx : Ctx) : List CStr → Res Ctx
  | [] => .ok ctx
  | t :: ts => (processLine env ctx t).bind fun ctx => readTexts env ctx ts

theorem readLines_eq (env : Env) (ctx : Ctx) (lines : List CStr) :
    readLines env ctx lines = readTexts env ctx ((lines.map cleaned).filter (· ≠ [])) := by
  induction lines generalizing ctx with
  | nil => rfl
  | cons l ls ih =>
    simp only [readLines, configReadLine, cleanLine_eq, List.map_cons]
    by_cases h : cleaned l = []
    · simp [h, Res.bind, ih]
    · have h' : ¬ (cleaned l).length = 0 := by simpa using h
      rw [if_neg h', List.filter_cons_of_pos (by simpa using h)]
      simp only [readTexts]
      congr 1
      funext ctx; exact ih ctx

theorem lower_eq_61 : ∀ c : UInt8, lower c = 61 ↔ c = 61 := by apply forall_u8; decide +kernel

theorem getValue_iff (line K v : CStr) :
    getValue line (K ++ [61]) = some v ↔ v ≠ [] ∧ ∃ k, k.map lower = K.map lower ∧ line = k ++ 61 :: v := by
  simp only [getValue, List.length_append, List.length_singleton]
  by_cases h1 : K.length + 1 ≥ line.length
  · rw [if_pos h1]
    simp only [reduceCtorEq, false_iff]
    rintro ⟨hv, k, hk, rfl⟩
    have := congrArg List.length hk
    simp only [List.length_map] at this
    have hv' : 0 < v.length := List.length_pos_of_ne_nil hv
    simp only [List.length_append, List.length_cons] at h1
    omega
  · rw [if_neg h1]
    have e : (K ++ [61]).take (K.length + 1) = K ++ [61] := List.take_of_length_le (by simp)
    simp only [strncaseeq, e]
    by_cases h2 : (line.take (K.length + 1)).map tolowerC = (K ++ [61]).map tolowerC
    · have : ((line.take (K.length + 1)).map tolowerC == (K ++ [61]).map tolowerC) = true := by simpa using h2
      simp only [this, Bool.not_true, Bool.false_eq_true, if_false, Option.some.injEq]
      constructor
      · rintro rfl
        refine ⟨?_, ?_⟩
        · intro h; have := congrArg List.length h; simp at this; omega
        · refine ⟨line.take K.length, ?_, ?_⟩
          · have := congrArg (List.take K.length) h2
            rw [← List.map_take, ← List.map_take, List.take_take, Nat.min_eq_left (Nat.le_succ _), List.take_left'  rfl] at this
            exact this
          · have h3 : line[K.length]? = some 61 := by
              have := congrArg (fun l => l[K.length]?) h2
              simp only [List.getElem?_map, List.getElem?_take, Nat.lt_succ_self, if_true] at this
              rw [List.getElem?_append_right (by omega)] at this
              simp only [Nat.sub_self, List.getElem?_cons_zero, Option.map_some] at this
              cases hx : line[K.length]? with
              | none => rw [hx] at this; simp at this
              | some c =>
                rw [hx] at this
                simp only [Option.map_some, Option.some.injEq] at this
                rw [(lower_eq_61 c).1 ((show lower c = lower 61 from this).trans (by decide))]
            obtain ⟨hlt, hc⟩ := List.getElem?_eq_some_iff.1 h3
            have := List.drop_eq_getElem_cons hlt
            rw [hc] at this
            rw [← this, List.take_append_drop]
      · rintro ⟨hv, k, hk, rfl⟩
        have hl := congrArg List.length hk
        simp only [List.length_map] at hl
        rw [← hl]; simp
    · have : ((line.take (K.length + 1)).map tolowerC == (K ++ [61]).map tolowerC) = false := by simpa using h2
      simp only [this, Bool.not_false, if_true, reduceCtorEq, false_iff]
      rintro ⟨hv, k, hk, rfl⟩
      have hl := congrArg List.length hk
      simp only [List.length_map] at hl
      apply h2
      rw [← hl]
      have : (k ++ 61 :: v).take (k.length + 1) = k ++ [61] := by
        rw [show k ++ 61 :: v = (k ++ [61]) ++ v by simp]
        exact List.take_left' (by simp)
      rw [this]
      simp only [List.map_append]
      rw [show k.map tolowerC = K.map tolowerC from hk]

/-- In terms of the specification. -/
theorem getValue_setting (line K name v : CStr) (hK : K.map lower = name) :
    getValue line (K ++ [61]) = some v ↔ IsSetting line name v := by
  rw [getValue_iff, hK]; exact Iff.rfl

theorem map_lower_mem_61 (k : CStr) (h : 61 ∈ k) : 61 ∈ k.map lower := by
  exact List.mem_map.2 ⟨61, h, by decide⟩

/-- A line is a setting in at most one way. -/
theorem isSetting_unique {line n1 n2 v1 v2 : CStr} (h1 : IsSetting line n1 v1) (h2 : IsSetting line n2 v2)
    (e1 : 61 ∉ n1) (e2 : 61 ∉ n2) : n1 = n2 ∧ v1 = v2 := by
  obtain ⟨-, k1, hk1, rfl⟩ := h1
  obtain ⟨-, k2, hk2, he⟩ := h2
  have m1 : (61 : UInt8) ∉ k1 := fun h => e1 (hk1 ▸ map_lower_mem_61 _ h)
  have m2 : (61 : UInt8) ∉ k2 := fun h => e2 (hk2 ▸ map_lower_mem_61 _ h)
  have t1 := takeWhile_ne_append 61 k1 v1 m1
  have t2 := dropWhile_ne_append 61 k1 v1 m1
  rw [he, takeWhile_ne_append 61 _ _ m2] at t1
  rw [he, dropWhile_ne_append 61 _ _ m2] at t2
  simp only [List.cons.injEq, true_and] at t2
  subst t1
  exact ⟨by rw [← hk1, ← hk2], t2.symm⟩

theorem setting_not_header {line name v h : CStr} (hs : IsSetting line name v) (hh : (61 : UInt8) ∉ h) : ¬ EqNoCase line h := by
  obtain ⟨-, k, -, rfl⟩ := hs
  intro he
  apply hh
  rw [EqNoCase] at he
  rw [← he]; exact map_lower_mem_61 _ (by simp)

/-- The syntax the parsers implement; endpoint resolution may happen at any time. -/
def modelSyntax (env : Env) : ValueSyntax where
  port v p := parsePort env v = some p
  fwmark v m := parseFwmark env v = some m
  key v k := parseKey env v = some k
  endpoint v e := ∃ tick, (parseEndpoint env tick v).1 = .ok e
  allowedIPs v l := ∃ w, parseAllowedips env v = some (l, w)
  keepalive v n := parseKeepalive env v = some n

/-- As `modelSyntax`, for endpoints that resolve the same way whenever asked. -/
def stableSyntax (env : Env) : ValueSyntax :=
  { modelSyntax env with endpoint := fun v e => ∀ tick, (parseEndpoint env tick v).1 = .ok e }

def Inv (append : Bool) (ctx : Ctx) (secs : List Section) : Prop :=
  ctx.device = fileMeaning append secs ∧
  match secs.getLast? with
  | none => ctx.isDeviceSection = false ∧ ctx.isPeerSection = false
  | some (.interface _) => ctx.isDeviceSection = true ∧ ctx.isPeerSection = false
  | some (.peer _) => ctx.isDeviceSection = false ∧ ctx.isPeerSection = true

theorem inv_init (append : Bool) : Inv append (configReadInit append) [] := by
  cases append <;> exact ⟨rfl, rfl, rfl⟩

theorem lastOr_snoc {α : Type} (d x : α) (l : List α) : lastOr d (l ++ [x]) = x := by simp [lastOr]

theorem updLast_snoc (f : Peer → Peer) (l : List Peer) (p : Peer) : updLast f (l ++ [p]) = some (l ++ [f p]) := by
  induction l with
  | nil => rfl
  | cons a l ih =>
    cases l with
    | nil => rfl
    | cons b l => 
      simp only [List.cons_append] at ih ⊢
      simp only [updLast, ih, Option.map_some]

theorem devSettings_append (a b : List Section) : devSettings (a ++ b) = devSettings a ++ devSettings b := by
  simp [devSettings]
theorem peerSections_append (a b : List Section) : peerSections (a ++ b) = peerSections a ++ peerSections b := by
  simp [peerSections]

theorem fileMeaning_newInterface (append : Bool) (secs : List Section) :
    fileMeaning append (secs ++ [.interface []]) = fileMeaning append secs := by
  simp [fileMeaning, devSettings, peerSections]

theorem fileMeaning_newPeer (append : Bool) (secs : List Section) :
    fileMeaning append (secs ++ [.peer []]) =
      { fileMeaning append secs with peers := (fileMeaning append secs).peers ++ [{ flags := { replaceAllowedIPs := true } }] } := by
  simp [fileMeaning, devSettings, peerSections, peerMeaning, lastOr]

theorem devSettings_snoc (secs : List Section) (l : List DevSetting) (d : DevSetting) :
    devSettings (secs ++ [.interface (l ++ [d])]) = devSettings (secs ++ [.interface l]) ++ [d] := by
  simp [devSettings]
theorem peerSections_iface (secs : List Section) (l : List DevSetting) :
    peerSections (secs ++ [.interface l]) = peerSections secs := by
  simp [peerSections]
theorem devSettings_peer (secs : List Section) (l : List PeerSetting) :
    devSettings (secs ++ [.peer l]) = devSettings secs := by simp [devSettings]
theorem peerSections_peer (secs : List Section) (l : List PeerSetting) :
    peerSections (secs ++ [.peer l]) = peerSections secs ++ [l] := by simp [peerSections]

/-- Effect of one more interface setting on the meaning. -/
def applyDev (d : Device) : DevSetting → Device
  | .listenPort p => { d with listenPort := p, flags := { d.flags with hasListenPort := true } }
  | .fwmark m => { d with fwmark := m, flags := { d.flags with hasFwmark := true } }
  | .privateKey k => { d with privateKey := k, flags := { d.flags with hasPrivateKey := true } }

def applyPeer (p : Peer) : PeerSetting → Peer
  | .endpoint e => { p with endpoint := e }
  | .publicKey k => { p with publicKey := k, flags := { p.flags with hasPublicKey := true } }
  | .allowedIPs l => { p with allowedIPs := p.allowedIPs ++ l, flags := { p.flags with replaceAllowedIPs := true } }
  | .keepalive n => { p with keepalive := n, flags := { p.flags with hasKeepalive := true } }
  | .presharedKey k => { p with presharedKey := k, flags := { p.flags with hasPresharedKey := true } }

theorem fileMeaning_dev (append : Bool) (secs : List Section) (l : List DevSetting) (d : DevSetting) :
    fileMeaning append (secs ++ [.interface (l ++ [d])]) = applyDev (fileMeaning append (secs ++ [.interface l])) d := by
  simp only [fileMeaning, devSettings_snoc, peerSections_iface, List.filterMap_append]
  cases d <;> simp [applyDev, DevSetting.port?, DevSetting.mark?, DevSetting.priv?, lastOr_snoc]

theorem peerMeaning_snoc (l : List PeerSetting) (s : PeerSetting) : peerMeaning (l ++ [s]) = applyPeer (peerMeaning l) s := by
  simp only [peerMeaning, List.filterMap_append, List.flatMap_append]
  cases s <;> simp [applyPeer, PeerSetting.endpoint?, PeerSetting.pub?, PeerSetting.psk?, PeerSetting.keepalive?, PeerSetting.ips, lastOr_snoc]

theorem fileMeaning_peer (append : Bool) (secs : List Section) (l : List PeerSetting) (s : PeerSetting) :
    fileMeaning append (secs ++ [.peer (l ++ [s])]) =
      { fileMeaning append (secs ++ [.peer l]) with peers := (peerSections secs).map peerMeaning ++ [applyPeer (peerMeaning l) s] } := by
  simp only [fileMeaning, devSettings_peer, peerSections_peer, List.map_append, List.map_cons, List.map_nil, peerMeaning_snoc]

/-- Effect of an accepted line. -/
inductive Step (V : ValueSyntax) (text : CStr) (secs : List Section) : List Section → Prop
  | interface : EqNoCase text b!"[interface]" → Step V text secs (secs ++ [.interface []])
  | peer : EqNoCase text b!"[peer]" → Step V text secs (secs ++ [.peer []])
  | dev {s l d} : secs = s ++ [.interface l] → DevLine V text d → Step V text secs (s ++ [.interface (l ++ [d])])
  | set {s l d} : secs = s ++ [.peer l] → PeerLine V text d → Step V text secs (s ++ [.peer (l ++ [d])])

theorem hdr1 (line : CStr) : strcaseeq line b!"[Interface]" = true ↔ EqNoCase line b!"[interface]" := by
  rw [strcaseeq_iff]; exact Iff.rfl
theorem hdr2 (line : CStr) : strcaseeq line b!"[Peer]" = true ↔ EqNoCase line b!"[peer]" := by
  rw [strcaseeq_iff]; exact Iff.rfl

theorem gv_listenport (line v) : getValue line b!"ListenPort=" = some v ↔ IsSetting line b!"listenport" v :=
  getValue_setting line b!"ListenPort" _ v (by decide)
theorem gv_fwmark (line v) : getValue line b!"FwMark=" = some v ↔ IsSetting line b!"fwmark" v :=
  getValue_setting line b!"FwMark" _ v (by decide)
theorem gv_privatekey (line v) : getValue line b!"PrivateKey=" = some v ↔ IsSetting line b!"privatekey" v :=
  getValue_setting line b!"PrivateKey" _ v (by decide)
theorem gv_endpoint (line v) : getValue line b!"Endpoint=" = some v ↔ IsSetting line b!"endpoint" v :=
  getValue_setting line b!"Endpoint" _ v (by decide)
theorem gv_publickey (line v) : getValue line b!"PublicKey=" = some v ↔ IsSetting line b!"publickey" v :=
  getValue_setting line b!"PublicKey" _ v (by decide)
theorem gv_allowedips (line v) : getValue line b!"AllowedIPs=" = some v ↔ IsSetting line b!"allowedips" v :=
  getValue_setting line b!"AllowedIPs" _ v (by decide)
theorem gv_keepalive (line v) : getValue line b!"PersistentKeepalive=" = some v ↔ IsSetting line b!"persistentkeepalive" v :=
  getValue_setting line b!"PersistentKeepalive" _ v (by decide)
theorem gv_psk (line v) : getValue line b!"PresharedKey=" = some v ↔ IsSetting line b!"presharedkey" v :=
  getValue_setting line b!"PresharedKey" _ v (by decide)

theorem getLast?_cases (secs : List Section) : secs = [] ∨ ∃ s x, secs = s ++ [x] := by
  rcases List.eq_nil_or_concat secs with h | ⟨s, x, h⟩
  · exact .inl h
  · exact .inr ⟨s, x, by simpa using h⟩

theorem res_bind_ok {α β : Type} {r : Res α} {f : α → Res β} {b : β} : r.bind f = .ok b ↔ ∃ a, r = .ok a ∧ f a = .ok b := by
  cases r <;> simp [Res.bind]
theorem ofOption_ok {α : Type} {o : Option α} {a : α} : Res.ofOption o = .ok a ↔ o = some a := by
  cases o <;> simp [Res.ofOption]

theorem updPeer_ok (append : Bool) (ctx : Ctx) (s : List Section) (l : List PeerSetting) (d : PeerSetting)
    (f : Peer → Peer) (h : Inv append ctx (s ++ [.peer l])) (hf : f (peerMeaning l) = applyPeer (peerMeaning l) d)
    (ctx2 : Ctx) (h2 : ctx2.device = ctx.device ∧ ctx2.isDeviceSection = ctx.isDeviceSection ∧ ctx2.isPeerSection = ctx.isPeerSection) :
    ∃ ctx', ctx2.updPeer f = .ok ctx' ∧ Inv append ctx' (s ++ [.peer (l ++ [d])]) := by
  obtain ⟨h1, h3⟩ := h
  simp only [List.getLast?_append, List.getLast?_singleton, Option.some_or] at h3
  have hp : ctx2.device.peers = (peerSections s).map peerMeaning ++ [peerMeaning l] := by
    rw [h2.1, h1]; simp [fileMeaning, peerSections_peer]
  refine ⟨{ ctx2 with device := { ctx2.device with peers := (peerSections s).map peerMeaning ++ [f (peerMeaning l)] } }, ?_, ?_⟩
  · simp only [Ctx.updPeer, hp, updLast_snoc]
  · refine ⟨?_, ?_⟩
    · rw [fileMeaning_peer, hf]; simp only [h2.1, h1]
    · simp only [List.getLast?_append, List.getLast?_singleton, Option.some_or, h2.2.1, h2.2.2, h3, and_self]

/-- An accepted line extends the sections read so far. -/
theorem processLine_sound (env : Env) (append : Bool) (ctx ctx' : Ctx) (text : CStr) (secs : List Section)
    (hi : Inv append ctx secs) (h : processLine env ctx text = .ok ctx') :
    ∃ secs', Step (modelSyntax env) text secs secs' ∧ Inv append ctx' secs' := by
  unfold processLine at h
  by_cases h1 : strcaseeq text b!"[Interface]" = true
  · rw [if_pos h1] at h
    cases h
    refine ⟨_, .interface ((hdr1 _).1 h1), ?_, ?_⟩
    · rw [fileMeaning_newInterface]; exact hi.1
    · simp
  rw [if_neg h1] at h
  by_cases h2 : strcaseeq text b!"[Peer]" = true
  · rw [if_pos h2] at h
    cases h
    refine ⟨_, .peer ((hdr2 _).1 h2), ?_, ?_⟩
    · rw [fileMeaning_newPeer]; simp only [hi.1]
    · simp
  rw [if_neg h2] at h
  rcases getLast?_cases secs with rfl | ⟨s, x, rfl⟩
  · obtain ⟨-, h3, h4⟩ := hi
    simp [h3, h4] at h
  cases x with
  | interface l =>
    obtain ⟨hd, h3⟩ := hi
    simp only [List.getLast?_append, List.getLast?_singleton, Option.some_or] at h3
    rw [if_pos h3.1] at h
    have fin : ∀ (d : DevSetting) (c : Ctx), c.device = applyDev ctx.device d → c.isDeviceSection = ctx.isDeviceSection →
        c.isPeerSection = ctx.isPeerSection → Inv append c (s ++ [.interface (l ++ [d])]) := by
      intro d c e1 e2 e3
      refine ⟨?_, ?_⟩
      · rw [fileMeaning_dev, e1, hd]
      · simp only [List.getLast?_append, List.getLast?_singleton, Option.some_or, e2, e3, h3, and_self]
    split at h
    · rename_i v hv
      obtain ⟨p, hp, hc⟩ := res_bind_ok.1 h
      cases hc
      exact ⟨_, .dev rfl (.listenPort ((gv_listenport _ _).1 hv) (ofOption_ok.1 hp)), fin _ _ rfl rfl rfl⟩
    split at h
    · rename_i v hv
      obtain ⟨p, hp, hc⟩ := res_bind_ok.1 h
      cases hc
      exact ⟨_, .dev rfl (.fwmark ((gv_fwmark _ _).1 hv) (ofOption_ok.1 hp)), fin _ _ rfl rfl rfl⟩
    split at h
    · rename_i v hv
      obtain ⟨p, hp, hc⟩ := res_bind_ok.1 h
      cases hc
      exact ⟨_, .dev rfl (.privateKey ((gv_privatekey _ _).1 hv) (ofOption_ok.1 hp)), fin _ _ rfl rfl rfl⟩
    · cases h
  | peer l =>
    have hi' := hi
    obtain ⟨hd, h3⟩ := hi'
    simp only [List.getLast?_append, List.getLast?_singleton, Option.some_or] at h3
    rw [if_neg (by simp [h3.1]), if_pos h3.2] at h
    split at h
    · rename_i v hv
      obtain ⟨e, he, hc⟩ := res_bind_ok.1 h
      obtain ⟨c, hc1, hc2⟩ := updPeer_ok append ctx s l (.endpoint e) (fun p => { p with endpoint := e }) hi rfl
        { ctx with tick := (parseEndpoint env ctx.tick v).2.1 } ⟨rfl, rfl, rfl⟩
      rw [hc1] at hc; cases hc
      exact ⟨_, .set rfl (.endpoint ((gv_endpoint _ _).1 hv) ⟨_, he⟩), hc2⟩
    split at h
    · rename_i v hv
      obtain ⟨k, hk, hc⟩ := res_bind_ok.1 h
      obtain ⟨c, hc1, hc2⟩ := updPeer_ok append ctx s l (.publicKey k) (fun p => { p with publicKey := k, flags := { p.flags with hasPublicKey := true } }) hi rfl
        ctx ⟨rfl, rfl, rfl⟩
      rw [hc1] at hc; cases hc
      exact ⟨_, .set rfl (.publicKey ((gv_publickey _ _).1 hv) (ofOption_ok.1 hk)), hc2⟩
    split at h
    · rename_i v hv
      obtain ⟨⟨as, ws⟩, hk, hc⟩ := res_bind_ok.1 h
      obtain ⟨c, hc1, hc2⟩ := updPeer_ok append ctx s l (.allowedIPs as) (fun p => { p with allowedIPs := p.allowedIPs ++ as, flags := { p.flags with replaceAllowedIPs := true } }) hi rfl
        { ctx with warnings := ctx.warnings ++ ws } ⟨rfl, rfl, rfl⟩
      simp only at hc
      rw [hc1] at hc; cases hc
      exact ⟨_, .set rfl (.allowedIPs ((gv_allowedips _ _).1 hv) ⟨_, ofOption_ok.1 hk⟩), hc2⟩
    split at h
    · rename_i v hv
      obtain ⟨k, hk, hc⟩ := res_bind_ok.1 h
      obtain ⟨c, hc1, hc2⟩ := updPeer_ok append ctx s l (.keepalive k) (fun p => { p with keepalive := k, flags := { p.flags with hasKeepalive := true } }) hi rfl
        ctx ⟨rfl, rfl, rfl⟩
      rw [hc1] at hc; cases hc
      exact ⟨_, .set rfl (.keepalive ((gv_keepalive _ _).1 hv) (ofOption_ok.1 hk)), hc2⟩
    split at h
    · rename_i v hv
      obtain ⟨k, hk, hc⟩ := res_bind_ok.1 h
      obtain ⟨c, hc1, hc2⟩ := updPeer_ok append ctx s l (.presharedKey k) (fun p => { p with presharedKey := k, flags := { p.flags with hasPresharedKey := true } }) hi rfl
        ctx ⟨rfl, rfl, rfl⟩
      rw [hc1] at hc; cases hc
      exact ⟨_, .set rfl (.presharedKey ((gv_psk _ _).1 hv) (ofOption_ok.1 hk)), hc2⟩
    · cases h

theorem gv_none {line n v : CStr} {K N : CStr} (hs : IsSetting line n v) (hK : ∀ v, getValue line K = some v ↔ IsSetting line N v)
    (e1 : 61 ∉ n) (e2 : 61 ∉ N) (hne : n ≠ N) : getValue line K = none := by
  cases hg : getValue line K with
  | none => rfl
  | some v' => exact absurd (isSetting_unique hs ((hK v').1 hg) e1 e2).1 hne

/-- A line with a meaning is accepted. -/
theorem processLine_complete (env : Env) (append : Bool) (ctx : Ctx) (text : CStr) (secs secs' : List Section)
    (hi : Inv append ctx secs) (h : Step (stableSyntax env) text secs secs') :
    ∃ ctx', processLine env ctx text = .ok ctx' ∧ Inv append ctx' secs' := by
  have nh : ∀ {n v}, IsSetting text n v → ¬ strcaseeq text b!"[Interface]" = true ∧ ¬ strcaseeq text b!"[Peer]" = true := by
    intro n v hs
    exact ⟨fun h => setting_not_header hs (by decide) ((hdr1 _).1 h), fun h => setting_not_header hs (by decide) ((hdr2 _).1 h)⟩
  unfold processLine
  cases h with
  | interface h1 =>
    rw [if_pos ((hdr1 _).2 h1)]
    refine ⟨_, rfl, ?_, ?_⟩
    · rw [fileMeaning_newInterface]; exact hi.1
    · simp
  | peer h1 =>
    have : ¬ strcaseeq text b!"[Interface]" = true := by
      intro h; rw [hdr1, EqNoCase, h1] at h; exact absurd h (by decide)
    rw [if_neg this, if_pos ((hdr2 _).2 h1)]
    refine ⟨_, rfl, ?_, ?_⟩
    · rw [fileMeaning_newPeer]; simp only [hi.1]
    · simp
  | @dev s l d hs hl =>
    subst hs
    obtain ⟨hd, h3⟩ := hi
    simp only [List.getLast?_append, List.getLast?_singleton, Option.some_or] at h3
    have fin : ∀ (d : DevSetting) (c : Ctx), c.device = applyDev ctx.device d → c.isDeviceSection = ctx.isDeviceSection →
        c.isPeerSection = ctx.isPeerSection → Inv append c (s ++ [.interface (l ++ [d])]) := by
      intro d c e1 e2 e3
      refine ⟨?_, ?_⟩
      · rw [fileMeaning_dev, e1, hd]
      · simp only [List.getLast?_append, List.getLast?_singleton, Option.some_or, e2, e3, h3, and_self]
    cases hl with
    | listenPort hv hp =>
      rw [if_neg (nh hv).1, if_neg (nh hv).2, if_pos h3.1, (gv_listenport _ _).2 hv]
      simp only [stableSyntax, modelSyntax] at hp
      simp only [hp, Res.ofOption, Res.bind]
      exact ⟨_, rfl, fin _ _ rfl rfl rfl⟩
    | fwmark hv hp =>
      rw [if_neg (nh hv).1, if_neg (nh hv).2, if_pos h3.1, gv_none hv (gv_listenport text) (by decide) (by decide) (by decide), (gv_fwmark _ _).2 hv]
      simp only [stableSyntax, modelSyntax] at hp
      simp only [hp, Res.ofOption, Res.bind]
      exact ⟨_, rfl, fin _ _ rfl rfl rfl⟩
    | privateKey hv hp =>
      rw [if_neg (nh hv).1, if_neg (nh hv).2, if_pos h3.1, gv_none hv (gv_listenport text) (by decide) (by decide) (by decide), gv_none hv (gv_fwmark text) (by decide) (by decide) (by decide), (gv_privatekey _ _).2 hv]
      simp only [stableSyntax, modelSyntax] at hp
      simp only [hp, Res.ofOption, Res.bind]
      exact ⟨_, rfl, fin _ _ rfl rfl rfl⟩
  | @set s l d hs hl =>
    subst hs
    have hi' := hi
    obtain ⟨hd, h3⟩ := hi'
    simp only [List.getLast?_append, List.getLast?_singleton, Option.some_or] at h3
    have hdv : ¬ ctx.isDeviceSection = true := by simp [h3.1]
    cases hl with
    | @endpoint v e hv hp =>
      rw [if_neg (nh hv).1, if_neg (nh hv).2, if_neg hdv, if_pos h3.2, (gv_endpoint _ _).2 hv]
      have hp' := hp ctx.tick
      simp only [hp', Res.bind]
      exact updPeer_ok append ctx s l (.endpoint e) (fun p => { p with endpoint := e }) hi rfl
        { ctx with tick := (parseEndpoint env ctx.tick v).2.1 } ⟨rfl, rfl, rfl⟩
    | @publicKey v k hv hp =>
      rw [if_neg (nh hv).1, if_neg (nh hv).2, if_neg hdv, if_pos h3.2, gv_none hv (gv_endpoint text) (by decide) (by decide) (by decide), (gv_publickey _ _).2 hv]
      simp only [stableSyntax, modelSyntax] at hp
      simp only [hp, Res.ofOption, Res.bind]
      exact updPeer_ok append ctx s l (.publicKey k) (fun p => { p with publicKey := k, flags := { p.flags with hasPublicKey := true } }) hi rfl
        ctx ⟨rfl, rfl, rfl⟩
    | @allowedIPs v as hv hp =>
      rw [if_neg (nh hv).1, if_neg (nh hv).2, if_neg hdv, if_pos h3.2, gv_none hv (gv_endpoint text) (by decide) (by decide) (by decide), gv_none hv (gv_publickey text) (by decide) (by decide) (by decide), (gv_allowedips _ _).2 hv]
      obtain ⟨ws, hp⟩ := hp
      simp only [hp, Res.ofOption, Res.bind]
      exact updPeer_ok append ctx s l (.allowedIPs as) (fun p => { p with allowedIPs := p.allowedIPs ++ as, flags := { p.flags with replaceAllowedIPs := true } }) hi rfl
        { ctx with warnings := ctx.warnings ++ ws } ⟨rfl, rfl, rfl⟩
    | @keepalive v k hv hp =>
      rw [if_neg (nh hv).1, if_neg (nh hv).2, if_neg hdv, if_pos h3.2, gv_none hv (gv_endpoint text) (by decide) (by decide) (by decide), gv_none hv (gv_publickey text) (by decide) (by decide) (by decide), gv_none hv (gv_allowedips text) (by decide) (by decide) (by decide), (gv_keepalive _ _).2 hv]
      simp only [stableSyntax, modelSyntax] at hp
      simp only [hp, Res.ofOption, Res.bind]
      exact updPeer_ok append ctx s l (.keepalive k) (fun p => { p with keepalive := k, flags := { p.flags with hasKeepalive := true } }) hi rfl
        ctx ⟨rfl, rfl, rfl⟩
    | @presharedKey v k hv hp =>
      rw [if_neg (nh hv).1, if_neg (nh hv).2, if_neg hdv, if_pos h3.2, gv_none hv (gv_endpoint text) (by decide) (by decide) (by decide), gv_none hv (gv_publickey text) (by decide) (by decide) (by decide), gv_none hv (gv_allowedips text) (by decide) (by decide) (by decide), gv_none hv (gv_keepalive text) (by decide) (by decide) (by decide), (gv_psk _ _).2 hv]
      simp only [stableSyntax, modelSyntax] at hp
      simp only [hp, Res.ofOption, Res.bind]
      exact updPeer_ok append ctx s l (.presharedKey k) (fun p => { p with presharedKey := k, flags := { p.flags with hasPresharedKey := true } }) hi rfl
        ctx ⟨rfl, rfl, rfl⟩

/-! ### Whole files -/

theorem forall2_snoc {α β : Type} {R : α → β → Prop} {l : List α} {a : List β} {b : β}
    (h : List.Forall₂ R l (a ++ [b])) : ∃ l1 x, l = l1 ++ [x] ∧ List.Forall₂ R l1 a ∧ R x b := by
  induction a generalizing l with
  | nil =>
    simp only [List.nil_append] at h
    cases h with
    | cons h1 h2 => cases h2; exact ⟨[], _, rfl, .nil, h1⟩
  | cons y a ih =>
    cases h with
    | cons h1 h2 =>
      obtain ⟨l1, x, rfl, h3, h4⟩ := ih h2
      exact ⟨_ :: l1, x, rfl, .cons h1 h3, h4⟩

theorem forall2_append {α β : Type} {R : α → β → Prop} {l l' : List α} {a a' : List β}
    (h : List.Forall₂ R l a) (h' : List.Forall₂ R l' a') : List.Forall₂ R (l ++ l') (a ++ a') := by
  induction h with
  | nil => exact h'
  | cons h1 _ ih => exact .cons h1 ih

def TextsSay (V : ValueSyntax) (texts : List CStr) (secs : List Section) : Prop :=
  ∃ chunks : List (List CStr), texts = chunks.flatten ∧ List.Forall₂ (SectionSays V) chunks secs

theorem textsSay_step {V : ValueSyntax} {texts : List CStr} {t : CStr} {secs secs' : List Section}
    (h : TextsSay V texts secs) (hs : Step V t secs secs') : TextsSay V (texts ++ [t]) secs' := by
  obtain ⟨chunks, rfl, hc⟩ := h
  cases hs with
  | interface h1 => exact ⟨chunks ++ [[t]], by simp, forall2_append hc (.cons (.interface h1 .nil) .nil)⟩
  | peer h1 => exact ⟨chunks ++ [[t]], by simp, forall2_append hc (.cons (.peer h1 .nil) .nil)⟩
  | @dev s l d he hd =>
    subst he
    obtain ⟨c1, x, rfl, h3, h4⟩ := forall2_snoc hc
    cases h4 with
    | @interface h body _ hh hb =>
      refine ⟨c1 ++ [h :: (body ++ [t])], by simp, forall2_append h3 (.cons (.interface hh ?_) .nil)⟩
      exact forall2_append hb (.cons hd .nil)
  | @set s l d he hd =>
    subst he
    obtain ⟨c1, x, rfl, h3, h4⟩ := forall2_snoc hc
    cases h4 with
    | @peer h body _ hh hb =>
      refine ⟨c1 ++ [h :: (body ++ [t])], by simp, forall2_append h3 (.cons (.peer hh ?_) .nil)⟩
      exact forall2_append hb (.cons hd .nil)

theorem readTexts_sound (env : Env) (append : Bool) (texts : List CStr) : ∀ (pre : List CStr) (ctx ctx' : Ctx) (secs : List Section),
    Inv append ctx secs → TextsSay (modelSyntax env) pre secs → readTexts env ctx texts = .ok ctx' →
    ∃ secs', TextsSay (modelSyntax env) (pre ++ texts) secs' ∧ Inv append ctx' secs' := by
  induction texts with
  | nil =>
    intro pre ctx ctx' secs hi hp h
    cases h
    exact ⟨secs, by simpa using hp, hi⟩
  | cons t ts ih =>
    intro pre ctx ctx' secs hi hp h
    obtain ⟨c1, h1, h2⟩ := res_bind_ok.1 h
    obtain ⟨secs1, hs, hi1⟩ := processLine_sound env append ctx c1 t secs hi h1
    obtain ⟨secs2, h3, h4⟩ := ih (pre ++ [t]) c1 ctx' secs1 hi1 (textsSay_step hp hs) h2
    exact ⟨secs2, by simpa using h3, h4⟩

theorem readTexts_append (env : Env) (ctx : Ctx) (a b : List CStr) :
    readTexts env ctx (a ++ b) = (readTexts env ctx a).bind fun c => readTexts env c b := by
  induction a generalizing ctx with
  | nil => rfl
  | cons t a ih =>
    simp only [List.cons_append, readTexts]
    cases processLine env ctx t <;> simp [Res.bind, ih]

theorem readSection_complete (env : Env) (append : Bool) (chunk : List CStr) (sec : Section) (ctx : Ctx) (secs : List Section)
    (hi : Inv append ctx secs) (h : SectionSays (stableSyntax env) chunk sec) :
    ∃ ctx', readTexts env ctx chunk = .ok ctx' ∧ Inv append ctx' (secs ++ [sec]) := by
  cases h with
  | @interface hd body l h1 hb =>
    obtain ⟨c1, hc1, hi1⟩ := processLine_complete env append ctx hd secs _ hi (.interface h1)
    have : ∀ (body : List CStr) (l pre : List DevSetting) (c : Ctx), List.Forall₂ (DevLine (stableSyntax env)) body l →
        Inv append c (secs ++ [.interface pre]) → ∃ c', readTexts env c body = .ok c' ∧ Inv append c' (secs ++ [.interface (pre ++ l)]) := by
      intro body
      induction body with
      | nil => intro l pre c hb hi; cases hb; exact ⟨c, rfl, by simpa using hi⟩
      | cons t body ih =>
        intro l pre c hb hi
        cases hb with
        | cons ht hb =>
          obtain ⟨c2, hc2, hi2⟩ := processLine_complete env append c t _ _ hi (.dev rfl ht)
          obtain ⟨c3, hc3, hi3⟩ := ih _ _ c2 hb hi2
          exact ⟨c3, by simp [readTexts, hc2, Res.bind, hc3], by simpa using hi3⟩
    obtain ⟨c2, hc2, hi2⟩ := this body l [] c1 hb hi1
    exact ⟨c2, by simp [readTexts, hc1, Res.bind, hc2], by simpa using hi2⟩
  | @peer hd body l h1 hb =>
    obtain ⟨c1, hc1, hi1⟩ := processLine_complete env append ctx hd secs _ hi (.peer h1)
    have : ∀ (body : List CStr) (l pre : List PeerSetting) (c : Ctx), List.Forall₂ (PeerLine (stableSyntax env)) body l →
        Inv append c (secs ++ [.peer pre]) → ∃ c', readTexts env c body = .ok c' ∧ Inv append c' (secs ++ [.peer (pre ++ l)]) := by
      intro body
      induction body with
      | nil => intro l pre c hb hi; cases hb; exact ⟨c, rfl, by simpa using hi⟩
      | cons t body ih =>
        intro l pre c hb hi
        cases hb with
        | cons ht hb =>
          obtain ⟨c2, hc2, hi2⟩ := processLine_complete env append c t _ _ hi (.set rfl ht)
          obtain ⟨c3, hc3, hi3⟩ := ih _ _ c2 hb hi2
          exact ⟨c3, by simp [readTexts, hc2, Res.bind, hc3], by simpa using hi3⟩
    obtain ⟨c2, hc2, hi2⟩ := this body l [] c1 hb hi1
    exact ⟨c2, by simp [readTexts, hc1, Res.bind, hc2], by simpa using hi2⟩

theorem readTexts_complete (env : Env) (append : Bool) (chunks : List (List CStr)) : ∀ (secs pre : List Section) (ctx : Ctx),
    Inv append ctx pre → List.Forall₂ (SectionSays (stableSyntax env)) chunks secs →
    ∃ ctx', readTexts env ctx chunks.flatten = .ok ctx' ∧ Inv append ctx' (pre ++ secs) := by
  induction chunks with
  | nil => intro secs pre ctx hi h; cases h; exact ⟨ctx, rfl, by simpa using hi⟩
  | cons c cs ih =>
    intro secs pre ctx hi h
    cases h with
    | @cons _ sec _ secs h1 h2 =>
      obtain ⟨c1, hc1, hi1⟩ := readSection_complete env append c sec ctx pre hi h1
      obtain ⟨c2, hc2, hi2⟩ := ih secs (pre ++ [sec]) c1 hi1 h2
      refine ⟨c2, ?_, by simpa using hi2⟩
      rw [List.flatten_cons, readTexts_append, hc1]
      exact hc2

end WG
