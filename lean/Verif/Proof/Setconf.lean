import Verif.Proof.ConfigFile
import Verif.Model.Setconf
import Verif.Props.Values
namespace WG
open Spec

/-! ### Documented syntax = what the parsers accept -/

/-- The system's reading of a port text, from `getaddrinfo(NULL, text)`. -/
def portOf (env : Env) (v : CStr) : Option UInt16 :=
  match env.gaiPort v with
  | .found (.in4 _ p) => some p
  | .found (.in6 _ p _ _) => some p
  | _ => none

/-- The resolver gave `e` for this host and port at some time. -/
def resolvesOnce (env : Env) (h p : CStr) (e : Endpoint) : Prop := ∃ n, env.gai n h p = .found e

/-- The resolver gives `e` for this host and port whenever asked, and the retry setting is not invalid. -/
def resolvesAlways (env : Env) (h p : CStr) (e : Endpoint) : Prop :=
  (∀ n, env.gai n h p = .found e) ∧ (∃ r, parseDnsRetries env = .ok r) ∧ 0 < env.patience

/-- What a user may write, if the resolver's answer may change over time. -/
def docNow (env : Env) : ValueSyntax := docSyntax (portOf env) env.pton4 env.pton6 (resolvesOnce env)
/-- What a user may write, with endpoints that always resolve. -/
def docStable (env : Env) : ValueSyntax := docSyntax (portOf env) env.pton4 env.pton6 (resolvesAlways env)

/-- Every value of `V` is a value of `W`. -/
structure ValueSyntax.Le (V W : ValueSyntax) : Prop where
  port : ∀ v p, V.port v p → W.port v p
  fwmark : ∀ v p, V.fwmark v p → W.fwmark v p
  key : ∀ v p, V.key v p → W.key v p
  endpoint : ∀ v p, V.endpoint v p → W.endpoint v p
  allowedIPs : ∀ v p, V.allowedIPs v p → W.allowedIPs v p
  keepalive : ∀ v p, V.keepalive v p → W.keepalive v p

theorem devLine_mono {V W : ValueSyntax} (h : ValueSyntax.Le V W) {l s} (hl : DevLine V l s) : DevLine W l s := by
  cases hl with
  | listenPort a b => exact .listenPort a (h.port _ _ b)
  | fwmark a b => exact .fwmark a (h.fwmark _ _ b)
  | privateKey a b => exact .privateKey a (h.key _ _ b)

theorem peerLine_mono {V W : ValueSyntax} (h : ValueSyntax.Le V W) {l s} (hl : PeerLine V l s) : PeerLine W l s := by
  cases hl with
  | endpoint a b => exact .endpoint a (h.endpoint _ _ b)
  | publicKey a b => exact .publicKey a (h.key _ _ b)
  | allowedIPs a b => exact .allowedIPs a (h.allowedIPs _ _ b)
  | keepalive a b => exact .keepalive a (h.keepalive _ _ b)
  | presharedKey a b => exact .presharedKey a (h.key _ _ b)

theorem fileSays_mono {V W : ValueSyntax} (h : ValueSyntax.Le V W) {l s} (hl : FileSays V l s) : FileSays W l s := by
  obtain ⟨c, hc, hf⟩ := hl
  refine ⟨c, hc, hf.imp ?_⟩
  intro a b hab
  cases hab with
  | interface a b => exact .interface a (b.imp fun _ _ => devLine_mono h)
  | peer a b => exact .peer a (b.imp fun _ _ => peerLine_mono h)

theorem parsePort_iff (env : Env) (v : CStr) (p : UInt16) : parsePort env v = some p ↔ v ≠ [] ∧ portOf env v = some p := by
  simp only [parsePort, portOf]
  by_cases h : v = []
  · simp [h]
  · rw [if_neg (by simpa using h)]; exact ⟨fun x => ⟨h, x⟩, fun x => x.2⟩

theorem parseKey_iff (env : Env) (v : CStr) (k : Key) : parseKey env v = some k ↔ v = rfc4648 k.toList := by
  rw [parseKey, Props.c01_base64_inverse, Props.c02_is_rfc4648]

theorem parseEndpoint_found (env : Env) (tick : Nat) (v : CStr) (e : Endpoint) (h : (parseEndpoint env tick v).1 = .ok e) :
    e ≠ .unset ∧ ∃ hst p, IsEndpointText v hst p ∧ resolvesOnce env hst p e := by
  unfold parseEndpoint at h
  split at h
  · rename_i retries hrt
    split at h
    · cases h
    · rename_i host port hs
      have H := Props.c17_retries env host port (attempts env retries) tick retries
      split at h
      · cases h
      · rename_i r _
        rename_i hne
        rcases hx : resolveLoop env host port (attempts env retries) tick retries 1000000 with ⟨r, k, w⟩
        rw [hx] at H h hne
        simp only at h; subst h
        obtain ⟨-, -, ho, -⟩ := H
        simp only at ho
        refine ⟨?_, host, port, (Props.c18_split _ _ _).1 hs, _, ho.2⟩
        rintro rfl
        exact hne k w rfl
  · cases h
  · cases h

theorem parseEndpoint_always (env : Env) (tick : Nat) (v h p : CStr) (e : Endpoint) (hu : e ≠ .unset)
    (ht : IsEndpointText v h p) (hr : resolvesAlways env h p e) : (parseEndpoint env tick v).1 = .ok e := by
  obtain ⟨hg, ⟨r, hr⟩, hp⟩ := hr
  have hs := (Props.c18_split _ _ _).2 ht
  unfold parseEndpoint
  rw [hr]
  simp only [hs]
  have : ∃ n, attempts env r = n + 1 := by
    cases r with
    | some n => exact ⟨n, rfl⟩
    | none => exact ⟨env.patience - 1, by simp only [attempts]; omega⟩
  obtain ⟨n, hn⟩ := this
  rw [hn]
  simp only [resolveLoop, hg]
  cases e <;> simp_all

theorem model_le_doc (env : Env) (hM : 0xffffffff < env.ulongMax) : ValueSyntax.Le (modelSyntax env) (docNow env) where
  port v p h := (parsePort_iff env v p).1 h
  fwmark v p h := (Props.c06_fwmark env hM v p).1 h
  key v p h := (parseKey_iff env v p).1 h
  endpoint v p h := by obtain ⟨t, h⟩ := h; exact parseEndpoint_found env t v p h
  allowedIPs v p h := (Props.c08_allowedips env (by omega) v p).1 h
  keepalive v p h := (Props.c07_keepalive env (by omega) v p).1 h

theorem doc_le_stable (env : Env) (hM : 0xffffffff < env.ulongMax) : ValueSyntax.Le (docStable env) (stableSyntax env) where
  port v p h := (parsePort_iff env v p).2 h
  fwmark v p h := (Props.c06_fwmark env hM v p).2 h
  key v p h := (parseKey_iff env v p).2 h
  endpoint v p h := by
    obtain ⟨hu, h1, h2, h3, h4⟩ := h
    exact fun t => parseEndpoint_always env t v h1 h2 p hu h3 h4
  allowedIPs v p h := (Props.c08_allowedips env (by omega) v p).2 h
  keepalive v p h := (Props.c07_keepalive env (by omega) v p).2 h

/-! ### Reading never crashes -/

theorem parseDnsRetries_cases (env : Env) : (∃ r, parseDnsRetries env = .ok r) ∨ parseDnsRetries env = .exit1 := by
  unfold parseDnsRetries
  split
  · exact .inl ⟨_, rfl⟩
  · split
    · exact .inl ⟨_, rfl⟩
    · simp only; split
      · exact .inr rfl
      · exact .inl ⟨_, rfl⟩

theorem parseEndpoint_ne_ub (env : Env) (tick : Nat) (v : CStr) : (parseEndpoint env tick v).1 ≠ .ub := by
  unfold parseEndpoint
  rcases parseDnsRetries_cases env with ⟨r, h⟩ | h
  · rw [h]; simp only
    split
    · simp
    · rename_i host port hs
      have H := Props.c17_retries env host port (attempts env r) tick r
      split
      · simp
      · intro hub
        obtain ⟨-, -, ho, -⟩ := H
        rw [hub] at ho; exact ho
  · rw [h]; simp

theorem bind_ne_ub {α β : Type} {r : Res α} {f : α → Res β} (h : r ≠ .ub) (hf : ∀ a, r = .ok a → f a ≠ .ub) : r.bind f ≠ .ub := by
  cases r with
  | ok a => exact hf a rfl
  | ub => exact absurd rfl h
  | _ => simp [Res.bind]

theorem ofOption_ne_ub {α : Type} (o : Option α) : Res.ofOption o ≠ .ub := by cases o <;> simp [Res.ofOption]

theorem updLast_isSome (f : Peer → Peer) (l : List Peer) (h : l ≠ []) : ∃ l', updLast f l = some l' := by
  induction l with
  | nil => exact absurd rfl h
  | cons a t ih =>
    cases t with
    | nil => exact ⟨_, rfl⟩
    | cons b t =>
      obtain ⟨l', h'⟩ := ih (by simp)
      exact ⟨a :: l', by simp [updLast, h']⟩

theorem updPeer_ne_ub (ctx : Ctx) (f : Peer → Peer) (h : ctx.device.peers ≠ []) : ctx.updPeer f ≠ .ub := by
  obtain ⟨l', h'⟩ := updLast_isSome f _ h
  simp [Ctx.updPeer, h']

/-- What keeps the stores through `last_peer` safe. -/
def Safe (ctx : Ctx) : Prop := ctx.isPeerSection = true → ctx.device.peers ≠ []

theorem safe_of_inv {append : Bool} {ctx : Ctx} {secs : List Section} (h : Inv append ctx secs) : Safe ctx := by
  intro hp
  obtain ⟨hd, h⟩ := h
  rcases getLast?_cases secs with rfl | ⟨s, x, rfl⟩
  · simp at h; simp [h] at hp
  · simp only [List.getLast?_append, List.getLast?_singleton, Option.some_or] at h
    cases x with
    | interface l => simp [h] at hp
    | peer l => rw [hd]; simp [fileMeaning, peerSections]

theorem processLine_ne_ub (env : Env) (ctx : Ctx) (line : CStr) (hs : Safe ctx) : processLine env ctx line ≠ .ub := by
  unfold processLine
  split; · simp
  split; · simp
  split
  · repeat' split
    all_goals first
      | (intro h; cases h)
      | exact bind_ne_ub (ofOption_ne_ub _) (fun _ _ => by simp)
  split
  · rename_i hp
    have hp := hs hp
    repeat' split
    all_goals first
      | (intro h; cases h)
      | exact bind_ne_ub (parseEndpoint_ne_ub _ _ _) (fun _ _ => updPeer_ne_ub _ _ hp)
      | exact bind_ne_ub (ofOption_ne_ub _) (fun _ _ => updPeer_ne_ub _ _ hp)
  · simp

theorem readTexts_ne_ub (env : Env) (append : Bool) (texts : List CStr) (ctx : Ctx) (secs : List Section)
    (hi : Inv append ctx secs) : readTexts env ctx texts ≠ .ub := by
  induction texts generalizing ctx secs with
  | nil => simp [readTexts]
  | cons t ts ih =>
    simp only [readTexts]
    refine bind_ne_ub (processLine_ne_ub env ctx t (safe_of_inv hi)) ?_
    intro c hc
    obtain ⟨s', -, hi'⟩ := processLine_sound env append ctx c t secs hi hc
    exact ih c s' hi'

/-! ### Whole files -/

theorem getlines_eq (l : List UInt8) : getlines l = fileLines l := by
  induction l with
  | nil => rfl
  | cons c t ih => simp only [getlines, fileLines, ih]; split <;> rfl

theorem readLines_sound (env : Env) (append : Bool) (lines : List CStr) (ctx : Ctx)
    (h : readLines env (configReadInit append) lines = .ok ctx) :
    ∃ secs, FileSays (modelSyntax env) lines secs ∧ ctx.device = fileMeaning append secs := by
  rw [readLines_eq] at h
  obtain ⟨secs, ⟨c, hc, hf⟩, hi⟩ := readTexts_sound env append _ [] _ _ [] (inv_init append) ⟨[], rfl, .nil⟩ h
  exact ⟨secs, ⟨c, by simpa using hc, hf⟩, hi.1⟩

theorem readLines_complete (env : Env) (append : Bool) (lines : List CStr) (secs : List Section)
    (h : FileSays (stableSyntax env) lines secs) :
    ∃ ctx, readLines env (configReadInit append) lines = .ok ctx ∧ ctx.device = fileMeaning append secs := by
  obtain ⟨c, hc, hf⟩ := h
  obtain ⟨ctx, h1, h2⟩ := readTexts_complete env append c secs [] _ (inv_init append) hf
  exact ⟨ctx, by rw [readLines_eq, hc]; exact h1, by simpa using h2.1⟩

theorem readLines_ne_ub (env : Env) (append : Bool) (lines : List CStr) : readLines env (configReadInit append) lines ≠ .ub := by
  rw [readLines_eq]; exact readTexts_ne_ub env append _ _ [] (inv_init append)

theorem configReadFinish_iff (ctx : Ctx) (d : Device) :
    configReadFinish ctx = some d ↔ d = ctx.device ∧ ∀ p ∈ ctx.device.peers, p.flags.hasPublicKey = true := by
  simp only [configReadFinish]
  split
  · rename_i h; simp only [List.all_eq_true] at h; simp only [Option.some.injEq]
    exact ⟨fun e => ⟨e.symm, h⟩, fun e => e.1.symm⟩
  · rename_i h; simp only [List.all_eq_true] at h; simp [h]

/-- Every peer section of the file gives a public key. -/
theorem fileMeaning_keys (append : Bool) (secs : List Section) :
    (∀ p ∈ (fileMeaning append secs).peers, p.flags.hasPublicKey = true) ↔
    ∀ l ∈ peerSections secs, ∃ k, PeerSetting.publicKey k ∈ l := by
  simp only [fileMeaning, List.mem_map, forall_exists_index, and_imp, forall_apply_eq_imp_iff₂]
  refine forall_congr' fun l => forall_congr' fun _ => ?_
  simp only [peerMeaning, Bool.not_eq_true', List.isEmpty_eq_false_iff, ne_eq, List.filterMap_eq_nil_iff]
  constructor
  · intro h
    simp only [not_forall] at h
    obtain ⟨s, hs, h⟩ := h
    cases s with
    | publicKey k => exact ⟨k, hs⟩
    | _ => simp [PeerSetting.pub?] at h
  · rintro ⟨k, hk⟩ h
    have := h _ hk
    simp [PeerSetting.pub?] at this

theorem readConfigFile_sound (env : Env) (append : Bool) (path : CStr) (d : Device)
    (h : readConfigFile env append path = .ok d) :
    ∃ f secs, env.file path = some f ∧ FileSays (modelSyntax env) ((fileLines f.bytes).map beforeNul) secs ∧
      (∀ l ∈ peerSections secs, ∃ k, PeerSetting.publicKey k ∈ l) ∧ d = fileMeaning append secs := by
  unfold readConfigFile at h
  split at h
  · cases h
  · rename_i f hf
    obtain ⟨ctx, h1, h2⟩ := res_bind_ok.1 h
    obtain ⟨rfl, h3⟩ := (configReadFinish_iff _ _).1 (ofOption_ok.1 h2)
    obtain ⟨secs, h4, h5⟩ := readLines_sound env append _ _ h1
    rw [getlines_eq] at h4
    rw [h5] at h3
    exact ⟨f, secs, hf, h4, (fileMeaning_keys append secs).1 h3, h5⟩

theorem readConfigFile_complete (env : Env) (append : Bool) (path : CStr) (f : FileObj) (secs : List Section)
    (hf : env.file path = some f) (hs : FileSays (stableSyntax env) ((fileLines f.bytes).map beforeNul) secs)
    (hk : ∀ l ∈ peerSections secs, ∃ k, PeerSetting.publicKey k ∈ l) :
    readConfigFile env append path = .ok (fileMeaning append secs) := by
  unfold readConfigFile
  rw [hf]; simp only [getlines_eq]
  obtain ⟨ctx, h1, h2⟩ := readLines_complete env append _ _ hs
  have : readLines env (configReadInit append) (List.map cstr (fileLines f.bytes)) = .ok ctx := h1
  rw [this]
  simp only [Res.bind]
  rw [ofOption_ok, configReadFinish_iff]
  refine ⟨h2.symm, ?_⟩
  rw [h2]; exact (fileMeaning_keys append secs).2 hk

theorem readConfigFile_ne_ub (env : Env) (append : Bool) (path : CStr) : readConfigFile env append path ≠ .ub := by
  unfold readConfigFile
  split
  · simp
  · exact bind_ne_ub (readLines_ne_ub _ _ _) fun _ _ => ofOption_ne_ub _

theorem sendDevice_eq (ipc : Ipc) (d : Device) : sendDevice ipc d = ⟨.ok (if ipc.set d = 0 then 0 else 1), [.set d]⟩ := by
  unfold sendDevice
  by_cases h : ipc.set d = 0 <;> simp [h]

end WG
