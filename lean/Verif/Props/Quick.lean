import Verif.Proof.QuickWg
/-!
C51 wg-quick strips exactly its own keys; C54 its own settings mean what the manual says; C55 interface names.
-/
namespace WG
open Spec Spec.Quick Quick

/-- **C51** The lines of a file and what they say are determined: the specification below is never vacuous or ambiguous. -/
theorem c51_determined (content : List UInt8) :
    ∃ lines kept sets, ScriptLines content lines ∧ Says lines kept sets ∧
      ∀ lines' kept' sets', ScriptLines content lines' → Says lines' kept' sets' → lines' = lines ∧ kept' = kept ∧ sets' = sets := by
  obtain ⟨kept, sets, h⟩ := says_exists (bodyLines content)
  refine ⟨_, kept, sets, (scriptLines_iff _ _).2 rfl, h, ?_⟩
  intro lines' kept' sets' hl h'
  rw [scriptLines_iff] at hl; subst hl
  obtain ⟨rfl, rfl⟩ := says_unique h h'
  exact ⟨rfl, rfl, rfl⟩

/-- **C51** The text that `wg-quick strip` prints and `wg setconf` is given consists of the kept lines in order, each with its
line feed, and one more line feed. -/
theorem c51_strip {content : List UInt8} {lines kept : List CStr} {sets : List (CStr × CStr)} {o : Opts}
    (hp : parseConf content = some o) (hl : ScriptLines content lines) (h : Says lines kept sets) :
    stripText o = kept.flatMap (· ++ [10]) ++ [10] := by
  obtain ⟨h1, h2⟩ := parseConf_says hl h
  by_cases hs : SaveOk sets
  · rw [h1 hs] at hp; cases hp; rfl
  · rw [h2 hs] at hp; cases hp

/-- **C51** No line is dropped that `wg` itself would accept: in every state of its reader and every environment, `wg` refuses
each of the dropped lines. -/
theorem c51_dropped_refused {before : List CStr} {l k v : CStr} (h : OwnLine before l k v) (env : Env) (ctx : Ctx) :
    configReadLine env ctx l = .fail := own_refused env ctx h

/-- **C51** What `wg` reads from the passed-on text is what it reads from the kept lines alone; and for a file without NUL bytes
the trimming of lines makes no difference to it. -/
theorem c51_wg_reads {content : List UInt8} {lines kept : List CStr} {sets : List (CStr × CStr)} {o : Opts}
    (hp : parseConf content = some o) (hl : ScriptLines content lines) (h : Says lines kept sets) (env : Env) (ctx : Ctx) :
    readLines env ctx ((getlines (stripText o)).map cstr) = readLines env ctx kept ∧
    ((0 : UInt8) ∉ content → readLines env ctx lines = readLines env ctx ((getlines content).map cstr)) := by
  rw [c51_strip hp hl h]
  rw [scriptLines_iff] at hl; subst hl
  exact ⟨readLines_kept env ctx kept fun l hk => bodyLines_bytes content l ((says_sublist h).subset hk),
    readLines_body env ctx content⟩

/-- **C51** A file without settings of wg-quick's own (and without NUL bytes) configures the same through `wg-quick strip` as
directly. -/
theorem c51_plain {content : List UInt8} {lines kept : List CStr} {o : Opts} (hp : parseConf content = some o)
    (hl : ScriptLines content lines) (h : Says lines kept []) (h0 : (0 : UInt8) ∉ content) (env : Env) (ctx : Ctx) :
    readLines env ctx ((getlines (stripText o)).map cstr) = readLines env ctx ((getlines content).map cstr) := by
  have hk : kept = lines := by
    clear hp hl h0
    generalize hs : ([] : List (CStr × CStr)) = sets at h
    induction h with
    | nil => rfl
    | own => simp at hs
    | keep _ _ ih => rw [ih hs]
  obtain ⟨h1, h2⟩ := c51_wg_reads hp hl h env ctx
  rw [h1, hk, h2 h0]

/-- **C51**, a case: sections, comments, letter case, blanks, a key of the same name in a peer section, and a last line without
line feed. -/
example : parseConf b!"[interface]\n  ADDRESS = 10.0.0.1/24 # home\n\tPrivateKey = x \nPostUp = echo a=b\n[Peer]\nMTU = 3\nPublicKey=y" =
    some { wgConfig := b!"[interface]\nPrivateKey = x\n[Peer]\nMTU = 3\nPublicKey=y\n", addresses := [b!"10.0.0.1/24"],
           postUp := [b!"echo a=b"] } := by decide +kernel

example : OwnLine [b!"[Interface]"] b!"mtu = 1400 # x" b!"mtu" b!"1400" := by
  refine ⟨⟨[], b!"[Interface]", [b!"mtu = 1400 # x"], rfl, ⟨_, (hasKey_iff _ _).2 rfl, by unfold EqNoCase; decide⟩, ?_⟩, by decide,
    ⟨_, (hasKey_iff _ _).2 rfl, by unfold EqNoCase; decide⟩, (hasValue_iff _ _).2 (by decide)⟩
  intro l hl k hk
  rw [List.mem_singleton] at hl; subst hl
  rw [hasKey_iff] at hk; subst hk; decide

/-- **C51**, why NUL bytes are excluded: `wg` ignores the rest of a line after a NUL byte, wg-quick passes it on. -/
theorem c51_nul : ∃ raw : List UInt8, cleaned (cstr raw) = b!"ListenPort=1" ∧ cleaned (readLine raw) = b!"ListenPort=12" :=
  ⟨b!"ListenPort=1" ++ [0] ++ b!"2", by decide, by decide⟩

/-- **C54** The settings of wg-quick's own: the words of all `Address` and `DNS` lines accumulate in order, `DNS` words are
servers or search domains by their look, hooks accumulate in order, and the last `MTU`, `Table` and `SaveConfig` win. -/
theorem c54_values {content : List UInt8} {lines kept : List CStr} {sets : List (CStr × CStr)} {o : Opts}
    (hp : parseConf content = some o) (hl : ScriptLines content lines) (h : Says lines kept sets) :
    WordsOf b!"address" sets o.addresses ∧
    (∃ ws, WordsOf b!"dns" sets ws ∧ (∀ w, w ∈ ws → (w ∈ o.dns ↔ IsNameserver w) ∧ (w ∈ o.dnsSearch ↔ ¬ IsNameserver w)) ∧
      o.dns.Sublist ws ∧ o.dnsSearch.Sublist ws ∧ (o.dns ++ o.dnsSearch).Perm ws) ∧
    o.mtu = (valuesOf b!"mtu" sets).getLast?.getD [] ∧
    o.table = (valuesOf b!"table" sets).getLast?.getD [] ∧
    o.preUp = valuesOf b!"preup" sets ∧ o.postUp = valuesOf b!"postup" sets ∧
    o.preDown = valuesOf b!"predown" sets ∧ o.postDown = valuesOf b!"postdown" sets ∧
    (o.saveConfig = true ↔ ∃ v, (valuesOf b!"saveconfig" sets).getLast? = some v ∧ EqNoCase v b!"true") := by
  obtain ⟨h1, h2⟩ := parseConf_says hl h
  by_cases hs : SaveOk sets
  swap
  · rw [h2 hs] at hp; cases hp
  rw [h1 hs] at hp
  cases hp
  refine ⟨(wordsOf_iff _ _ _).2 rfl, ⟨_, (wordsOf_iff _ _ _).2 rfl, ?_, List.filter_sublist, List.filter_sublist, ?_⟩,
    rfl, rfl, rfl, rfl, rfl, rfl, ?_⟩
  · intro w hw
    simp only [optsOf, List.mem_filter, hw, true_and, isNameserver_iff, Bool.not_eq_true', Bool.eq_false_iff, ne_eq, and_self]
  · exact List.filter_append_perm _ _
  · simp only [optsOf]
    cases hv : (valuesOf b!"saveconfig" sets).getLast? with
    | none => simp
    | some v => simp [strcaseeq_iff, EqNoCase, lower]

/-- **C54** The file is refused exactly when some `SaveConfig` value is neither true nor false; nothing has been done then. -/
theorem c54_refused {content : List UInt8} {lines kept : List CStr} {sets : List (CStr × CStr)}
    (hl : ScriptLines content lines) (h : Says lines kept sets) :
    parseConf content = none ↔ ∃ v ∈ valuesOf b!"saveconfig" sets, ¬ EqNoCase v b!"true" ∧ ¬ EqNoCase v b!"false" := by
  obtain ⟨h1, h2⟩ := parseConf_says hl h
  by_cases hs : SaveOk sets
  · rw [h1 hs]
    simp only [reduceCtorEq, false_iff, not_exists, not_and]
    intro v hv h3 h4
    rcases hs v hv with e | e
    · exact h3 e
    · exact h4 e
  · rw [h2 hs]
    simp only [true_iff]
    unfold SaveOk at hs
    push Not at hs
    obtain ⟨v, hv, h3, h4⟩ := hs
    exact ⟨v, hv, h3, h4⟩

example : parseConf b!"[Interface]\nAddress=10.0.0.1/8, fd::1/64\nMTU=1\nmtu=2\nDNS=1.1.1.1,example.org ::1\nSaveConfig=TRUE\nAddress=1.2.3.4\n" =
    some { wgConfig := b!"[Interface]\n", addresses := [b!"10.0.0.1/8", b!"fd::1/64", b!"1.2.3.4"], mtu := b!"2",
           dns := [b!"1.1.1.1", b!"::1"], dnsSearch := [b!"example.org"], saveConfig := true } := by decide +kernel

example : parseConf b!"[Interface]\nSaveConfig = yes\n" = none := by decide +kernel

/-- **C55** The interface is what stands before `.conf` in the last component of the path, and must be a valid name. -/
theorem c55_iface (path n : CStr) :
    ifaceOf path = some n ↔ IsIfaceName n ∧ (path = n ++ b!".conf" ∨ ∃ dir, path = dir ++ b!"/" ++ n ++ b!".conf") := by
  rw [ifaceOf_iff]
  unfold ConfName
  simp

/-- **C55** Whatever wg-quick goes on to do is done to an interface with a valid name: one to fifteen bytes (so it fits the
kernel's limit), none of them a blank, slash or shell metacharacter; the name given as the argument, or the one in the path. -/
theorem c55_valid {fs : Fs} {arg : CStr} {p : Parsed} (h : parseOptions fs arg = some p) :
    IsIfaceName p.iface ∧
    (IsIfaceName arg → p.iface = arg ∧ fs.exists_ (b!"/etc/wireguard/" ++ arg ++ b!".conf") = true ∧
      p.configFile = fs.resolve (b!"/etc/wireguard/" ++ arg ++ b!".conf")) ∧
    (¬ IsIfaceName arg → (arg = p.iface ++ b!".conf" ∨ ∃ dir, arg = dir ++ b!"/" ++ p.iface ++ b!".conf") ∧ fs.exists_ arg = true ∧
      p.configFile = fs.resolve arg) := by
  unfold parseOptions at h
  dsimp only at h
  split at h
  swap
  · cases h
  rename_i hex
  split at h
  · cases h
  rename_i n hn
  split at h
  · cases h
  split at h
  · cases h
  simp only [Option.some.injEq] at h
  subst h
  obtain ⟨h1, h2⟩ := (c55_iface _ _).1 hn
  refine ⟨h1, ?_, ?_⟩
  · intro ha
    have e : confPath arg = b!"/etc/wireguard/" ++ arg ++ b!".conf" := by unfold confPath; rw [if_pos ((isName_iff arg).2 ha)]
    rw [e] at hn hex
    refine ⟨?_, hex, by rw [e]⟩
    obtain ⟨h3, h4⟩ := (ifaceOf_iff _ _).1 hn
    exact confName_unique h3 ha h4 (.inr ⟨b!"/etc/wireguard", by simp⟩)
  · intro ha
    have e : confPath arg = arg := by unfold confPath; rw [if_neg (fun h => ha ((isName_iff arg).1 h))]
    rw [e] at h2 hex ⊢
    exact ⟨h2, hex, rfl⟩

/-- **C55** A bare file name of at most fifteen allowed bytes is taken as an interface name even if it ends in `.conf`:
`wg-quick up wg0.conf` reads `/etc/wireguard/wg0.conf.conf`. -/
theorem c55_bare_file : confPath b!"wg0.conf" = b!"/etc/wireguard/wg0.conf.conf" := by decide

example : ifaceOf b!"/tmp/x/wg0.conf" = some b!"wg0" ∧ ifaceOf b!"./a-much-too-long-name.conf" = none ∧ ifaceOf b!"a b.conf" = none := by
  decide +kernel

end WG
