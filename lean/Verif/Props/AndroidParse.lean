import Verif.Proof.AndroidParse
import Verif.Props.QuickMain
/-!
C84: what wg-quick for Android takes from its argument and the configuration file.
-/
namespace WG.Props
open WG.Android WG.Spec WG.Spec.Android
open WG.Spec.Quick (valuesOf IsIfaceName)

section
variable {files : Files} {arg : CStr}

/-- A configuration is read if there is a file for the argument with a usable name; otherwise the program ends, before anything is
done. -/
theorem c84_accepted (c : Conf) (h : parseOptions files arg = .conf c) : ∃ path content, FileOf (Opens files) arg path content ∧ NameFrom path c.iface := by
  obtain ⟨path, content, iface, h1, h2, rfl⟩ := (parseOptions_iff _ _ _).1 h
  refine ⟨path, content, h1, ?_⟩
  suffices ∀ (ls : List CStr) (sec : Bool) (c : Conf), (parseLoop sec c ls).iface = c.iface by rw [this]; exact h2
  intro ls
  induction ls with
  | nil => intro sec c; rfl
  | cons l ls ih =>
    intro sec c
    unfold parseLoop
    split
    · rfl
    · dsimp only
      rw [ih]
      unfold parseLine ownSetting
      dsimp only
      repeat' split
      all_goals first | rfl | (rename_i h; revert h; repeat' split) <;> intro h <;> cases h <;> rfl

theorem c84_refused : (∃ status, parseOptions files arg = .refused status) ↔ ¬ ∃ path content n, FileOf (Opens files) arg path content ∧ NameFrom path n := by
  constructor
  · rintro ⟨st, h⟩ ⟨path, content, n, h1, h2⟩
    have := (parseOptions_iff files arg _).2 ⟨path, content, n, h1, h2, rfl⟩
    rw [h] at this; cases this
  · intro h
    cases hp : parseOptions files arg with
    | refused s => exact ⟨s, rfl⟩
    | conf c =>
      obtain ⟨path, content, h1, h2⟩ := c84_accepted c hp
      exact absurd ⟨path, content, _, h1, h2⟩ h

/-- If the last component of the path is an interface name and `.conf`, that is the name taken. -/
theorem c84_name (path n m : CStr) (hn : NamedIn path n) (hm : NameFrom path m) : m = n := by
  have : NameFrom path n := by
    obtain ⟨h1, h2⟩ := hn
    rcases h2 with rfl | ⟨dir, rfl⟩
    · exact ⟨[], rfl, h1, .inr (by simp)⟩
    · refine ⟨dir ++ b!"/", rfl, h1, .inr ?_⟩
      intro c hc
      simp only [List.getLast?_append, List.getLast?_singleton, Option.some_or, Option.some.injEq] at hc
      subst hc
      rw [← nameByte_iff]; decide
  rw [← ifaceOf_iff] at hm this
  rw [hm] at this
  exact Option.some.inj this

/-- An argument that is an interface name is that interface. -/
theorem c84_iface (c : Conf) (ha : IsIfaceName arg) (h : parseOptions files arg = .conf c) : c.iface = arg := by
  obtain ⟨path, content, h1, h2⟩ := c84_accepted c h
  obtain ⟨_, dir, _, _, rfl, _⟩ := h1.2.1 ha
  exact c84_name _ _ _ ⟨ha, .inr ⟨dir, rfl⟩⟩ h2

/-- Without lines of more than 65536 bytes: `wg` is told exactly the lines that are no settings of wg-quick, unchanged and in order; the
values of the settings are taken over in order; of MTU the last, if it is a number (0: none). -/
theorem c84_settings (c : Conf) (h : parseOptions files arg = .conf c) (path content : CStr) (hf : FileOf (Opens files) arg path content)
    (hlen : ∀ l ∈ fileLines content, (beforeNul l).length ≤ 65536) (kept : List CStr) (sets : List (CStr × CStr)) (hs : Says ((fileLines content).map beforeNul) kept sets) :
    c.config = some kept.flatten ∧ c.addrs = some ((listOf b!"address" sets).getD []) ∧ c.dnses = some ((listOf b!"dns" sets).getD []) ∧
    c.excluded = listOf b!"excludedapplications" sets ∧ c.included = listOf b!"includedapplications" sets ∧
    (valuesOf b!"mtu" sets = [] → c.mtu = 0) ∧ (∀ v n, (valuesOf b!"mtu" sets).getLast? = some v → IsDecimal v n → n < 2 ^ 31 → c.mtu = n) := by
  obtain ⟨path', content', iface, h1, h2, rfl⟩ := (parseOptions_iff _ _ _).1 h
  have e := ((openConf_iff _ _ _ _).2 h1).symm.trans ((openConf_iff _ _ _ _).2 hf)
  cases e
  rw [parseLoop_eq _ (by simpa using hlen)]
  obtain ⟨sec, _, hst⟩ := parseState_says (iface := iface) hs
  unfold parseState at hst
  rw [hst]
  obtain ⟨i0, i1, i2, i3, i4, i5⟩ := applied iface sets (says_keys hs)
  unfold orEmpty
  dsimp only
  refine ⟨?_, by rw [i1], by rw [i2], i3, i4, ?_, ?_⟩
  · unfold keptText
    split
    · next hk => rw [hk]; rfl
    · rfl
  · intro hn; rw [i5, hn]; rfl
  · intro v n hv hd hn
    rw [i5, hv]
    exact atoi_decimal hd hn

end

/-! ### Examples -/

def exAndroidFile : List UInt8 :=
  b!"[Interface]\nAddress = 10.7.0.2/24, fd00::2/64\nPrivateKey = x\nDNS = 10.7.0.1\nExcluded Applications = com.example.a, com.example.b\ndns = corp.example\nMTU = 1380\n[Peer]\nPublicKey = y\nDNS = 1\n"
def exAndroidFiles (path : CStr) (content : List UInt8) : Files := fun p => if p = path then .ok content else .error 2
def exAndroidConf : Conf :=
  { iface := b!"wg0", config := some b!"[Interface]\nPrivateKey = x\n[Peer]\nPublicKey = y\nDNS = 1\n", mtu := 1380, addrs := some b!"10.7.0.2/24,fd00::2/64",
    dnses := some b!"10.7.0.1,corp.example", excluded := some b!"com.example.a,com.example.b" }

/-- The hypotheses are met. -/
example : parseOptions (exAndroidFiles b!"/data/misc/wireguard/wg0.conf" exAndroidFile) b!"wg0" = .conf exAndroidConf ∧
    FileOf (Opens (exAndroidFiles b!"/data/misc/wireguard/wg0.conf" exAndroidFile)) b!"wg0" b!"/data/misc/wireguard/wg0.conf" exAndroidFile ∧
    (∀ l ∈ fileLines exAndroidFile, (beforeNul l).length ≤ 65536) ∧ (∃ kept sets, Says ((fileLines exAndroidFile).map beforeNul) kept sets) ∧
    parseOptions (exAndroidFiles b!"/data/misc/wireguard/wg0.conf" exAndroidFile) b!"wg1" = .refused 2 ∧
    parseOptions (exAndroidFiles b!"/sdcard/wg0.txt" exAndroidFile) b!"/sdcard/wg0.txt" = .refused 22 :=
  ⟨by decide +kernel, (openConf_iff _ _ _ _).1 (by rfl), by decide +kernel, says_exists _, by decide +kernel, by decide +kernel⟩

/-! ### What does not hold -/

/-- A file whose name is too long for an interface is not refused: the last fifteen bytes are the interface. -/
theorem c84_counterexample_long_name : ∃ (files : Files) (arg : CStr) (c : Conf), parseOptions files arg = .conf c ∧ (∀ n, ¬ NamedIn arg n) ∧ c.iface = b!"erylonginterfac" := by
  refine ⟨exAndroidFiles b!"/sdcard/averyverylonginterfac.conf" exAndroidFile, b!"/sdcard/averyverylonginterfac.conf", { exAndroidConf with iface := b!"erylonginterfac" }, by decide +kernel, ?_, rfl⟩
  intro n hn
  have := (c55_iface _ _).2 hn
  revert this
  rw [show WG.Quick.ifaceOf b!"/sdcard/averyverylonginterfac.conf" = none from by decide +kernel]
  exact fun h => by cases h

/-- After a line of more than 65536 bytes the rest of the file is ignored without a message, and variables are left NULL (which `up`
then passes to `strdup`). -/
theorem c84_counterexample_long_line : ∃ (files : Files) (c : Conf), parseOptions files b!"wg0" = .conf c ∧ c.config = some b!"[Interface]\nPrivateKey = x\n" ∧ c.addrs = none := by
  have hl : ∀ n, fileLines (List.replicate n c!"#" ++ b!"\nAddress = 10.7.0.2\n[Peer]\n") = [List.replicate n c!"#" ++ b!"\n", b!"Address = 10.7.0.2\n", b!"[Peer]\n"] := by
    intro n
    induction n with
    | zero => decide +kernel
    | succ n ih => rw [List.replicate_succ, List.cons_append]; unfold fileLines; rw [if_neg (by decide), ih]; rfl
  have hb : ∀ n, beforeNul (List.replicate n c!"#" ++ b!"\n") = List.replicate n c!"#" ++ b!"\n" := by
    intro n
    unfold beforeNul
    rw [takeWhile_all]
    intro a ha
    rcases List.mem_append.1 ha with ha | ha
    · rw [(List.mem_replicate.1 ha).2]; decide
    · rw [List.mem_singleton.1 ha]; decide
  have hf : fileLines (b!"[Interface]\nPrivateKey = x\n" ++ (List.replicate 65536 c!"#" ++ b!"\nAddress = 10.7.0.2\n[Peer]\n")) =
      b!"[Interface]\n" :: b!"PrivateKey = x\n" :: fileLines (List.replicate 65536 c!"#" ++ b!"\nAddress = 10.7.0.2\n[Peer]\n") := by
    generalize List.replicate 65536 c!"#" ++ b!"\nAddress = 10.7.0.2\n[Peer]\n" = t
    simp [fileLines]
  refine ⟨exAndroidFiles b!"/data/misc/wireguard/wg0.conf" (b!"[Interface]\nPrivateKey = x\n" ++ (List.replicate 65536 c!"#" ++ b!"\nAddress = 10.7.0.2\n[Peer]\n")),
    { iface := b!"wg0", config := some b!"[Interface]\nPrivateKey = x\n" }, ?_, rfl, rfl⟩
  refine (parseOptions_iff _ _ _).2 ⟨_, _, b!"wg0", (openConf_iff _ _ b!"/data/misc/wireguard/wg0.conf" _).1 rfl, (ifaceOf_iff _ _).1 (by decide +kernel), ?_⟩
  rw [hf, hl]
  simp only [List.map_cons, hb]
  generalize hL : List.replicate 65536 c!"#" ++ b!"\n" = L
  have hlen : L.length > 65536 := by rw [← hL, List.length_append, List.length_replicate]; decide
  rw [parseLoop, if_neg (by decide), parseLoop, if_neg (by decide), parseLoop, if_pos hlen]
  decide +kernel

/-- Unlike elsewhere, what follows a `#` belongs to the value, and a section header with a comment is not the section: its settings go
to `wg`. -/
theorem c84_counterexample_comment : ∃ files1 files2 c1 c2, parseOptions files1 b!"wg0" = .conf c1 ∧ c1.addrs = some b!"10.7.0.2#home" ∧
    parseOptions files2 b!"wg0" = .conf c2 ∧ c2.addrs = some [] ∧ c2.config = some b!"[Interface] # home\nAddress = 10.7.0.2\n" := by
  refine ⟨exAndroidFiles b!"/data/misc/wireguard/wg0.conf" b!"[Interface]\nAddress = 10.7.0.2 # home\n",
    exAndroidFiles b!"/data/misc/wireguard/wg0.conf" b!"[Interface] # home\nAddress = 10.7.0.2\n",
    { iface := b!"wg0", config := some b!"[Interface]\n", addrs := some b!"10.7.0.2#home", dnses := some [] },
    { iface := b!"wg0", config := some b!"[Interface] # home\nAddress = 10.7.0.2\n", addrs := some [], dnses := some [] }, ?_⟩
  decide +kernel

end WG.Props
