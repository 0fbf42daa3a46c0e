import Verif.Proof.QuickReload
import Verif.Props.QuickSave
import Verif.Props.Showconf
/-!
C59 A configuration saved by `wg-quick save` (or by `down` with SaveConfig) is read back, by the next `wg-quick up`, as what was
saved.
-/
namespace WG
open Spec Spec.Quick Quick

/-- A text that bash does not change when it stands in a replacement: no `&` and no two backslashes in a row. -/
def NoAmp (v : List UInt8) : Prop := c!"&" ∉ v ∧ ¬ Occurs [92, 92] v

/-- The settings that are saved as configured. -/
def keptSettings (o : Opts) : List (List UInt8) := o.table :: (o.preUp ++ o.postUp ++ o.preDown ++ o.postDown)

/-- The output of `wg showconf` is a configuration `wg` itself accepts, begins with the line `[Interface]`, and is not just that
line. -/
def ShownConf (out : List UInt8) : Prop :=
  (0 : UInt8) ∉ out ∧ (∃ rest, captured out = b!"[Interface]\n" ++ rest) ∧ ∃ env ctx ctx', readLines env ctx ((getlines out).map cstr) = .ok ctx'

namespace Quick

theorem words_nonempty {sep : UInt8 → Bool} {s : List UInt8} {ws : List (List UInt8)} (h : Words sep s ws) : ∀ w ∈ ws, w ≠ [] := by
  induction h with
  | nil => simp
  | cons _ hw _ _ _ ih =>
    intro w hm
    rcases List.mem_cons.1 hm with rfl | hm
    · exact hw
    · exact ih w hm

theorem collected_mem {α β : Type} {R : α → β → Prop} {xs : List α} {ys : List β} (h : Collected R xs ys) : ∀ y ∈ ys, ∃ x ∈ xs, R x y := by
  induction h with
  | nil => simp
  | @hit x y xs ys hr _ ih =>
    intro z hz
    rcases List.mem_cons.1 hz with rfl | hz
    · exact ⟨x, by simp, hr⟩
    · obtain ⟨x', h1, h2⟩ := ih z hz
      exact ⟨x', by simp [h1], h2⟩
  | miss _ _ ih =>
    intro z hz
    obtain ⟨x', h1, h2⟩ := ih z hz
    exact ⟨x', by simp [h1], h2⟩

theorem saved_core {c : Cfg} {h : List Ev} {x content : List UInt8} (hx : NewConfig c h x) (ho : parseConf content = some c.opts)
    (hplus : c!"+" ∉ c.iface) (hamp : c.patsub = true → ∀ v ∈ keptSettings c.opts, NoAmp v)
    (haddr : ∀ a as, (.query [b!"ip", b!"-all", b!"-brief", b!"address", b!"show", b!"dev", c.iface], a) ∈ h → BriefAddrs c.iface a.out as →
      ∀ w ∈ as, ∀ b ∈ w, hexAddrByte b = true ∨ b = c!"/")
    (hshow : ∀ s, (.query [b!"wg", b!"showconf", c.iface], s) ∈ h → s.status = 0 → ShownConf s.out) :
    ∃ o' a d m s as ns, parseConf x = some o' ∧
      (.query [b!"ip", b!"-all", b!"-brief", b!"address", b!"show", b!"dev", c.iface], a) ∈ h ∧ BriefAddrs c.iface a.out as ∧ o'.addresses = as ∧
      DnsShown c d h ∧ DnsServers d ns ∧ (∀ n ∈ ns, (n ∈ o'.dns ↔ IsNameserver n) ∧ (n ∈ o'.dnsSearch ↔ ¬ IsNameserver n)) ∧
      o'.dns.Sublist ns ∧ o'.dnsSearch.Sublist ns ∧ (o'.dns ++ o'.dnsSearch).Perm ns ∧
      MtuShown c m h ∧ o'.mtu = m.getD [] ∧
      o'.table = c.opts.table ∧ o'.saveConfig = c.opts.saveConfig ∧
      o'.preUp = c.opts.preUp ∧ o'.postUp = c.opts.postUp ∧ o'.preDown = c.opts.preDown ∧ o'.postDown = c.opts.postDown ∧
      (.query [b!"wg", b!"showconf", c.iface], s) ∈ h ∧ s.status = 0 ∧
      cleanLines ((getlines (stripText o')).map cstr) = cleanLines ((getlines s.out).map cstr) := by
  obtain ⟨a, d, m, s, as, ns, new, y, ha, hb, hd, hn, hm, hs, hst, hnew, hrep, rfl⟩ := hx
  obtain ⟨h0, ⟨rest, hrest⟩, env0, ctx0, ctx1, hacc⟩ := hshow s hs hst
  -- addresses, servers and the MTU are plain
  have hane : ∀ w ∈ as, w ≠ [] := by
    rcases hb hplus with ⟨r, _, hw⟩ | ⟨_, rfl⟩
    · exact words_nonempty hw
    · simp
  have hab : ∀ w ∈ as, ∀ b ∈ w, isSpace b = false ∧ b ≠ c!"#" ∧ b ≠ c!"," ∧ b ≠ 0 ∧ b ≠ c!"&" ∧ b ≠ 92 :=
    fun w hw b hbm => addr_plain b (haddr a as ha hb w hw b hbm)
  have hnb : ∀ w ∈ ns, w ≠ [] ∧ ∀ b ∈ w, isSpace b = false ∧ b ≠ c!"#" ∧ b ≠ c!"," ∧ b ≠ 0 ∧ b ≠ c!"&" ∧ b ≠ 92 := by
    intro w hw
    obtain ⟨lines, _, hc⟩ := hn
    obtain ⟨l, _, _, h1, h2⟩ := collected_mem hc w hw
    exact ⟨h1, fun b hbm => ns_plain b (h2 b hbm)⟩
  have hmb : ∀ v, m = some v → v ≠ [] ∧ ∀ b ∈ v, isSpace b = false ∧ b ≠ c!"#" ∧ b ≠ c!"," ∧ b ≠ 0 ∧ b ≠ c!"&" ∧ b ≠ 92 := by
    rintro v rfl
    rcases hm with ⟨_, hm⟩ | ⟨_, r, _, ⟨d', ⟨p, q, _, h1, h2, _⟩, hm⟩ | ⟨_, hm⟩⟩
    · cases hm
    · cases hm; exact ⟨h1, fun b hbm => digit_plain b (h2 b hbm)⟩
    · cases hm
  have hamp' : ∀ w : List UInt8, (∀ b ∈ w, isSpace b = false ∧ b ≠ c!"#" ∧ b ≠ c!"," ∧ b ≠ 0 ∧ b ≠ c!"&" ∧ b ≠ 92) → NoAmp w := by
    intro w hw
    refine ⟨fun hm => (hw _ hm).2.2.2.2.1 rfl, ?_⟩
    rintro ⟨p, q, rfl⟩
    exact (hw 92 (by simp)).2.2.2.2.2 rfl
  have hnew' : new = ownSection (savedSettings c.opts as ns m) := by
    by_cases hp : c.patsub = true
    · rw [if_pos hp] at hnew
      obtain ⟨h1, h2⟩ := section_plain (sets := savedSettings c.opts as ns m) (by
        intro p hpm
        obtain ⟨k1, k2⟩ := mem_saved hpm
        refine ⟨k1, ?_⟩
        have hk := hamp hp
        rcases k2 with k | k | k | k | k | k | k | k | k
        · exact hamp' _ (hab _ k)
        · exact hamp' _ (hnb _ k).2
        · exact hamp' _ (hmb _ k.symm).2
        · exact hk _ (by simp [keptSettings, k])
        · rw [k]; exact hamp' _ (by decide)
        · exact hk _ (by simp [keptSettings, k])
        · exact hk _ (by simp [keptSettings, k])
        · exact hk _ (by simp [keptSettings, k])
        · exact hk _ (by simp [keptSettings, k]))
      exact ampText_plain hnew h1 h2
    · rwa [if_neg hp] at hnew
  rw [hrest] at hrep
  have hy := replaced_head hrep
  subst hy
  rw [hnew', List.append_assoc]
  -- the shown lines
  have hc0 : (0 : UInt8) ∉ captured s.out ++ [10] := by
    simp only [List.mem_append, List.mem_singleton, not_or]
    refine ⟨?_, by decide⟩
    intro hm
    have := (List.rdropWhile_prefix _ _).subset hm
    rw [List.mem_filter] at this
    exact h0 this.1
  have hbody : cleanLines (bodyLines (captured s.out ++ [10])) = cleanLines ((getlines s.out).map cstr) := by
    rw [cleanLines_body _ hc0, cleanLines_chomp _ h0]
  have hno : NoOwn (bodyLines (b!"[Interface]\n" ++ (rest ++ b!"\n"))) := by
    have e := readLines_cleaned_congr env0 ctx0 _ _ hbody
    rw [hacc, hrest, List.append_assoc] at e
    exact accepted_noOwn e
  have hp := reload (o := c.opts) (as := as) (ns := ns) (m := m) ho (fun w hw => ⟨hane w hw, fun b hbm => ⟨(hab w hw b hbm).1, (hab w hw b hbm).2.1, (hab w hw b hbm).2.2.1, (hab w hw b hbm).2.2.2.1⟩⟩)
    (fun w hw => ⟨(hnb w hw).1, fun b hbm => ⟨((hnb w hw).2 b hbm).1, ((hnb w hw).2 b hbm).2.1, ((hnb w hw).2 b hbm).2.2.1, ((hnb w hw).2 b hbm).2.2.2.1⟩⟩)
    (fun v hv => PlainWord.good ⟨(hmb v hv).1, fun b hbm => ⟨((hmb v hv).2 b hbm).1, ((hmb v hv).2 b hbm).2.1, ((hmb v hv).2 b hbm).2.2.1, ((hmb v hv).2 b hbm).2.2.2.1⟩⟩)
    (rest := rest ++ b!"\n") hno
  refine ⟨_, a, d, m, s, as, ns, hp, ha, hb, rfl, hd, hn, ?_, List.filter_sublist, List.filter_sublist, List.filter_append_perm _ _, hm, rfl, rfl, rfl, rfl, rfl, rfl, rfl, hs, hst, ?_⟩
  · intro n hnm
    simp only [List.mem_filter, hnm, true_and, isNameserver_iff, Bool.not_eq_true', Bool.eq_false_iff, ne_eq, and_self]
  · rw [← hbody, hrest, List.append_assoc]
    exact cleanLines_kept _ fun l hl => bodyLines_bytes _ l hl

end Quick

/-- **C59** The saved file is accepted, and reading it gives: the addresses and the MTU that were found, the DNS servers that were
found, table, SaveConfig and hooks as they were configured; and the text then passed to `wg setconf` means to `wg` exactly what
the output of `wg showconf` means. Hypotheses: the settings came from a configuration file; the addresses shown are numeric; the
kept settings have no `&` and no double backslash if bash is 5.2 or later; `wg showconf` printed a configuration with settings. -/
theorem c59_reads_back {c : Cfg} {h : List Ev} {x content : List UInt8} (hx : NewConfig c h x) (ho : parseConf content = some c.opts)
    (hplus : c!"+" ∉ c.iface) (hamp : c.patsub = true → ∀ v ∈ keptSettings c.opts, NoAmp v)
    (haddr : ∀ a as, (.query [b!"ip", b!"-all", b!"-brief", b!"address", b!"show", b!"dev", c.iface], a) ∈ h → BriefAddrs c.iface a.out as →
      ∀ w ∈ as, ∀ b ∈ w, hexAddrByte b = true ∨ b = c!"/")
    (hshow : ∀ s, (.query [b!"wg", b!"showconf", c.iface], s) ∈ h → s.status = 0 → ShownConf s.out) :
    ∃ o' a d m s as ns, parseConf x = some o' ∧
      (.query [b!"ip", b!"-all", b!"-brief", b!"address", b!"show", b!"dev", c.iface], a) ∈ h ∧ BriefAddrs c.iface a.out as ∧ o'.addresses = as ∧
      DnsShown c d h ∧ DnsServers d ns ∧ (∀ n ∈ ns, (n ∈ o'.dns ↔ IsNameserver n) ∧ (n ∈ o'.dnsSearch ↔ ¬ IsNameserver n)) ∧
      o'.dns.Sublist ns ∧ o'.dnsSearch.Sublist ns ∧ (o'.dns ++ o'.dnsSearch).Perm ns ∧
      MtuShown c m h ∧ o'.mtu = m.getD [] ∧
      o'.table = c.opts.table ∧ o'.saveConfig = c.opts.saveConfig ∧
      o'.preUp = c.opts.preUp ∧ o'.postUp = c.opts.postUp ∧ o'.preDown = c.opts.preDown ∧ o'.postDown = c.opts.postDown ∧
      (.query [b!"wg", b!"showconf", c.iface], s) ∈ h ∧ s.status = 0 ∧
      ∀ env ctx, readLines env ctx ((getlines (stripText o')).map cstr) = readLines env ctx ((getlines s.out).map cstr) := by
  obtain ⟨o', a, d, m, s, as, ns, h1, h2, h3, h4, h5, h6, h7, h8, h9, h10, h11, h12, h13, h14, h15, h16, h17, h18, h19, h20, h21⟩ :=
    saved_core hx ho hplus hamp haddr hshow
  exact ⟨o', a, d, m, s, as, ns, h1, h2, h3, h4, h5, h6, h7, h8, h9, h10, h11, h12, h13, h14, h15, h16, h17, h18, h19, h20,
    fun env ctx => readLines_cleaned_congr env ctx _ _ h21⟩

namespace Quick

/-- Texts of `showconf` are as `save` needs them. -/
theorem confText_shown (env : Env) (hM : 0xffffffff < env.ulongMax) (o : OutEnv) (hR : ReadsBack (ntopAddr o) env.pton4 env.pton6 (portOf env))
    (d : Device) (hE : ∀ p ∈ d.peers, p.endpoint ≠ .unset → EndpointReadsBack o.nameinfo (resolvesAlways env) p.endpoint)
    (hb : ∀ p ∈ d.peers, ∀ a ∈ p.allowedIPs, a.cidr.toNat ≤ addrBits a.addr)
    (hset : d.listenPort ≠ 0 ∨ d.fwmark ≠ 0 ∨ d.flags.hasPrivateKey = true ∨ d.peers ≠ []) : ShownConf (confText o d) := by
  have hclean := confLines_clean hR d hE hb
  refine ⟨?_, ?_, ?_⟩
  · rw [confText_eq]
    intro h0
    simp only [Spec.unlines, List.mem_flatMap, List.mem_append, List.mem_singleton] at h0
    obtain ⟨l, hl, h | h⟩ := h0
    · exact (hclean l hl).2.1 h
    · revert h; decide
  · have h0 : confText o d = b!"[Interface]\n" ++ (confText o d).drop 12 := by
      unfold confText
      simp only [List.append_assoc]
      rfl
    have hf : (confText o d).filter (· ≠ 0) = confText o d := by
      rw [List.filter_eq_self]
      intro c hc
      simp only [decide_eq_true_eq]
      rintro rfl
      rw [confText_eq] at hc
      simp only [Spec.unlines, List.mem_flatMap, List.mem_append, List.mem_singleton] at hc
      obtain ⟨l, hl, h | h⟩ := hc
      · exact (hclean l hl).2.1 h
      · revert h; decide
    have hmem : ∃ c ∈ (confText o d).drop 12, c ≠ 10 := by
      have e : (confText o d).drop 12 = (if d.listenPort ≠ 0 then b!"ListenPort = " ++ showDec d.listenPort.toNat ++ [10] else []) ++
          ((if d.fwmark ≠ 0 then b!"FwMark = 0x" ++ showHex d.fwmark.toNat ++ [10] else []) ++
          ((if d.flags.hasPrivateKey then b!"PrivateKey = " ++ keyToBase64 d.privateKey ++ [10] else []) ++
          ([10] ++ confPeers o d.peers))) := by
        unfold confText
        simp only [List.append_assoc]
        rfl
      rw [e]
      rcases hset with h | h | h | h
      · rw [if_pos h]; exact ⟨c!"L", by simp, by decide⟩
      · rw [if_pos h]; exact ⟨c!"F", by simp, by decide⟩
      · rw [if_pos h]; exact ⟨c!"P", by simp, by decide⟩
      · refine ⟨c!"[", ?_, by decide⟩
        simp only [List.mem_append]
        right; right; right; right
        cases hp : d.peers with
        | nil => exact absurd hp h
        | cons p ps =>
          cases ps with
          | nil => simp [confPeers, confPeer]
          | cons q ps => simp [confPeers, confPeer]
    unfold captured
    rw [hf, h0]
    refine ⟨((confText o d).drop 12).rdropWhile (· = 10), ?_⟩
    rw [List.rdropWhile, List.reverse_append, List.dropWhile_append]
    rw [if_neg]
    · simp [List.rdropWhile]
    · rw [List.isEmpty_iff, List.dropWhile_eq_nil_iff]
      intro hall
      obtain ⟨c, hc, hne⟩ := hmem
      exact hne (by simpa using hall c (List.mem_reverse.2 hc))
  · have := (Props.c38_setconf_reads_showconf { env with file := fun _ => some ⟨confText o d, none, true⟩ } hM o hR d hE hb
      { list := none, get := fun _ => (0, some d) } b!"wg0" rfl [] _ rfl rfl).2
    unfold readConfigFile at this
    change (readLines { env with file := fun _ => some ⟨confText o d, none, true⟩ } (configReadInit false)
      ((getlines (confText o d)).map cstr)).bind _ = _ at this
    cases hr : readLines { env with file := fun _ => some ⟨confText o d, none, true⟩ } (configReadInit false)
      ((getlines (confText o d)).map cstr) with
    | ok ctx => exact ⟨_, _, ctx, hr⟩
    | _ => rw [hr] at this; cases this

end Quick

/-- **C59** Saving and loading again: when `wg-quick save` has succeeded on an interface in the state `s0` (as `wg showconf` shows it), the
file it leaves is accepted, and giving what wg-quick then passes on to `wg setconf` puts any interface into the state `s0` with
one set operation. -/
theorem c59_restores {c : Cfg} {w : World} {content : List UInt8} (old : List UInt8) (hok : (cmdSave c w {}).1 = .ok ()) (ho : parseConf content = some c.opts)
    (hplus : c!"+" ∉ c.iface) (hamp : c.patsub = true → ∀ v ∈ keptSettings c.opts, NoAmp v)
    (haddr : ∀ a as, (.query [b!"ip", b!"-all", b!"-brief", b!"address", b!"show", b!"dev", c.iface], a) ∈ (cmdSave c w {}).2.hist →
      BriefAddrs c.iface a.out as → ∀ w ∈ as, ∀ b ∈ w, hexAddrByte b = true ∨ b = c!"/")
    (env : Env) (hM : 0xffffffff < env.ulongMax) (o : OutEnv) (hR : ReadsBack (ntopAddr o) env.pton4 env.pton6 (portOf env))
    (d : Device) (s0 : Iface) (hrep : Reports d s0)
    (hE : ∀ p ∈ d.peers, p.endpoint ≠ .unset → EndpointReadsBack o.nameinfo (resolvesAlways env) p.endpoint)
    (hb : ∀ p ∈ d.peers, ∀ a ∈ p.allowedIPs, a.cidr.toNat ≤ addrBits a.addr)
    (hset : d.listenPort ≠ 0 ∨ d.fwmark ≠ 0 ∨ d.flags.hasPrivateKey = true ∨ d.peers ≠ [])
    (sipc : ShowIpc) (hget : sipc.get c.iface = (0, some d))
    (hwg : ∀ s, (.query [b!"wg", b!"showconf", c.iface], s) ∈ (cmdSave c w {}).2.hist → s.status = 0 → s.out = (showconfMain o sipc [c.iface]).out) :
    ∃ x o', (diskAfter c.file old (cmdSave c w {}).2.hist).holds = some x ∧ parseConf x = some o' ∧
      ∀ (path : CStr) (f : FileObj), env.file path = some f → f.bytes = stripText o' →
        ∀ (sort : List PubkeyOrigin → List PubkeyOrigin) (ipc : Ipc) (target : CStr),
          ∃ r, (setconfMain env sort ipc [b!"setconf", target, path]).calls = [.set r] ∧ r.name = target.take 15 ∧ ∀ s, applyReq s (requestOf r) = s0 := by
  have hrun : showconfMain o sipc [c.iface] = ⟨.ok 0, confText o d⟩ := by
    simp only [showconfMain, hget]; rfl
  rw [hrun] at hwg
  obtain ⟨x, hx, hold⟩ := c52_saved c w old hok
  obtain ⟨o', a, dn, m, s, as, ns, h1, _, _, _, _, _, _, _, _, _, _, _, _, _, _, _, _, _, hs, hst, hl⟩ :=
    saved_core hx ho hplus hamp haddr fun s hs hst => by rw [hwg s hs hst]; exact confText_shown env hM o hR d hE hb hset
  refine ⟨x, o', hold, h1, fun path f hf hbytes sort ipc target => ?_⟩
  rw [hwg s hs hst] at hl
  dsimp only at hl
  have hread : readConfigFile env false path = .ok (Device.asRequest d) := by
    rw [← fileMeaning_eq]
    refine Props.c14_read_complete env hM false path _ ⟨f, hf, ?_, ?_⟩
    · rw [hbytes]
      obtain ⟨chunks, k1, k2⟩ := confLines_say hR d hE hb
      refine ⟨chunks, ?_, k2⟩
      rw [← k1, ← getlines_eq, ← getlines_eq]
      exact hl
    · intro l hl
      simp only [peerSections, List.filterMap_cons, List.filterMap_map, List.mem_filterMap, Function.comp] at hl
      obtain ⟨p, -, hl⟩ := hl
      cases Option.some.inj hl
      exact ⟨p.publicKey, by simp [peerSettings]⟩
  refine ⟨{ Device.asRequest d with name := target.take 15 }, ?_, rfl, fun s => ?_⟩
  · simp only [setconfMain]
    rw [show decide (b!"setconf" = b!"addconf") = false from by decide, hread]
    simp only [if_neg (show ¬ b!"setconf" = b!"syncconf" by decide), sendDevice_eq, copyName]
  · rw [← asRequest_reproduces d s0 s hrep]; rfl

/-! ### A case -/

/-- A configuration with hooks, and an interface that is up. -/
def exReCfg : Cfg := { exCfg with opts := { wgConfig := b!"[Interface]\n", mtu := b!"1400", table := b!"off", saveConfig := true, postUp := [b!"ping %i", []], preDown := [b!"bye %i"] } }

def exReText : List UInt8 := b!"[Interface]\nMTU = 1400\nTable = off # none\nPostUp = ping %i\nPostUp =\nPreDown = bye %i\nSaveConfig = true"

def exConf : List UInt8 := b!"[Interface]\nListenPort = 5\n\n[Peer]\nPublicKey = AQIDBAUGBwgJCgsMDQ4PEBESExQVFhcYGRobHB0eHyA=\n"

def exReWorld : World := fun h c => if c = .query [b!"wg", b!"showconf", b!"wg0"] then ⟨0, exConf, false⟩ else exUpWorld h c

/-- The hypotheses of `c59_reads_back` are met: the settings are those of a file, and have no `&`; -/
example : parseConf exReText = some exReCfg.opts ∧ (∀ v ∈ keptSettings exReCfg.opts, c!"&" ∉ v ∧ (92 : UInt8) ∉ v) := by
  decide +kernel

/-- `wg showconf` prints a configuration; -/
example : ShownConf exConf := by
  refine ⟨by decide +kernel, ⟨b!"ListenPort = 5\n\n[Peer]\nPublicKey = AQIDBAUGBwgJCgsMDQ4PEBESExQVFhcYGRobHB0eHyA=", by decide +kernel⟩, stdEnv, configReadInit false, ?_⟩
  have : (match readLines stdEnv (configReadInit false) ((getlines exConf).map cstr) with | .ok _ => true | _ => false) = true := by decide +kernel
  split at this
  · exact ⟨_, by assumption⟩
  · cases this

/-- the addresses shown are numeric; -/
example (as : List CStr) (h : BriefAddrs b!"wg0" b!"wg0              UNKNOWN        10.0.0.2/24 fd00::2/64 \n" as) :
    ∀ w ∈ as, ∀ b ∈ w, hexAddrByte b = true ∨ b = c!"/" := by
  have hl : BriefLine b!"wg0" (captured b!"wg0              UNKNOWN        10.0.0.2/24 fd00::2/64 \n") b!"        10.0.0.2/24 fd00::2/64 " :=
    ⟨b!"              ", b!"UNKNOWN", by decide +kernel, by decide, by decide, by decide, by decide, by decide⟩
  rcases h (by decide) with ⟨r, h1, h2⟩ | ⟨h, _⟩
  · rw [briefLine_unique h1 hl] at h2
    have := words_unique h2 (blankWords _)
    subst this
    decide +kernel
  · exact absurd hl (h _)

/-- the save succeeds, and the file is read back as said. -/
example : (cmdSave exReCfg exReWorld {}).1 = .ok () ∧
    ((diskAfter exReCfg.file [] (cmdSave exReCfg exReWorld {}).2.hist).holds.bind parseConf) =
      some { wgConfig := exConf, addresses := [b!"10.0.0.2/24", b!"fd00::2/64"], mtu := b!"1380", dns := [b!"10.0.0.1"], table := b!"off", saveConfig := true,
             postUp := [b!"ping %i", []], preDown := [b!"bye %i"] } := by decide +kernel

/-! ### Why the hypotheses are needed -/

/-- **C59** With bash 5.2 or later, saving a configuration with a hook `a && b` leaves a file in which the hook is cut at the first
`&`, and which has a line of its own for the rest of it; `wg` refuses that line, so the next `wg-quick up` fails. -/
theorem c59_ampersand : let c : Cfg := { exReCfg with patsub := true, opts := { wgConfig := b!"[Interface]\n", postUp := [b!"a && b"], saveConfig := true } }
    parseConf b!"[Interface]\nPostUp = a && b\nSaveConfig = true" = some c.opts ∧
    (cmdSave c exReWorld {}).1 = .ok () ∧
    (∃ o', ((diskAfter c.file [] (cmdSave c exReWorld {}).2.hist).holds.bind parseConf) = some o' ∧ o'.postUp = [b!"a [Interface]"] ∧
      b!"b" ∈ bodyLines o'.wgConfig) ∧
    ∀ env ctx, configReadLine env ctx b!"b" = .fail := by
  refine ⟨by decide +kernel, by decide +kernel, ⟨_, by rfl, by decide +kernel, by decide +kernel⟩, ?_⟩
  intro env ctx
  unfold configReadLine
  dsimp only
  rw [cleanLine_eq, show cleaned b!"b" = b!"b" from by decide]
  obtain ⟨dev, x, y, t, wn⟩ := ctx
  cases x <;> cases y <;> rfl

/-- **C59** If `wg showconf` prints nothing but the line `[Interface]`, all of wg-quick's settings are lost from the file. -/
theorem c59_empty_interface : let c : Cfg := { exReCfg with patsub := false }
    let w : World := fun h q => if q = .query [b!"wg", b!"showconf", b!"wg0"] then ⟨0, b!"[Interface]\n\n", false⟩ else exUpWorld h q
    confText stdOut {} = b!"[Interface]\n\n" ∧ (cmdSave c w {}).1 = .ok () ∧
    (diskAfter c.file [] (cmdSave c w {}).2.hist).holds = some b!"[Interface]\n" := by decide +kernel

/-- **C59** An address with a peer, which `ip` shows as `10.0.0.1 peer 10.0.0.2/32`, is saved as three addresses, one of them the
word `peer`; the next `wg-quick up` gives them to `ip address add`. -/
theorem c59_peer_address : let c : Cfg := { exReCfg with patsub := false }
    let w : World := fun h q => if q = .query [b!"ip", b!"-all", b!"-brief", b!"address", b!"show", b!"dev", b!"wg0"] then
      ⟨0, b!"wg0              UNKNOWN        10.0.0.1 peer 10.0.0.2/32 \n", false⟩ else exReWorld h q
    (cmdSave c w {}).1 = .ok () ∧
    ((diskAfter c.file [] (cmdSave c w {}).2.hist).holds.bind parseConf).map (·.addresses) = some [b!"10.0.0.1", b!"peer", b!"10.0.0.2/32"] := by
  decide +kernel

/-- **C59** Search domains are never saved: the listing of resolvconf has them, but only its `nameserver` lines are looked at. -/
theorem c59_search_lost {out : List UInt8} {ns : List (List UInt8)} (h : DnsServers out ns) {n : List UInt8} (hn : n ∈ ns) :
    ∃ lines, EndedLines out lines ∧ b!"nameserver " ++ n ∈ lines := by
  obtain ⟨lines, h1, h2⟩ := h
  obtain ⟨l, hl, h3, _⟩ := collected_mem h2 n hn
  exact ⟨lines, h1, h3 ▸ hl⟩

end WG
