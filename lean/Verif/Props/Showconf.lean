import Verif.Proof.Showconf
import Verif.Props.Uapi
import Verif.Props.Config
/-! C38: `wg showconf` output can be given to `wg setconf`, and then reproduces the interface. -/
namespace WG.Props
open WG.Spec WG

/-- C38: the text `showconf` prints for the device `d` is read by `setconf` as exactly the request that sets everything
`d` reports: its private key, port, mark, and its peers with preshared keys, endpoints, keepalives and allowed IPs. -/
theorem c38_setconf_reads_showconf (env : Env) (hM : 0xffffffff < env.ulongMax) (o : OutEnv) (hR : ReadsBack (ntopAddr o) env.pton4 env.pton6 (portOf env))
    (d : Device) (hE : ∀ p ∈ d.peers, p.endpoint ≠ .unset → EndpointReadsBack o.nameinfo (resolvesAlways env) p.endpoint)
    (hb : ∀ p ∈ d.peers, ∀ a ∈ p.allowedIPs, a.cidr.toNat ≤ addrBits a.addr)
    (sipc : ShowIpc) (name : CStr) (hget : sipc.get name = (0, some d))
    (path : CStr) (f : FileObj) (hf : env.file path = some f) (hout : f.bytes = (showconfMain o sipc [name]).out) :
    (showconfMain o sipc [name]).end_ = .ok 0 ∧ readConfigFile env false path = .ok (Device.asRequest d) := by
  have hrun : showconfMain o sipc [name] = ⟨.ok 0, confText o d⟩ := by
    simp only [showconfMain, hget]; rfl
  rw [hrun] at hout ⊢
  refine ⟨rfl, ?_⟩
  rw [← fileMeaning_eq]
  refine c14_read_complete env hM false path _ ⟨f, hf, ?_, ?_⟩
  · rw [hout]; exact confLines_say hR d hE hb
  · intro l hl
    simp only [peerSections, List.filterMap_cons, List.filterMap_map, List.mem_filterMap, Function.comp] at hl
    obtain ⟨p, -, hl⟩ := hl
    cases Option.some.inj hl
    exact ⟨p.publicKey, by simp [peerSettings]⟩

/-- C38: showing a configured interface, saving the text, and loading it with `wg setconf` into any interface, whatever
that interface held before, makes it equal to the one shown. One set operation does it. -/
theorem c38_reproduces_interface (env : Env) (hM : 0xffffffff < env.ulongMax) (o : OutEnv) (hR : ReadsBack (ntopAddr o) env.pton4 env.pton6 (portOf env))
    (d : Device) (s0 : Iface) (hrep : Reports d s0)
    (hE : ∀ p ∈ d.peers, p.endpoint ≠ .unset → EndpointReadsBack o.nameinfo (resolvesAlways env) p.endpoint)
    (hb : ∀ p ∈ d.peers, ∀ a ∈ p.allowedIPs, a.cidr.toNat ≤ addrBits a.addr)
    (sipc : ShowIpc) (name : CStr) (hget : sipc.get name = (0, some d))
    (path : CStr) (f : FileObj) (hf : env.file path = some f) (hout : f.bytes = (showconfMain o sipc [name]).out)
    (sort : List PubkeyOrigin → List PubkeyOrigin) (ipc : Ipc) (target : CStr) :
    ∃ r, (setconfMain env sort ipc [b!"setconf", target, path]).calls = [.set r] ∧ r.name = target.take 15 ∧ ∀ s, applyReq s (requestOf r) = s0 := by
  have h := (c38_setconf_reads_showconf env hM o hR d hE hb sipc name hget path f hf hout).2
  refine ⟨{ Device.asRequest d with name := target.take 15 }, ?_, rfl, fun s => ?_⟩
  · simp only [setconfMain]
    rw [show decide (b!"setconf" = b!"addconf") = false from by decide, h]
    simp only [if_neg (show ¬ b!"setconf" = b!"syncconf" by decide), sendDevice_eq, copyName]
  · rw [← asRequest_reproduces d s0 s hrep]; rfl

/-- C38: if the address of an endpoint cannot be printed, `showconf` succeeds with a text that leaves the endpoint out, so
the hypothesis on endpoints is needed. -/
theorem c38_nameinfo_counterexample (o : OutEnv) (p : Peer) (h : o.nameinfo p.endpoint = none) :
    confText o { peers := [p] } = confText o { peers := [{ p with endpoint := .unset }] } := by
  have : confEndpoint o p.endpoint = confEndpoint o .unset := by
    cases he : p.endpoint with
    | unset => rfl
    | _ => rw [he] at h; simp [confEndpoint, h]
  simp only [confText, confPeers, confPeer, this]

/-- glibc's printing and reading satisfy the hypotheses. -/
theorem std_readsBack (env : Env) (h4 : env.pton4 = pton4) (h6 : env.pton6 = pton6) (hp : env.gaiPort = stdEnv.gaiPort) :
    ReadsBack (ntopAddr stdOut) env.pton4 env.pton6 (portOf env) where
  addr a := by
    have bare : ∀ c ∈ addrChars, isSpace c = false ∧ c ≠ c!"#" ∧ c ≠ 0 := by decide
    cases a with
    | v4 a =>
      have hc := ntop4_chars a
      refine ⟨fun c h => ?_, fun h => absurd (hc _ h) (by decide), fun h => absurd (hc _ h) (by decide), .inr ⟨ntop4_no_colon a, a, ?_, rfl⟩⟩
      · exact (by decide : ∀ c ∈ b!"0123456789.", isSpace c = false ∧ c ≠ c!"#" ∧ c ≠ 0) c (hc c h)
      · rw [h4]; exact pton4_ntop4 a
    | v6 a =>
      have hc := ntop6_chars a
      refine ⟨fun c h => bare c (hc c h), not_mem_addr hc _ (by decide), not_mem_addr hc _ (by decide), .inl ⟨ntop6_colon a, a, ?_, rfl⟩⟩
      rw [h6]; exact pton6_ntop6 a
  port p := by
    rw [← showDec_eq]
    simp [portOf, hp, stdEnv, portNum_showDec]

theorem std_endpoint4 (env : Env) (hg : env.gai = stdEnv.gai) (hr : env.retriesVar = none) (hp : 0 < env.patience) (a : IP4) (p : UInt16) :
    EndpointReadsBack stdOut.nameinfo (resolvesAlways env) (.in4 a p) := by
  have hd := showDec_isDecimal p.toNat
  have hc := ntop4_chars a
  refine ⟨ntop4 a, showDec p.toNat, rfl, fun c h => ?_, bare_digits hd.2.1, hd.1, not_mem_decimal hd _ (by decide), fun h => absurd (hc _ h) (by decide), ?_,
    fun _ => ntop4_no_colon a, fun n => ?_, ⟨some 15, by simp [parseDnsRetries, hr]⟩, hp⟩
  · exact (by decide : ∀ c ∈ b!"0123456789.", isSpace c = false ∧ c ≠ c!"#" ∧ c ≠ 0) c (hc c h)
  · cases hn : ntop4 a with
    | nil => simp
    | cons c t =>
      simp only [List.head?_cons, ne_eq, Option.some.injEq]
      rintro rfl
      exact absurd (hc c!"[" (by rw [hn]; simp)) (by decide)
  · rw [hg]; simp [stdEnv, portNum_showDec, pton4_ntop4]

theorem std_endpoint6 (env : Env) (hg : env.gai = stdEnv.gai) (hr : env.retriesVar = none) (hp : 0 < env.patience) (a : IP6) (p : UInt16) :
    EndpointReadsBack stdOut.nameinfo (resolvesAlways env) (.in6 a p 0 0) := by
  have hd := showDec_isDecimal p.toNat
  have hc := ntop6_chars a
  have h4 : pton4 (ntop6 a) = none := by simp [pton4, pton4_no_colon _ (ntop6_colon a)]
  refine ⟨ntop6 a, showDec p.toNat, by simp [stdOut], fun c h => ?_, bare_digits hd.2.1, hd.1, not_mem_decimal hd _ (by decide), not_mem_addr hc _ (by decide), ?_,
    fun h => by simp at h, fun n => ?_, ⟨some 15, by simp [parseDnsRetries, hr]⟩, hp⟩
  · exact (by decide : ∀ c ∈ addrChars, isSpace c = false ∧ c ≠ c!"#" ∧ c ≠ 0) c (hc c h)
  · cases hn : ntop6 a with
    | nil => simp
    | cons c t =>
      simp only [List.head?_cons, ne_eq, Option.some.injEq]
      rintro rfl
      exact absurd (hc c!"[" (by rw [hn]; simp)) (by decide)
  · rw [hg]; simp [stdEnv, portNum_showDec, pton6_ntop6, h4]

/-- C38 with glibc's own printing and reading: no assumption is left beyond that endpoints carry no flow label or scope. -/
theorem c38_standard (d : Device) (s0 : Iface) (hrep : Reports d s0)
    (hE : ∀ p ∈ d.peers, p.endpoint = .unset ∨ (∃ a q, p.endpoint = .in4 a q) ∨ (∃ a q, p.endpoint = .in6 a q 0 0))
    (hb : ∀ p ∈ d.peers, ∀ a ∈ p.allowedIPs, a.cidr.toNat ≤ addrBits a.addr)
    (sipc : ShowIpc) (name : CStr) (hget : sipc.get name = (0, some d))
    (sort : List PubkeyOrigin → List PubkeyOrigin) (ipc : Ipc) (target path : CStr) :
    ∃ r, (setconfMain (fileEnv ⟨(showconfMain stdOut sipc [name]).out, none, true⟩) sort ipc [b!"setconf", target, path]).calls = [.set r] ∧
      r.name = target.take 15 ∧ ∀ s, applyReq s (requestOf r) = s0 := by
  refine c38_reproduces_interface (fileEnv _) (show 0xffffffff < 2 ^ 64 - 1 by decide) stdOut (std_readsBack _ rfl rfl rfl) d s0 hrep ?_ hb sipc name hget path _ rfl rfl sort ipc target
  intro p hp hu
  rcases hE p hp with h | ⟨a, q, h⟩ | ⟨a, q, h⟩
  · exact absurd h hu
  · rw [h]; exact std_endpoint4 _ rfl rfl (by decide) a q
  · rw [h]; exact std_endpoint6 _ rfl rfl (by decide) a q

/-- An interface with one peer that has everything. -/
def confSample : Device where
  flags := { hasPrivateKey := true, hasPublicKey := true }
  privateKey := sampleKey
  listenPort := 51820
  fwmark := 0xca6c
  peers := [{ publicKey := sampleKey, presharedKey := sampleKey, endpoint := .in6 (Vector.replicate 16 0xfe) 7 0 0, keepalive := 25, rx := 9, handshakeSec := 1
              flags := { hasPublicKey := true, hasPresharedKey := true }
              allowedIPs := [⟨.v4 #v[10, 0, 0, 1], 32⟩, ⟨.v6 (Vector.replicate 16 0), 0⟩] }]

def confSampleState : Iface where
  privateKey := sampleKey
  listenPort := 51820
  fwmark := 0xca6c
  peers k := if k = sampleKey then some { psk := sampleKey, endpoint := .in6 (Vector.replicate 16 0xfe) 7 0 0, keepalive := 25 } else none
  owner n := if n = ⟨.v4 #v[10, 0, 0, 1], 32⟩ ∨ n = ⟨.v6 (Vector.replicate 16 0), 0⟩ then some sampleKey else none

-- the hypotheses of C38 are met
example : Reports confSample confSampleState where
  port := rfl
  mark := rfl
  priv := rfl
  keys := by simp [confSample]
  peer p hp := by
    simp only [confSample, List.mem_singleton] at hp; subst hp; simp [confSampleState]
  none k hk := by
    simp only [confSample, List.map_cons, List.map_nil, List.mem_singleton] at hk
    simp [confSampleState, hk]
  owner n k := by
    simp only [confSample, confSampleState, exists_eq_left, List.mem_cons, List.not_mem_nil, or_false]
    constructor
    · intro h; split at h
      · exact ⟨Option.some.inj h, by assumption⟩
      · cases h
    · rintro ⟨rfl, h⟩; rw [if_pos h]
  net p hp := by
    simp only [confSample, List.mem_singleton] at hp; subst hp
    decide +kernel

example : confText stdOut confSample = b!"[Interface]\nListenPort = 51820\nFwMark = 0xca6c\nPrivateKey = AQIDBAUGBwgJCgsMDQ4PEBESExQVFhcYGRobHB0eHyA=\n\n[Peer]\nPublicKey = AQIDBAUGBwgJCgsMDQ4PEBESExQVFhcYGRobHB0eHyA=\nPresharedKey = AQIDBAUGBwgJCgsMDQ4PEBESExQVFhcYGRobHB0eHyA=\nAllowedIPs = 10.0.0.1/32, ::/0\nEndpoint = [fefe:fefe:fefe:fefe:fefe:fefe:fefe:fefe]:7\nPersistentKeepalive = 25\n" := by
  decide +kernel

end WG.Props
