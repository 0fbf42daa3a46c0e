import Verif.Proof.UapiReply
import Verif.Proof.Inet
import Verif.Props.Encoding
/-! C23-C27: the userspace protocol. -/
namespace WG.Props
open WG WG.Spec

/-! ### C23 -/

/-- C23. Any server that reads canonical key, number, address and endpoint texts correctly reads the request text as exactly
the configuration's request (a removal carries nothing but the key): same settings, peers, flags and allowed IPs, in the same
order, and nothing after it. -/
theorem c23_set_text_means_request (R : Readers) (o : OutEnv) (H : ServerReads R o.ntop4 o.ntop6) (d : Device)
    (he : ∀ p ∈ d.peers, p.flags.removeMe = false → p.endpoint ≠ .unset → Printable R o.nameinfo p.endpoint)
    (hc : ∀ p ∈ d.peers, ∀ a ∈ p.allowedIPs, a.cidr.toNat ≤ addrBits a.addr) :
    serve R (emitSet o d) = some (requestOf d).essential := serve_emitSet R o H d he hc

/-- C23: so the effect on any interface is that of the configuration. -/
theorem c23_set_effect (R : Readers) (o : OutEnv) (H : ServerReads R o.ntop4 o.ntop6) (d : Device)
    (he : ∀ p ∈ d.peers, p.flags.removeMe = false → p.endpoint ≠ .unset → Printable R o.nameinfo p.endpoint)
    (hc : ∀ p ∈ d.peers, ∀ a ∈ p.allowedIPs, a.cidr.toNat ≤ addrBits a.addr) :
    ∃ r, serve R (emitSet o d) = some r ∧ ∀ s : Iface, applyReq s r = applyReq s (requestOf d) :=
  ⟨_, serve_emitSet R o H d he hc, fun s => applyReq_essential s _⟩

/-- A server's readers built on glibc's address functions. -/
def stdReaders : Readers where
  key v := keyFromHex v
  num v := if v ≠ [] ∧ v.all isDigit then some (decVal v) else none
  endpoint v := (splitEndpoint v).bind fun (h, p) => match stdEnv.gai 0 h p with | .found e => some e | _ => none
  allowedIP v := getAllowedIP stdEnv v

theorem not_mem_addr {s : CStr} (h : ∀ c ∈ s, c ∈ addrChars) (x : UInt8) (hx : x ∉ addrChars) : x ∉ s := fun hm => hx (h x hm)

/-- Those readers satisfy the hypothesis of C23 for glibc's printing. -/
theorem stdReaders_ok : ServerReads stdReaders ntop4 ntop6 where
  key k := by
    show keyFromHex _ = some k
    rw [← keyToHex_eq]; exact c03_roundtrip k
  num v n h _ := by
    show (if v ≠ [] ∧ v.all isDigit then some (decVal v) else none) = some n
    rw [if_pos ⟨h.1, by simpa using h.2.1⟩, h.2.2]
  ip4 a c v hv hc := by
    apply getAllowedIP_of stdEnv (by decide) _ _ _ (fun h => absurd (ntop4_chars a _ h) (by decide)) _ hv hc
    exact Or.inr ⟨ntop4_no_colon a, a, pton4_ntop4 a, rfl⟩
  ip6 a c v hv hc := by
    apply getAllowedIP_of stdEnv (by decide) _ _ _ (not_mem_addr (ntop6_chars a) _ (by decide)) _ hv hc
    exact Or.inl ⟨ntop6_colon a, a, pton6_ntop6 a, rfl⟩
  line4 a := fun h => absurd (ntop4_chars a _ h) (by decide)
  line6 a := not_mem_addr (ntop6_chars a) _ (by decide)

theorem portNum_showDec (p : UInt16) : portNum (showDec p.toNat) = some p := by
  have h := showDec_isDecimal p.toNat
  have hlt := p.toNat_lt
  have hv : digitsVal 10 (showDec p.toNat) = p.toNat := by rw [digitsVal10 _ h.2.1, ← h.2.2]
  have hall : (showDec p.toNat).all (fun c => decide (48 ≤ c ∧ c ≤ 57)) = true := by
    rw [List.all_eq_true]; exact h.2.1
  rw [portNum, if_pos ⟨h.1, hall, by omega⟩, hv]
  simp

theorem pton4_no_colon (s : CStr) (h : c!":" ∈ s) : ∀ done cur saw, pton4Loop done cur saw s = none := by
  induction s with
  | nil => simp at h
  | cons c s ih =>
    intro done cur saw
    rw [pton4Loop]
    by_cases hc : c = c!":"
    · subst hc
      rw [if_neg (by decide), if_neg (by simp)]
    · have hs : c!":" ∈ s := by simpa [Ne.symm hc] using h
      simp only [ih hs]
      repeat' split
      all_goals rfl

/-- Every endpoint without flow label and scope satisfies the hypothesis of C23. -/
theorem std_printable4 (a : IP4) (p : UInt16) : Printable stdReaders stdOut.nameinfo (.in4 a p) := by
  have hd := showDec_isDecimal p.toNat
  refine ⟨ntop4 a, showDec p.toNat, rfl, fun h => absurd (ntop4_chars a _ h) (by decide), not_mem_decimal hd _ (by decide),
    fun _ _ _ => ntop4_no_colon a, ?_⟩
  have hs : splitEndpoint (ntop4 a ++ c!":" :: showDec p.toNat) = some (ntop4 a, showDec p.toNat) := by
    rw [splitEndpoint_iff]
    refine ⟨hd.1, Or.inr ⟨?_, rfl, not_mem_decimal hd _ (by decide)⟩⟩
    obtain ⟨x, t, hx⟩ := List.exists_cons_of_ne_nil (show ntop4 a ≠ [] by simp [ntop4])
    rw [hx]
    intro h
    simp only [List.cons_append, List.head?_cons, Option.some.injEq] at h
    exact absurd (ntop4_chars a x (by rw [hx]; simp)) (by rw [h]; decide)
  simp only [hostPort, if_neg (ntop4_no_colon a)]
  simp [stdReaders, hs, stdEnv, portNum_showDec, pton4_ntop4]

theorem std_printable6 (a : IP6) (p : UInt16) : Printable stdReaders stdOut.nameinfo (.in6 a p 0 0) := by
  have hd := showDec_isDecimal p.toNat
  refine ⟨ntop6 a, showDec p.toNat, by simp [stdOut], not_mem_addr (ntop6_chars a) _ (by decide), not_mem_decimal hd _ (by decide),
    fun _ _ h => by simp at h, ?_⟩
  have hs : splitEndpoint (c!"[" :: ntop6 a ++ c!"]" :: c!":" :: showDec p.toNat) = some (ntop6 a, showDec p.toNat) := by
    rw [splitEndpoint_iff]
    exact ⟨hd.1, Or.inl ⟨rfl, not_mem_addr (ntop6_chars a) _ (by decide)⟩⟩
  have h4 : pton4 (ntop6 a) = none := by simp [pton4, pton4_no_colon _ (ntop6_colon a)]
  simp only [hostPort, if_pos (ntop6_colon a)]
  show (splitEndpoint _).bind _ = _
  rw [hs]
  simp [stdEnv, portNum_showDec, pton6_ntop6, h4]

/-- A device with a removed peer, an IPv6 endpoint, and allowed IPs of both families. -/
def uapiSample : Device where
  flags := { replacePeers := true, hasPrivateKey := true, hasListenPort := true, hasFwmark := true }
  privateKey := sampleKey
  listenPort := 51820
  fwmark := 4294967295
  peers := [{ publicKey := zeroKey, flags := { removeMe := true } },
    { publicKey := sampleKey, presharedKey := sampleKey, endpoint := .in6 (Vector.replicate 16 0xfe) 7 0 0, keepalive := 25
      flags := { hasPublicKey := true, hasPresharedKey := true, hasKeepalive := true, replaceAllowedIPs := true }
      allowedIPs := [⟨.v4 #v[10, 0, 0, 1], 32⟩, ⟨.v6 (Vector.replicate 16 0), 0⟩] }]

-- the hypotheses of C23 hold for it
example : serve stdReaders (emitSet stdOut uapiSample) = some (requestOf uapiSample).essential := by
  apply c23_set_text_means_request stdReaders stdOut stdReaders_ok
  · intro p hp hr he
    simp only [uapiSample, List.mem_cons, List.not_mem_nil, or_false] at hp
    rcases hp with rfl | rfl
    · exact absurd rfl he
    · exact std_printable6 _ _
  · intro p hp a ha
    simp only [uapiSample, List.mem_cons, List.not_mem_nil, or_false] at hp
    rcases hp with rfl | rfl
    · simp at ha
    · simp only [List.mem_cons, List.not_mem_nil, or_false] at ha
      rcases ha with rfl | rfl <;> simp [addrBits]

example : emitSet stdOut { flags := { hasListenPort := true }, listenPort := 51820, peers := [{ endpoint := .in4 #v[10, 0, 0, 1] 80, flags := {}, allowedIPs := [⟨.v4 #v[1, 2, 3, 0], 24⟩] }] }
    = b!"set=1" ++ [10] ++ b!"listen_port=51820" ++ [10] ++ b!"public_key=0000000000000000000000000000000000000000000000000000000000000000" ++ [10]
      ++ b!"endpoint=10.0.0.1:80" ++ [10] ++ b!"allowed_ip=1.2.3.0/24" ++ [10] ++ [10] := by decide +kernel

/-- C23, the hypothesis on `getnameinfo` is needed: where it fails, the endpoint is silently left out of the request, and the
set still succeeds if the server says so. -/
theorem c23_nameinfo_counterexample (o : OutEnv) (a : IP4) (port : UInt16) (ho : o.nameinfo (.in4 a port) = none) (p : Peer)
    (hp : p.endpoint = .in4 a port) : emitPeer o p = emitPeer o { p with endpoint := .unset } := by
  simp [emitPeer, emitEndpoint, hp, ho]

/-! ### C24 -/

/-- C24. The set operation returns 0 exactly when the reply (before any NUL of a line) is `key=value` lines, then a blank
line, every `errno` value is an integer in the range of `int`, and the last one is 0. -/
theorem c24_set_succeeds_iff (sc : Bool) (err : Nat) (reply : List UInt8) :
    userspaceSetReply sc err reply = 0 ↔
      ∃ kls kvs rest, (fileLines reply).map beforeNul = kls ++ [10] :: rest ∧
        List.Forall₂ (fun l (kv : List UInt8 × List UInt8) => IsKV l kv.1 kv.2) kls kvs ∧
        LastErrno (-2147483648) 2147483647 kvs 0 := by
  unfold userspaceSetReply
  rw [getlines_eq, setReply_zero]
  have : cstr = beforeNul := rfl
  rw [this]
  constructor
  · rintro ⟨kvs, ⟨kls, rest, h1, h2⟩, h3⟩
    exact ⟨kls, kvs, rest, h1, h2, (finalErrno_last (by decide)).1 h3⟩
  · rintro ⟨kls, kvs, rest, h1, h2, h3⟩
    exact ⟨kvs, ⟨kls, rest, h1, h2⟩, (finalErrno_last (by decide)).2 h3⟩

/-- C24. The code of the set operation for every reply: for `key=value` lines ended by a blank line, in which every `errno` value is an integer in the range of `int`, the last
of these values, or -EPROTO if there is none; for every other reply the error of reading it, or -EPROTO if there was none. -/
theorem c24_set_code (sc : Bool) (err : Nat) (reply : List UInt8) :
    (∀ kls kvs rest n, (fileLines reply).map beforeNul = kls ++ [10] :: rest → List.Forall₂ (fun l (kv : List UInt8 × List UInt8) => IsKV l kv.1 kv.2) kls kvs →
      LastErrno (-2147483648) 2147483647 kvs n → userspaceSetReply sc err reply = n) ∧
    (∀ kls kvs rest, (fileLines reply).map beforeNul = kls ++ [10] :: rest → List.Forall₂ (fun l (kv : List UInt8 × List UInt8) => IsKV l kv.1 kv.2) kls kvs →
      (∀ kv ∈ kvs, kv.1 ≠ b!"errno") → userspaceSetReply sc err reply = -71) ∧
    ((¬ ∃ kls kvs rest, (fileLines reply).map beforeNul = kls ++ [10] :: rest ∧ List.Forall₂ (fun l (kv : List UInt8 × List UInt8) => IsKV l kv.1 kv.2) kls kvs ∧
      ∀ kv ∈ kvs, kv.1 = b!"errno" → ∃ n, IsIntNumeral kv.2 n ∧ -2147483648 ≤ n ∧ n ≤ 2147483647) →
      userspaceSetReply sc err reply = if err = 0 then -71 else -(err : Int)) := by
  have hc : cstr = beforeNul := rfl
  have key := setReply_code sc err ((getlines reply).map cstr) (-EPROTO)
  change (∃ kvs n, _ ∧ _ ∧ userspaceSetReply sc err reply = n) ∨ (_ ∧ userspaceSetReply sc err reply = _) at key
  rw [getlines_eq, hc] at key
  have hall : ∀ kls kvs rest n, (fileLines reply).map beforeNul = kls ++ [10] :: rest → List.Forall₂ (fun l (kv : List UInt8 × List UInt8) => IsKV l kv.1 kv.2) kls kvs →
      FinalErrno (-2147483648) 2147483647 (-EPROTO) kvs n → userspaceSetReply sc err reply = n := by
    intro kls kvs rest n h1 h2 h3
    rcases key with ⟨kvs', m, g1, g2, g3⟩ | ⟨g1, -⟩
    · cases reply_unique g1 ⟨kls, rest, h1, h2⟩
      rw [g3, finalErrno_unique g2 h3]
    · exact absurd ⟨kvs, n, ⟨kls, rest, h1, h2⟩, h3⟩ g1
  refine ⟨?_, ?_, ?_⟩
  · intro kls kvs rest n h1 h2 h3
    obtain ⟨ns, g1, g2⟩ := h3
    exact hall kls kvs rest n h1 h2 ⟨ns, g1, by rw [g2]; rfl⟩
  · intro kls kvs rest h1 h2 h3
    refine hall kls kvs rest _ h1 h2 ⟨[], ?_, rfl⟩
    rw [List.filter_eq_nil_iff.2 (by simpa using h3)]
    exact .nil
  · intro h
    rcases key with ⟨kvs, m, ⟨kls, rest, g1, g1'⟩, ⟨ns, g2, -⟩, -⟩ | ⟨-, g2⟩
    · refine absurd ⟨kls, kvs, rest, g1, g1', ?_⟩ h
      intro kv hkv hk
      have : kv ∈ kvs.filter (·.1 = b!"errno") := by simp [hkv, hk]
      revert g2 this
      generalize kvs.filter (·.1 = b!"errno") = l
      intro g2 this
      clear * - g2 this
      induction g2 with
      | nil => simp at this
      | cons hh _ ih =>
        rcases List.mem_cons.1 this with rfl | h
        · exact ⟨_, hh⟩
        · exact ih h
    · rw [g2]
      by_cases he : err = 0 <;> simp [he, EPROTO]

example : userspaceSetReply true 0 (b!"errno=0" ++ [10, 10]) = 0 := by decide +kernel
example : userspaceSetReply true 0 (b!"errno=-5" ++ [10] ++ b!"x=y" ++ [10, 10]) = -5 := by decide +kernel
-- a truncated reply is an error even if it contains errno=0
example : userspaceSetReply true 0 (b!"errno=0" ++ [10]) = -71 := by decide +kernel
example : userspaceSetReply true 104 [] = -104 := by decide +kernel

/-! ### C25 -/

/-- C25. A get returns 0 with a device or nonzero without one. -/
theorem c25_get_device_xor_error (env : Env) (pubOf : Key → Key) (iface : CStr) (reply : List UInt8) :
    (∃ d, userspaceGetReply env pubOf iface reply = (0, some d)) ∨ (∃ r, r ≠ 0 ∧ userspaceGetReply env pubOf iface reply = (r, none)) :=
  getLoop_cases _ _ _ _

/-- C25: 0 only for a complete reply whose last `errno` is 0. -/
theorem c25_get_zero_only_complete (env : Env) (pubOf : Key → Key) (iface : CStr) (reply : List UInt8)
    (h : (userspaceGetReply env pubOf iface reply).1 = 0) :
      ∃ kls kvs rest, (fileLines reply).map beforeNul = kls ++ [10] :: rest ∧
        List.Forall₂ (fun l (kv : List UInt8 × List UInt8) => IsKV l kv.1 kv.2) kls kvs ∧ LastErrno 0 2147483647 kvs 0 := by
  obtain ⟨kvs, ⟨kls, rest, h1, h2⟩, h3⟩ := getLoop_zero _ _ _ _ h
  rw [getlines_eq] at h1
  exact ⟨kls, kvs, rest, h1, h2, (finalErrno_last (by simp [EPROTO])).1 h3⟩

/-- C25: a `key=value` line with a key outside the protocol does not matter, wherever it stands. -/
theorem c25_unknown_keys_skipped (env : Env) (pubOf : Key → Key) (iface : CStr) (pre post k v : List UInt8)
    (hpre : pre = [] ∨ pre.getLast? = some 10) (hk : c!"=" ∉ k) (hnl : 10 ∉ k ∧ 10 ∉ v) (h0 : 0 ∉ k ∧ 0 ∉ v)
    (hu : k ∉ [b!"private_key", b!"listen_port", b!"fwmark", b!"public_key", b!"preshared_key", b!"endpoint", b!"persistent_keepalive_interval",
      b!"allowed_ip", b!"last_handshake_time_sec", b!"last_handshake_time_nsec", b!"rx_bytes", b!"tx_bytes", b!"errno"]) :
    userspaceGetReply env pubOf iface (pre ++ (k ++ c!"=" :: v ++ [10]) ++ post) = userspaceGetReply env pubOf iface (pre ++ post) := by
  have hsplit : ∀ t, fileLines (pre ++ t) = fileLines pre ++ fileLines t := by
    intro t
    rcases hpre with rfl | hp
    · simp [fileLines]
    · clear hk hnl h0 hu
      induction pre with
      | nil => simp at hp
      | cons c pre ih =>
        cases pre with
        | nil => simp only [List.getLast?_singleton, Option.some.injEq] at hp; subst hp; simp [fileLines]
        | cons c' pre =>
          rw [List.getLast?_cons_cons] at hp
          have ih' := ih hp
          have hne : fileLines (c' :: pre) ≠ [] := by simp only [fileLines]; split <;> [simp; (split <;> simp)]
          rw [List.cons_append, fileLines, ih']
          conv_rhs => rw [fileLines]
          split
          · rfl
          · obtain ⟨l, ls, hl⟩ := List.exists_cons_of_ne_nil hne
            rw [hl]; rfl
  have hnl' : (10 : UInt8) ∉ k ++ c!"=" :: v := by
    simp only [List.mem_append, List.mem_cons, not_or]; exact ⟨hnl.1, by decide, hnl.2⟩
  have hl : fileLines ((k ++ c!"=" :: v ++ [10]) ++ post) = (k ++ c!"=" :: v ++ [10]) :: fileLines post := by
    rw [List.append_assoc, List.singleton_append, fileLines_line _ _ hnl']
  have hc : cstr (k ++ c!"=" :: v ++ [10]) = k ++ c!"=" :: v ++ [10] := by
    apply takeWhile_all
    intro a ha
    simp only [List.mem_append, List.mem_cons, List.not_mem_nil, or_false] at ha
    have : a ≠ 0 := by
      rintro rfl
      rcases ha with (h | h | h) | h
      · exact h0.1 h
      · exact absurd h (by decide)
      · exact h0.2 h
      · exact absurd h (by decide)
    simpa using this
  simp only [userspaceGetReply, getlines_eq]
  rw [List.append_assoc, hsplit, hl, hsplit, List.map_append, List.map_cons, hc, List.map_append]
  exact getLoop_unknown env pubOf _ _ _ k v ⟨hk, rfl⟩ hu _

/-! ### C26 -/

/-- C26. Reading a complete report, whatever its order of facts within the device and peer parts, gives exactly the device
reported: last value of each field, all allowed IPs in order, all peers in order. -/
theorem c26_get_reads_report (env : Env) (hM : 128 < env.ulongMax) (pubOf : Key → Key) (iface : CStr) (reply : List UInt8)
    (dev : List DevFact) (peers : List (Key × List PeerFact))
    (h : ReportSays env.pton4 env.pton6 (fun h p e => ∀ n, env.gai n h p = .found e) ((fileLines reply).map beforeNul) dev peers) :
    userspaceGetReply env pubOf iface reply = (0, some (deviceReported pubOf (iface.take 15) dev peers)) := by
  unfold userspaceGetReply
  rw [getlines_eq]
  exact getLoop_report env hM pubOf _ _ dev peers h

/-- A report in text form. -/
def sampleReport : List UInt8 :=
  b!"listen_port=0051820" ++ [10] ++ b!"fwmark=7" ++ [10] ++
  b!"public_key=0102030405060708090a0b0c0d0e0f101112131415161718191A1B1C1D1E1F20" ++ [10] ++
  b!"endpoint=[fe80::1]:443" ++ [10] ++ b!"allowed_ip=10.1.0.0/16" ++ [10] ++ b!"rx_bytes=18446744073709551615" ++ [10] ++
  b!"last_handshake_time_sec=99" ++ [10] ++ b!"errno=0" ++ [10, 10]

def sampleDevFacts : List DevFact := [.listenPort 51820, .fwmark 7]
def samplePeerFacts : List (Key × List PeerFact) :=
  [(sampleKey, [.endpoint (.in6 #v[0xfe, 0x80, 0, 0, 0, 0, 0, 0, 0, 0, 0, 0, 0, 0, 0, 1] 443 0 0), .allowedIP ⟨.v4 #v[10, 1, 0, 0], 16⟩,
    .rx 18446744073709551615, .handshakeSec 99])]

theorem sampleResolves : stdEnv.gai 0 b!"fe80::1" b!"443" = .found (.in6 #v[0xfe, 0x80, 0, 0, 0, 0, 0, 0, 0, 0, 0, 0, 0, 0, 0, 1] 443 0 0) := by decide +kernel

-- it meets the hypothesis of C26
example : ReportSays stdEnv.pton4 stdEnv.pton6 (fun h p e => ∀ n, stdEnv.gai n h p = .found e) ((fileLines sampleReport).map beforeNul)
    sampleDevFacts samplePeerFacts := by
  refine ⟨[b!"listen_port=0051820" ++ [10], b!"fwmark=7" ++ [10]],
    [[b!"public_key=0102030405060708090a0b0c0d0e0f101112131415161718191A1B1C1D1E1F20" ++ [10], b!"endpoint=[fe80::1]:443" ++ [10],
      b!"allowed_ip=10.1.0.0/16" ++ [10], b!"rx_bytes=18446744073709551615" ++ [10], b!"last_handshake_time_sec=99" ++ [10]]], [], by decide +kernel, ?_, ?_⟩
  · refine .cons (.listenPort (v := b!"0051820") rfl ⟨by decide, by decide, by decide⟩) (.cons (.fwmark (v := b!"7") rfl ⟨by decide, by decide, by decide⟩) .nil)
  · refine .cons ⟨_, b!"0102030405060708090a0b0c0d0e0f101112131415161718191A1B1C1D1E1F20", _, rfl, rfl, by unfold IsHexKey; decide +kernel, ?_⟩ .nil
    refine .cons (.endpoint (v := b!"[fe80::1]:443") (h := b!"fe80::1") (p := b!"443") rfl ⟨by decide, Or.inl ⟨by decide, by decide⟩⟩ (by decide)
      (fun _ => sampleResolves)) ?_
    refine .cons (.allowedIP (ip := b!"10.1.0.0") (m := b!"16") rfl (by decide) (Or.inr ⟨by decide, _, by decide +kernel, rfl⟩) ⟨by decide, by decide, by decide⟩ (by decide)) ?_
    refine .cons (.rx (v := b!"18446744073709551615") rfl ⟨by decide, by decide, by decide⟩ (by decide)) ?_
    exact .cons (.handshakeSec (v := b!"99") rfl ⟨by decide, by decide, by decide⟩ (by decide)) .nil

/-- C26, limits: a counter above 2^64 - 1 in a reply is not refused but read as 2^64 - 1 (`strtoull` saturates and `errno` is
not looked at). -/
theorem c26_counter_saturates_counterexample :
    ∃ reply d, userspaceGetReply stdEnv id b!"wg0" reply = (0, some d) ∧
      reply = b!"public_key=0102030405060708090a0b0c0d0e0f101112131415161718191a1b1c1d1e1f20" ++ [10] ++ b!"rx_bytes=99999999999999999999" ++ [10] ++ b!"errno=0" ++ [10, 10] ∧
      d.peers.map (·.rx) = [2 ^ 64 - 1] := by
  refine ⟨_, deviceReported id b!"wg0" [] [(sampleKey, [.rx (2 ^ 64 - 1)])], ?_, rfl, ?_⟩ <;> decide +kernel

/-! ### C27 -/

/-- C27. Every allowed IP of a device read from a userspace reply has a prefix length within its family's range. -/
theorem c27_prefix_in_range (env : Env) (pubOf : Key → Key) (iface : CStr) (reply : List UInt8) (r : Int) (d : Device)
    (h : userspaceGetReply env pubOf iface reply = (r, some d)) :
    ∀ p ∈ d.peers, ∀ a ∈ p.allowedIPs, a.cidr.toNat ≤ addrBits a.addr :=
  getLoop_cidr _ _ _ _ (by intro p hp; simp at hp) r d h

example : userspaceGetReply stdEnv id b!"wg0" (b!"public_key=0102030405060708090a0b0c0d0e0f101112131415161718191a1b1c1d1e1f20" ++ [10] ++ b!"allowed_ip=10.0.0.0/33" ++ [10] ++ b!"errno=0" ++ [10, 10]) = (-71, none) := by decide +kernel

/-- C27, the stronger claim is false: `/256` is read as `/0`. -/
theorem c27_truncation_counterexample :
    userspaceGetReply stdEnv id b!"wg0" (b!"public_key=0102030405060708090a0b0c0d0e0f101112131415161718191a1b1c1d1e1f20" ++ [10] ++ b!"allowed_ip=10.0.0.0/256" ++ [10] ++ b!"errno=0" ++ [10, 10]) =
      (0, some { name := b!"wg0", peers := [{ publicKey := sampleKey, flags := { hasPublicKey := true }, allowedIPs := [⟨.v4 #v[10, 0, 0, 0], 0⟩] }] }) := by
  decide +kernel

end WG.Props
