import Verif.Model.Uapi
import Verif.Spec.Uapi
import Verif.Proof.Setconf
import Verif.Proof.Sync
import Verif.Proof.Hex
namespace WG
open Spec

/-! ### decimal printing -/

theorem digit_char (n : Nat) (h : n < 10) : isDigit (UInt8.ofNat (48 + n)) = true ∧ (UInt8.ofNat (48 + n)).toNat - 48 = n := by
  have : ∀ n : Fin 10, isDigit (UInt8.ofNat (48 + n)) = true ∧ (UInt8.ofNat (48 + n)).toNat - 48 = n := by decide
  exact this ⟨n, h⟩

theorem decVal_append (a : List UInt8) (c : UInt8) : decVal (a ++ [c]) = 10 * decVal a + (c.toNat - 48) := by
  simp [decVal]

theorem showDecAux_spec (fuel n : Nat) (h : n < fuel) : IsDecimal (showDecAux fuel n) n := by
  induction fuel generalizing n with
  | zero => omega
  | succ f ih =>
    simp only [showDecAux]
    split
    · rename_i hn
      have := digit_char n hn
      refine ⟨by simp, by simpa using this.1, ?_⟩
      simp only [decVal, List.foldl_cons, List.foldl_nil]; omega
    · rename_i hn
      obtain ⟨h1, h2, h3⟩ := ih (n / 10) (by omega)
      have hd := digit_char (n % 10) (by omega)
      refine ⟨by simp, ?_, ?_⟩
      · intro c hc
        rcases List.mem_append.1 hc with hc | hc
        · exact h2 c hc
        · simp only [List.mem_singleton] at hc; subst hc; exact hd.1
      · rw [decVal_append, ← h3, hd.2]; omega

theorem showDec_isDecimal (n : Nat) : IsDecimal (showDec n) n := showDecAux_spec _ _ (by omega)

theorem digit_ne (c x : UInt8) (h : isDigit c = true) (hx : isDigit x = false) : x ≠ c := by
  intro he; subst he; rw [h] at hx; cases hx

theorem not_mem_decimal {s : List UInt8} {n : Nat} (h : IsDecimal s n) (x : UInt8) (hx : isDigit x = false) : x ∉ s := by
  intro hm; have := h.2.1 x hm; rw [hx] at this; cases this

/-! ### lines -/

theorem fileLines_line (l t : List UInt8) (h : (10 : UInt8) ∉ l) : fileLines (l ++ 10 :: t) = (l ++ [10]) :: fileLines t := by
  induction l with
  | nil => simp [fileLines]
  | cons c l ih =>
    simp only [List.mem_cons, not_or] at h
    simp only [List.cons_append, fileLines]
    rw [if_neg (fun e => h.1 e.symm), ih h.2]

theorem keyValue_kv (k v : List UInt8) (h : c!"=" ∉ k) : keyValue (k ++ c!"=" :: v ++ [10]) = some (k, v) := by
  simp only [keyValue, List.append_assoc, List.cons_append]
  rw [dropWhile_ne_append _ _ _ h, takeWhile_ne_append _ _ _ h]
  simp

theorem kvLine_kv (k v : List UInt8) (h : c!"=" ∉ k) : kvLine (k ++ c!"=" :: v ++ [10]) = some (k, v) := by
  simp only [kvLine, List.append_assoc, List.cons_append]
  rw [strsepOne_some _ _ _ h]
  simp

theorem kvLine_some (line k v : List UInt8) : kvLine line = some (k, v) ↔ IsKV line k v := by
  constructor
  · intro h
    simp only [kvLine] at h
    rcases split_first c!"=" line with hn | ⟨a, b, rfl, ha⟩
    · rw [strsepOne_none _ _ hn] at h; simp at h
    · rw [strsepOne_some _ _ _ ha] at h
      simp only at h
      split at h
      · rename_i hb
        simp only [Option.some.injEq, Prod.mk.injEq] at h
        obtain ⟨rfl, rfl⟩ := h
        refine ⟨ha, ?_⟩
        have hne : b ≠ [] := by rintro rfl; simp at hb
        rw [List.getLast?_eq_some_getLast hne] at hb
        simp only [Option.some.injEq] at hb
        have := List.dropLast_append_getLast hne
        rw [hb] at this
        simp only [List.append_assoc, List.cons_append]
        rw [this]
      · cases h
  · rintro ⟨h1, rfl⟩; exact kvLine_kv k v h1

theorem kv_ne_nl (k v : List UInt8) : k ++ c!"=" :: v ++ [10] ≠ [10] := by
  intro h
  have := congrArg List.length h
  simp at this; omega

theorem readSettings_kv (R : Readers) (s : Reading) (k v t : List UInt8) (hk : c!"=" ∉ k) (hk' : (10 : UInt8) ∉ k) (hv : (10 : UInt8) ∉ v) :
    readSettings R s (fileLines (k ++ c!"=" :: v ++ 10 :: t)) =
      (readSetting R s k v).bind fun s => readSettings R s (fileLines t) := by
  rw [fileLines_line]
  · rw [readSettings, if_neg (kv_ne_nl k v), keyValue_kv k v hk]
    rfl
  · simp only [List.mem_append, List.mem_cons, not_or]
    exact ⟨hk', by decide, hv⟩

theorem hex_no_nl (k : Key) : (10 : UInt8) ∉ hexString k.toList := by
  intro h
  simp only [hexString, List.mem_flatMap] at h
  obtain ⟨b, -, hb⟩ := h
  revert hb
  have : ∀ b : UInt8, (10 : UInt8) ∉ [hexAlphabet.getD (b.toNat / 16) 0, hexAlphabet.getD (b.toNat % 16) 0] := by
    apply forall_u8; decide +kernel
  exact this b

/-! ### the set request -/

theorem readKV (R : Readers) (s s' : Reading) (k v kb t : List UInt8) (hkb : kb = k ++ [c!"="]) (hk : c!"=" ∉ k ∧ (10 : UInt8) ∉ k) (hv : (10 : UInt8) ∉ v)
    (h : readSetting R s k v = some s') :
    readSettings R s (fileLines (kb ++ v ++ [10] ++ t)) = readSettings R s' (fileLines t) := by
  have := readSettings_kv R s k v t hk.1 hk.2 hv
  subst hkb
  simp only [List.append_assoc, List.cons_append, List.nil_append] at this ⊢
  rw [this, h]; rfl

theorem read_endpoint (R : Readers) (o : OutEnv) (s : Reading) (q : PeerReq) (e : Endpoint) (t : List UInt8) (hs : s.peer = some q)
    (he : e ≠ .unset → Printable R o.nameinfo e) :
    readSettings R s (fileLines (emitEndpoint o e ++ t)) =
      readSettings R (if e = .unset then s else { s with peer := some { q with endpoint := some e } }) (fileLines t) := by
  cases e with
  | unset => simp [emitEndpoint]
  | in4 a p =>
    obtain ⟨host, service, h1, h2, h3, h4, h5⟩ := he (by simp)
    have hc := h4 a p rfl
    simp only [hostPort, if_neg hc] at h5
    simp only [emitEndpoint, h1]
    have := readKV R s { s with peer := some { q with endpoint := some (.in4 a p) } } b!"endpoint" (host ++ c!":" :: service) b!"endpoint=" t
      rfl (by decide) (by simp [h2, h3]) (by simp [readSetting, hs, h5])
    simpa using this
  | in6 a p f sc =>
    obtain ⟨host, service, h1, h2, h3, -, h5⟩ := he (by simp)
    simp only [emitEndpoint, h1]
    by_cases hc : c!":" ∈ host
    · simp only [hostPort, if_pos hc] at h5
      have := readKV R s { s with peer := some { q with endpoint := some (.in6 a p f sc) } } b!"endpoint" (c!"[" :: host ++ c!"]" :: c!":" :: service) b!"endpoint=" t
        rfl (by decide) (by simp [h2, h3]) (by simp only [readSetting, hs, h5]; simp)
      simpa [hc] using this
    · simp only [hostPort, if_neg hc] at h5
      have := readKV R s { s with peer := some { q with endpoint := some (.in6 a p f sc) } } b!"endpoint" (host ++ c!":" :: service) b!"endpoint=" t
        rfl (by decide) (by simp [h2, h3]) (by simp [readSetting, hs, h5])
      simpa [hc] using this

theorem read_ips (R : Readers) (o : OutEnv) (H : ServerReads R o.ntop4 o.ntop6) (as : List AllowedIP) (s : Reading) (q : PeerReq) (t : List UInt8)
    (hs : s.peer = some q) (hc : ∀ a ∈ as, a.cidr.toNat ≤ addrBits a.addr) :
    readSettings R s (fileLines ((as.flatMap fun a => b!"allowed_ip=" ++ ntopAddr o a.addr ++ c!"/" :: showDec a.cidr.toNat ++ [10]) ++ t)) =
      readSettings R { s with peer := some { q with ips := q.ips ++ as } } (fileLines t) := by
  induction as generalizing s q with
  | nil => simp [hs.symm]
  | cons a as ih =>
    have hd := showDec_isDecimal a.cidr.toNat
    have hnl := not_mem_decimal hd 10 (by decide)
    have hip : R.allowedIP (ntopAddr o a.addr ++ c!"/" :: showDec a.cidr.toNat) = some a ∧ (10 : UInt8) ∉ ntopAddr o a.addr := by
      have hca := hc a (by simp)
      obtain ⟨ad, c⟩ := a
      cases ad with
      | v4 x => exact ⟨H.ip4 x c _ hd hca, H.line4 x⟩
      | v6 x => exact ⟨H.ip6 x c _ hd hca, H.line6 x⟩
    have := readKV R s { s with peer := some { q with ips := q.ips ++ [a] } } b!"allowed_ip" (ntopAddr o a.addr ++ c!"/" :: showDec a.cidr.toNat) b!"allowed_ip="
      ((as.flatMap fun a => b!"allowed_ip=" ++ ntopAddr o a.addr ++ c!"/" :: showDec a.cidr.toNat ++ [10]) ++ t)
      rfl (by decide) (by simp [hip.2, hnl]) (by simp [readSetting, hs, hip.1])
    rw [ih _ _ rfl (fun x hx => hc x (by simp [hx]))] at this
    simp only [List.flatMap_cons]
    simp only [List.append_assoc, List.cons_append] at this ⊢
    simpa using this

theorem u16_round (n : UInt16) : UInt16.ofNat n.toNat = n := by simp
theorem u32_round (n : UInt32) : UInt32.ofNat n.toNat = n := by simp

theorem read_peer (R : Readers) (o : OutEnv) (H : ServerReads R o.ntop4 o.ntop6) (p : Peer) (s : Reading) (t : List UInt8)
    (he : p.flags.removeMe = false → p.endpoint ≠ .unset → Printable R o.nameinfo p.endpoint)
    (hc : ∀ a ∈ p.allowedIPs, a.cidr.toNat ≤ addrBits a.addr) :
    readSettings R s (fileLines (emitPeer o p ++ t)) =
      readSettings R { req := { s.req with peers := s.req.peers ++ s.peer.toList }, peer := some (peerReqOf p).essential } (fileLines t) := by
  have hkey : ∀ u, readSettings R s (fileLines (b!"public_key=" ++ keyToHex p.publicKey ++ [10] ++ u)) =
      readSettings R { req := { s.req with peers := s.req.peers ++ s.peer.toList }, peer := some { key := p.publicKey } } (fileLines u) := by
    intro u
    apply readKV R s _ b!"public_key" _ b!"public_key=" u rfl (by decide) (by rw [keyToHex_eq]; exact hex_no_nl _)
    simp [readSetting, keyToHex_eq, H.key]
  simp only [emitPeer]
  rw [List.append_assoc _ _ t, hkey]
  generalize hreq : ({ s.req with peers := s.req.peers ++ s.peer.toList } : SetReq) = req
  by_cases hr : p.flags.removeMe = true
  · rw [if_pos hr]
    have := readKV R { req := req, peer := some { key := p.publicKey } } { req := req, peer := some { key := p.publicKey, remove := true } }
      b!"remove" b!"true" b!"remove=" t rfl (by decide) (by decide) (by simp [readSetting])
    simp only [List.cons_append, List.nil_append] at this ⊢
    rw [this]
    simp [PeerReq.essential, peerReqOf, hr]
  · rw [if_neg hr]
    simp only [Bool.not_eq_true] at hr
    -- preshared key
    have h1 : ∀ u, readSettings R { req := req, peer := some { key := p.publicKey } }
        (fileLines ((if p.flags.hasPresharedKey = true then b!"preshared_key=" ++ keyToHex p.presharedKey ++ [10] else []) ++ u)) =
        readSettings R { req := req, peer := some { key := p.publicKey, psk := (peerReqOf p).psk } } (fileLines u) := by
      intro u
      by_cases hp : p.flags.hasPresharedKey = true
      · rw [if_pos hp]
        apply readKV R _ _ b!"preshared_key" _ b!"preshared_key=" u rfl (by decide) (by rw [keyToHex_eq]; exact hex_no_nl _)
        simp [readSetting, keyToHex_eq, H.key, peerReqOf, hp]
      · simp [hp, peerReqOf]
    have h2 : ∀ u, readSettings R { req := req, peer := some { key := p.publicKey, psk := (peerReqOf p).psk } } (fileLines (emitEndpoint o p.endpoint ++ u)) =
        readSettings R { req := req, peer := some { key := p.publicKey, psk := (peerReqOf p).psk, endpoint := (peerReqOf p).endpoint } } (fileLines u) := by
      intro u
      rw [read_endpoint R o _ _ _ u rfl (he hr)]
      by_cases hu : p.endpoint = .unset <;> simp [hu, peerReqOf]
    have h3 : ∀ u, readSettings R { req := req, peer := some { key := p.publicKey, psk := (peerReqOf p).psk, endpoint := (peerReqOf p).endpoint } }
        (fileLines ((if p.flags.hasKeepalive = true then b!"persistent_keepalive_interval=" ++ showDec p.keepalive.toNat ++ [10] else []) ++ u)) =
        readSettings R { req := req, peer := some { key := p.publicKey, psk := (peerReqOf p).psk, endpoint := (peerReqOf p).endpoint, keepalive := (peerReqOf p).keepalive } } (fileLines u) := by
      intro u
      by_cases hp : p.flags.hasKeepalive = true
      · rw [if_pos hp]
        have hlt := p.keepalive.toNat_lt
        apply readKV R _ _ b!"persistent_keepalive_interval" _ b!"persistent_keepalive_interval=" u rfl (by decide) (not_mem_decimal (showDec_isDecimal _) 10 (by decide))
        simp [readSetting, H.num _ _ (showDec_isDecimal p.keepalive.toNat) (by omega), peerReqOf, hp, hlt]
      · simp [hp, peerReqOf]
    have h4 : ∀ u, readSettings R { req := req, peer := some { key := p.publicKey, psk := (peerReqOf p).psk, endpoint := (peerReqOf p).endpoint, keepalive := (peerReqOf p).keepalive } }
        (fileLines ((if p.flags.replaceAllowedIPs = true then b!"replace_allowed_ips=true" ++ [10] else []) ++ u)) =
        readSettings R { req := req, peer := some { key := p.publicKey, psk := (peerReqOf p).psk, endpoint := (peerReqOf p).endpoint, keepalive := (peerReqOf p).keepalive, replaceIPs := p.flags.replaceAllowedIPs } } (fileLines u) := by
      intro u
      by_cases hp : p.flags.replaceAllowedIPs = true
      · rw [if_pos hp]
        have := readKV R { req := req, peer := some { key := p.publicKey, psk := (peerReqOf p).psk, endpoint := (peerReqOf p).endpoint, keepalive := (peerReqOf p).keepalive } } { req := req, peer := some { key := p.publicKey, psk := (peerReqOf p).psk, endpoint := (peerReqOf p).endpoint, keepalive := (peerReqOf p).keepalive, replaceIPs := p.flags.replaceAllowedIPs } } b!"replace_allowed_ips" b!"true" b!"replace_allowed_ips=" u rfl (by decide) (by decide)
          (by simp [readSetting, hp])
        simp only [List.cons_append, List.nil_append] at this ⊢
        rw [this]
      · simp [hp]
    simp only [List.append_assoc]
    simp only [List.append_assoc] at h1 h2 h3 h4
    rw [h1, h2, h3, h4]
    have := read_ips R o H p.allowedIPs { req := req, peer := some { key := p.publicKey, psk := (peerReqOf p).psk, endpoint := (peerReqOf p).endpoint, keepalive := (peerReqOf p).keepalive, replaceIPs := p.flags.replaceAllowedIPs } } _ t rfl hc
    simp only [List.append_assoc] at this
    rw [this]
    simp [PeerReq.essential, peerReqOf, hr]

theorem read_peers (R : Readers) (o : OutEnv) (H : ServerReads R o.ntop4 o.ntop6) (ps : List Peer) (s : Reading)
    (he : ∀ p ∈ ps, p.flags.removeMe = false → p.endpoint ≠ .unset → Printable R o.nameinfo p.endpoint)
    (hc : ∀ p ∈ ps, ∀ a ∈ p.allowedIPs, a.cidr.toNat ≤ addrBits a.addr) :
    readSettings R s (fileLines (ps.flatMap (emitPeer o) ++ [10])) =
      some { s.req with peers := s.req.peers ++ s.peer.toList ++ ps.map fun p => (peerReqOf p).essential } := by
  induction ps generalizing s with
  | nil => simp [fileLines, readSettings]
  | cons p ps ih =>
    simp only [List.flatMap_cons, List.append_assoc]
    rw [read_peer R o H p s _ (he p (by simp)) (hc p (by simp)), ih _ (fun q hq => he q (by simp [hq])) (fun q hq => hc q (by simp [hq]))]
    simp

theorem serve_emitSet (R : Readers) (o : OutEnv) (H : ServerReads R o.ntop4 o.ntop6) (d : Device)
    (he : ∀ p ∈ d.peers, p.flags.removeMe = false → p.endpoint ≠ .unset → Printable R o.nameinfo p.endpoint)
    (hc : ∀ p ∈ d.peers, ∀ a ∈ p.allowedIPs, a.cidr.toNat ≤ addrBits a.addr) :
    serve R (emitSet o d) = some (requestOf d).essential := by
  have h0 : ∀ u, serve R (b!"set=1" ++ [10] ++ u) = readSettings R {} (fileLines u) := by
    intro u
    have := fileLines_line b!"set=1" u (by decide)
    simp only [serve, List.append_assoc]
    rw [List.singleton_append, this]
    rfl
  have h1 : ∀ u, readSettings R {} (fileLines ((if d.flags.hasPrivateKey = true then b!"private_key=" ++ keyToHex d.privateKey ++ [10] else []) ++ u)) =
      readSettings R { req := { privateKey := (requestOf d).privateKey } } (fileLines u) := by
    intro u
    by_cases hp : d.flags.hasPrivateKey = true
    · rw [if_pos hp]
      apply readKV R _ _ b!"private_key" _ b!"private_key=" u rfl (by decide) (by rw [keyToHex_eq]; exact hex_no_nl _)
      simp [readSetting, keyToHex_eq, H.key, requestOf, hp]
    · simp [hp, requestOf]
  have h2 : ∀ u, readSettings R { req := { privateKey := (requestOf d).privateKey } } (fileLines ((if d.flags.hasListenPort = true then b!"listen_port=" ++ showDec d.listenPort.toNat ++ [10] else []) ++ u)) =
      readSettings R { req := { privateKey := (requestOf d).privateKey, listenPort := (requestOf d).listenPort } } (fileLines u) := by
    intro u
    by_cases hp : d.flags.hasListenPort = true
    · rw [if_pos hp]
      have hlt := d.listenPort.toNat_lt
      apply readKV R _ _ b!"listen_port" _ b!"listen_port=" u rfl (by decide) (not_mem_decimal (showDec_isDecimal _) 10 (by decide))
      simp [readSetting, H.num _ _ (showDec_isDecimal d.listenPort.toNat) (by omega), requestOf, hp, hlt]
    · simp [hp, requestOf]
  have h3 : ∀ u, readSettings R { req := { privateKey := (requestOf d).privateKey, listenPort := (requestOf d).listenPort } } (fileLines ((if d.flags.hasFwmark = true then b!"fwmark=" ++ showDec d.fwmark.toNat ++ [10] else []) ++ u)) =
      readSettings R { req := { privateKey := (requestOf d).privateKey, listenPort := (requestOf d).listenPort, fwmark := (requestOf d).fwmark } } (fileLines u) := by
    intro u
    by_cases hp : d.flags.hasFwmark = true
    · rw [if_pos hp]
      have hlt := d.fwmark.toNat_lt
      apply readKV R _ _ b!"fwmark" _ b!"fwmark=" u rfl (by decide) (not_mem_decimal (showDec_isDecimal _) 10 (by decide))
      simp [readSetting, H.num _ _ (showDec_isDecimal d.fwmark.toNat) (by omega), requestOf, hp, hlt]
    · simp [hp, requestOf]
  have h4 : ∀ u, readSettings R { req := { privateKey := (requestOf d).privateKey, listenPort := (requestOf d).listenPort, fwmark := (requestOf d).fwmark } } (fileLines ((if d.flags.replacePeers = true then b!"replace_peers=true" ++ [10] else []) ++ u)) =
      readSettings R { req := { privateKey := (requestOf d).privateKey, listenPort := (requestOf d).listenPort, fwmark := (requestOf d).fwmark, replacePeers := (requestOf d).replacePeers } } (fileLines u) := by
    intro u
    by_cases hp : d.flags.replacePeers = true
    · rw [if_pos hp]
      have := readKV R { req := { privateKey := (requestOf d).privateKey, listenPort := (requestOf d).listenPort, fwmark := (requestOf d).fwmark } } { req := { privateKey := (requestOf d).privateKey, listenPort := (requestOf d).listenPort, fwmark := (requestOf d).fwmark, replacePeers := (requestOf d).replacePeers } } b!"replace_peers" b!"true" b!"replace_peers=" u rfl (by decide) (by decide)
          (by simp [readSetting, hp, requestOf])
      simp only [List.cons_append, List.nil_append] at this ⊢
      rw [this]
    · simp [hp, requestOf]
  simp only [emitSet, List.append_assoc]
  simp only [List.append_assoc] at h0 h1 h2 h3 h4
  rw [h0, h1, h2, h3, h4, read_peers R o H _ _ he hc]
  simp [SetReq.essential, requestOf, peerReqOf]

theorem applyReq_essential (s : Iface) (r : SetReq) : applyReq s r.essential = applyReq s r := by
  have : ∀ (ps : List PeerReq) (s : Iface), (ps.map PeerReq.essential).foldl applyPeerReq s = ps.foldl applyPeerReq s := by
    intro ps
    induction ps with
    | nil => simp
    | cons p ps ih =>
      intro s
      have h : applyPeerReq s p.essential = applyPeerReq s p := by
        by_cases h : p.remove = true <;> simp [PeerReq.essential, applyPeerReq, h]
      simp [h, ih]
  simp only [applyReq, SetReq.essential, this]
  rfl

end WG
