import Verif.Proof.WgJson
/-! The text printed by contrib/json/wg-json, and that it is JSON (C91). -/
namespace WG.WgJson
open WG WG.Spec

/-! ### Arrays and objects -/

theorem ws_nil : JsonWs [] := by intro c hc; simp at hc

instance (w : List UInt8) : Decidable (JsonWs w) := by unfold JsonWs; infer_instance
instance (w : List UInt8) : Decidable (JsonChars w) := by unfold JsonChars; infer_instance
instance (w : List UInt8) : Decidable (JsonWord w) := by unfold JsonWord; infer_instance

theorem arrText (pre post : CStr) (hpre : JsonWs pre) (hpost : JsonWs post) (ms : List (Json × CStr)) (h : ∀ m ∈ ms, IsJson m.1 m.2) :
    IsJson (.arr (ms.map (·.1))) (b!"[" ++ joinWith b!"," (ms.map fun m => pre ++ m.2) ++ post ++ b!"]") := by
  rcases List.eq_nil_or_concat ms with rfl | ⟨init, last, rfl⟩
  · exact .arrEmpty _ hpost
  · simp only [List.concat_eq_append] at h ⊢
    have key := IsJson.arr ((init.map fun m => (m.1, (⟨pre, m.2, []⟩ : Slot))) ++ [(last.1, ⟨pre, last.2, post⟩)]) (by simp) (by
      intro i hi
      simp only [List.mem_append, List.mem_map, List.mem_singleton] at hi
      rcases hi with ⟨m, hm, rfl⟩ | rfl
      · exact ⟨hpre, ws_nil⟩
      · exact ⟨hpre, hpost⟩) (by
      intro i hi
      simp only [List.mem_append, List.mem_map, List.mem_singleton] at hi
      rcases hi with ⟨m, hm, rfl⟩ | rfl
      · exact h m (by simp [hm])
      · exact h _ (by simp))
    simp only [List.map_append, List.map_map, List.map_cons, List.map_nil, Function.comp_def, Slot.all, join_snoc, List.append_nil,
      List.map_eq_nil_iff, List.append_assoc] at key ⊢
    exact key

theorem objText (pre post : CStr) (hpre : JsonWs pre) (hpost : JsonWs post) (ms : List (CStr × Json × CStr))
    (h : ∀ m ∈ ms, JsonChars m.1 ∧ IsJson m.2.1 m.2.2) :
    IsJson (.obj (ms.map fun m => (m.1, m.2.1)))
      (b!"{" ++ joinWith b!"," (ms.map fun m => pre ++ b!"\"" ++ m.1 ++ b!"\": " ++ m.2.2) ++ post ++ b!"}") := by
  rcases List.eq_nil_or_concat ms with rfl | ⟨init, last, rfl⟩
  · exact .objEmpty _ hpost
  · simp only [List.concat_eq_append] at h ⊢
    have key := IsJson.obj ((init.map fun m => (m.2.1, (⟨⟨pre, m.2.2, []⟩, m.1, [], b!" "⟩ : Member))) ++ [(last.2.1, ⟨⟨pre, last.2.2, post⟩, last.1, [], b!" "⟩)])
      (by simp) (by
      intro i hi
      simp only [List.mem_append, List.mem_map, List.mem_singleton] at hi
      rcases hi with ⟨m, hm, rfl⟩ | rfl
      · exact ⟨(h m (by simp [hm])).1, hpre, ws_nil, by dsimp only; decide, ws_nil⟩
      · exact ⟨(h _ (by simp)).1, hpre, ws_nil, by dsimp only; decide, hpost⟩) (by
      intro i hi
      simp only [List.mem_append, List.mem_map, List.mem_singleton] at hi
      rcases hi with ⟨m, hm, rfl⟩ | rfl
      · exact (h m (by simp [hm])).2
      · exact (h _ (by simp)).2)
    simp only [List.map_append, List.map_map, List.map_cons, List.map_nil, Function.comp_def, Member.all, join_snoc, List.append_nil, List.nil_append,
      List.map_eq_nil_iff, List.append_assoc, List.cons_append] at key ⊢
    exact key

/-! ### Words -/

theorem wordOf {s : CStr} (h : JsonWord s) : Word s := by
  refine ⟨h.1, fun c hc => ?_⟩
  have key : ∀ c : UInt8, 33 ≤ c → isIfs c = false := by apply forall_u8; decide +kernel
  exact key c (h.2 c hc).1

theorem charsOf {s : CStr} (h : JsonWord s) : JsonChars s := by
  intro c hc
  obtain ⟨h1, h2⟩ := h.2 c hc
  refine ⟨?_, h2⟩
  have : (33 : UInt8).toNat ≤ c.toNat := UInt8.le_iff_toNat_le.1 h1
  exact UInt8.le_iff_toNat_le.2 (by simp at this ⊢; omega)

theorem b64_ok : ∀ c ∈ b64Alphabet ++ b!"=", 33 ≤ c ∧ c < 127 ∧ c ≠ 34 ∧ c ≠ 92 := by decide

theorem key_ne_nil (k : Key) : rfc4648 k.toList ≠ [] := by
  intro h
  have := keyToBase64_rfc k
  rw [h] at this
  have l := congrArg List.length this
  simp [keyToBase64_length] at l

theorem word_key (k : Key) : JsonWord (rfc4648 k.toList) := ⟨key_ne_nil k, fun c hc => b64_ok c (rfc4648_mem _ c hc)⟩

theorem word_optKey (k : Key) (b : Bool) : JsonWord (optKey k b) := by
  cases b
  · show JsonWord b!"(none)"; decide
  · exact word_key k

theorem digit_ok : ∀ c : UInt8, isDigit c = true → 33 ≤ c ∧ c < 127 ∧ c ≠ 34 ∧ c ≠ 92 ∧ c ≠ 44 := by apply forall_u8; decide +kernel
theorem hexdigit_ok : ∀ c : UInt8, isHexDigit c = true → 33 ≤ c ∧ c < 127 ∧ c ≠ 34 ∧ c ≠ 92 ∧ c ≠ 44 := by apply forall_u8; decide +kernel

theorem word_dec (n : Nat) : JsonWord (decimal n) :=
  ⟨(decimal_isDecimal n).1, fun c hc => let h := digit_ok c (decimal_digit n c hc); ⟨h.1, h.2.1, h.2.2.1, h.2.2.2.1⟩⟩

theorem word_mark (n : Nat) : JsonWord (b!"0x" ++ hexadecimal n) := by
  refine ⟨by simp, fun c hc => ?_⟩
  rcases List.mem_append.1 hc with hc | hc
  · exact (by decide : ∀ c ∈ b!"0x", 33 ≤ c ∧ c < 127 ∧ c ≠ 34 ∧ c ≠ 92) c hc
  · have h := hexdigit_ok c ((hexadecimal_isHexNum n).2.1 c hc); exact ⟨h.1, h.2.1, h.2.2.1, h.2.2.2.1⟩

/-! ### The text about a peer -/

/-- A printed member of an object, with its indentation. -/
def body (ind : CStr) (m : CStr × Json × CStr) : CStr := ind ++ b!"\"" ++ m.1 ++ b!"\": " ++ m.2.2

def quoted (s : CStr) : CStr := b!"\"" ++ s ++ b!"\""

def ipOf (T : Texts) (a : AllowedIP) : CStr := T.addr a.addr ++ b!"/" ++ decimal a.cidr.toNat

def opt {α : Type} (b : Bool) (x : α) : List α := if b then [x] else []

def ipsText' (T : Texts) (l : List AllowedIP) : CStr :=
  b!"[" ++ joinWith b!"," (l.map fun a => b!"\n\t\t\t\t\t" ++ quoted (ipOf T a)) ++ b!"\n\t\t\t\t" ++ b!"]"

def peerOpts (T : Texts) (p : Peer) : List (CStr × Json × CStr) :=
  opt p.flags.hasPresharedKey (b!"presharedKey", .str (rfc4648 p.presharedKey.toList), quoted (rfc4648 p.presharedKey.toList)) ++
  opt (p.endpoint ≠ .unset) (b!"endpoint", .str (T.endpoint p.endpoint), quoted (T.endpoint p.endpoint)) ++
  opt (p.handshakeSec ≠ 0) (b!"latestHandshake", .num p.handshakeSec.toNat, decimal p.handshakeSec.toNat) ++
  opt (p.rx ≠ 0) (b!"transferRx", .num p.rx, decimal p.rx) ++
  opt (p.tx ≠ 0) (b!"transferTx", .num p.tx, decimal p.tx) ++
  opt (p.keepalive ≠ 0) (b!"persistentKeepalive", .num p.keepalive.toNat, decimal p.keepalive.toNat)

def peerMembers (T : Texts) (p : Peer) : List (CStr × Json × CStr) := peerOpts T p ++
  [(b!"allowedIps", .arr (p.allowedIPs.map fun a => .str (ipOf T a)), ipsText' T p.allowedIPs)]

def peerText (T : Texts) (p : Peer) : CStr :=
  b!"{" ++ joinWith b!"," ((peerMembers T p).map fun m => b!"\n" ++ body b!"\t\t\t\t" m) ++ b!"\n\t\t\t" ++ b!"}"

/-- The text about the device, and about all devices. -/
def deviceOpts (d : Device) : List (CStr × Json × CStr) :=
  opt d.flags.hasPrivateKey (b!"privateKey", .str (rfc4648 d.privateKey.toList), quoted (rfc4648 d.privateKey.toList)) ++
  opt d.flags.hasPublicKey (b!"publicKey", .str (rfc4648 d.publicKey.toList), quoted (rfc4648 d.publicKey.toList)) ++
  opt (d.listenPort ≠ 0) (b!"listenPort", .num d.listenPort.toNat, decimal d.listenPort.toNat) ++
  opt (d.fwmark ≠ 0) (b!"fwmark", .num d.fwmark.toNat, decimal d.fwmark.toNat)

def deviceMembers (T : Texts) (d : Device) : List (CStr × Json × CStr) := deviceOpts d ++
  [(b!"peers", .obj (d.peers.map (peerJson T)),
    b!"{" ++ joinWith b!"," (d.peers.map fun p => b!"\n" ++ body b!"\t\t\t" (rfc4648 p.publicKey.toList, (peerJson T p).2, peerText T p)) ++ b!"\n\t\t" ++ b!"}")]

def deviceText (T : Texts) (d : Device) : CStr :=
  b!"{" ++ joinWith b!"," ((deviceMembers T d).map fun m => b!"\n" ++ body b!"\t\t" m) ++ b!"\n\t" ++ b!"}"

def devicesText (T : Texts) (ds : List Device) : CStr :=
  b!"{" ++ joinWith b!"," (ds.map fun d => b!"\n" ++ body b!"\t" (d.name, (deviceJson T d).2, deviceText T d)) ++ b!"\n" ++ b!"}"

/-! ### The text is JSON -/

theorem objText' (ind post : CStr) (hpre : JsonWs ind) (hpost : JsonWs post) (ms : List (CStr × Json × CStr))
    (h : ∀ m ∈ ms, JsonChars m.1 ∧ IsJson m.2.1 m.2.2) :
    IsJson (.obj (ms.map fun m => (m.1, m.2.1))) (b!"{" ++ joinWith b!"," (ms.map fun m => b!"\n" ++ body ind m) ++ post ++ b!"}") := by
  have := objText (b!"\n" ++ ind) post (by
    intro c hc
    rcases List.mem_append.1 hc with hc | hc
    · exact (by decide : JsonWs b!"\n") c hc
    · exact hpre c hc) hpost ms h
  simpa only [body, List.append_assoc] using this

theorem chars_ip {T : Texts} (a : AllowedIP) (h : ∀ c ∈ T.addr a.addr, isHexDigit c = true ∨ c = c!":" ∨ c = c!".") :
    JsonWord (ipOf T a) ∧ c!"," ∉ ipOf T a := by
  have key : ∀ c ∈ ipOf T a, 33 ≤ c ∧ c < 127 ∧ c ≠ 34 ∧ c ≠ 92 ∧ c ≠ 44 := by
    intro c hc
    simp only [ipOf, List.mem_append] at hc
    rcases hc with (hc | hc) | hc
    · rcases h c hc with h | rfl | rfl
      · exact hexdigit_ok c h
      · decide
      · decide
    · clear h; revert c; decide
    · exact digit_ok c (decimal_digit _ c hc)
  refine ⟨⟨by simp [ipOf], fun c hc => ?_⟩, fun hm => (key _ hm).2.2.2.2 rfl⟩
  obtain ⟨a, b, c, d, e⟩ := key c hc
  exact ⟨a, b, c, d⟩

theorem opt_map {α β : Type} (b : Bool) (x : α) (f : α → β) : (opt b x).map f = opt b (f x) := by cases b <;> rfl

theorem mem_opt {α : Type} {b : Bool} {x y : α} (h : y ∈ opt b x) : b = true ∧ y = x := by
  cases b
  · simp [opt] at h
  · simpa [opt] using h

theorem opt_eq {α : Type} (P : Prop) [Decidable P] (x : α) : opt (decide (¬ P)) x = if P then [] else [x] := by
  by_cases h : P <;> simp [opt, h]

theorem peer_json {T : Texts} {d : Device} (hd : JsonReady T d) (p : Peer) (hp : p ∈ d.peers) : IsJson (peerJson T p).2 (peerText T p) := by
  have e : (peerJson T p).2 = .obj ((peerMembers T p).map fun m => (m.1, m.2.1)) := by
    simp only [peerJson, peerMembers, peerOpts, List.map_append, opt_map, List.map_cons, List.map_nil, ipOf]
    simp only [ne_eq, opt_eq]
    rfl
  rw [e]
  apply objText' _ _ (by decide) (by decide)
  intro m hm
  simp only [peerMembers, peerOpts, List.mem_append, List.mem_singleton] at hm
  rcases hm with (((((hm | hm) | hm) | hm) | hm) | hm) | rfl
  · obtain ⟨-, rfl⟩ := mem_opt hm
    exact ⟨by dsimp only; decide, .str _ (charsOf (word_key _))⟩
  · obtain ⟨h, rfl⟩ := mem_opt hm
    exact ⟨by dsimp only; decide, .str _ (charsOf (hd.endpoint p hp (by simpa using h)).1)⟩
  · obtain ⟨h, rfl⟩ := mem_opt hm; exact ⟨by dsimp only; decide, .num _⟩
  · obtain ⟨h, rfl⟩ := mem_opt hm; exact ⟨by dsimp only; decide, .num _⟩
  · obtain ⟨h, rfl⟩ := mem_opt hm; exact ⟨by dsimp only; decide, .num _⟩
  · obtain ⟨h, rfl⟩ := mem_opt hm; exact ⟨by dsimp only; decide, .num _⟩
  · refine ⟨by dsimp only; decide, ?_⟩
    have := arrText b!"\n\t\t\t\t\t" b!"\n\t\t\t\t" (by decide) (by decide) (p.allowedIPs.map fun a => (.str (ipOf T a), quoted (ipOf T a))) (by
      intro m hm
      obtain ⟨a, ha, rfl⟩ := List.mem_map.1 hm
      exact .str _ (charsOf (chars_ip a (hd.addr p hp a ha)).1))
    simp only [List.map_map, Function.comp_def] at this
    exact this

theorem device_json {T : Texts} {d : Device} (hd : JsonReady T d) : IsJson (deviceJson T d).2 (deviceText T d) := by
  have e : (deviceJson T d).2 = .obj ((deviceMembers T d).map fun m => (m.1, m.2.1)) := by
    simp only [deviceJson, deviceMembers, deviceOpts, List.map_append, opt_map, List.map_cons, List.map_nil]
    simp only [ne_eq, opt_eq]
    rfl
  rw [e]
  apply objText' _ _ (by decide) (by decide)
  intro m hm
  simp only [deviceMembers, deviceOpts, List.mem_append, List.mem_singleton] at hm
  rcases hm with (((hm | hm) | hm) | hm) | rfl
  · obtain ⟨-, rfl⟩ := mem_opt hm
    exact ⟨by dsimp only; decide, .str _ (charsOf (word_key _))⟩
  · obtain ⟨-, rfl⟩ := mem_opt hm
    exact ⟨by dsimp only; decide, .str _ (charsOf (word_key _))⟩
  · obtain ⟨h, rfl⟩ := mem_opt hm; exact ⟨by dsimp only; decide, .num _⟩
  · obtain ⟨h, rfl⟩ := mem_opt hm; exact ⟨by dsimp only; decide, .num _⟩
  · refine ⟨by dsimp only; decide, ?_⟩
    have := objText' b!"\t\t\t" b!"\n\t\t" (by decide) (by decide) (d.peers.map fun p => (rfc4648 p.publicKey.toList, (peerJson T p).2, peerText T p)) (by
      intro m hm
      obtain ⟨p, hp, rfl⟩ := List.mem_map.1 hm
      exact ⟨charsOf (word_key _), peer_json hd p hp⟩)
    simp only [List.map_map, Function.comp_def] at this
    exact this

theorem devices_json {T : Texts} {ds : List Device} (h : ∀ d ∈ ds, JsonReady T d) : IsJson (devicesJson T ds) (devicesText T ds) := by
  have := objText' b!"\t" b!"\n" (by decide) (by decide) (ds.map fun d => (d.name, (deviceJson T d).2, deviceText T d)) (by
    intro m hm
    obtain ⟨d, hd, rfl⟩ := List.mem_map.1 hm
    exact ⟨charsOf (h d hd).name, device_json (h d hd)⟩)
  simp only [List.map_map, Function.comp_def] at this
  exact this

/-! ### What is printed -/

theorem skip_optKey (k : Key) (b : Bool) : decide (optKey k b = b!"(none)") = !b := by
  cases b
  · rfl
  · simpa [optKey] using key_ne_none k

theorem optKey_true (k : Key) (b : Bool) (h : b = true) : optKey k b = rfc4648 k.toList := by subst h; rfl

theorem dec_zero (n : Nat) : decide (decimal n = b!"0") = decide (n = 0) := by
  have : b!"0" = decimal 0 := by rw [← showDec_eq]; decide
  rw [this]
  by_cases h : n = 0
  · subst h; simp
  · have : decimal n ≠ decimal 0 := fun e => h (decimal_inj e)
    simp [h, this]

theorem listed_last (A : List CStr) (x : CStr) : (listed [] A).1 ++ (listed [] A).2 ++ x = joinWith b!"," ((A ++ [x]).map (b!"\n" ++ ·)) := by
  have := congrArg Prod.fst (emit_listed false x [] A)
  simpa [emit, listed] using this

theorem item_opt (skip b : Bool) (s : CStr) (m : CStr × Json × CStr) (ind : CStr) (hb : skip = !b) (h : b = true → s = body ind m) :
    (if skip then [] else [s]) = (opt b m).map (body ind) := by
  subst hb
  cases b
  · rfl
  · simp [opt, h rfl]

theorem peerPart_eq {T : Texts} {d : Device} (hd : JsonReady T d) (p : Peer) (hp : p ∈ d.peers) (delim : CStr) :
    peerPart delim (peerColumns T p) = some (delim ++ body b!"\t\t\t" (rfc4648 p.publicKey.toList, (peerJson T p).2, peerText T p)) := by
  obtain ⟨n1, n2, n3, n4⟩ := hd.numbers p hp
  have hmod : (p.handshakeSec % 2 ^ 64).toNat = p.handshakeSec.toNat := by rw [Int.emod_eq_of_lt n1 n2]
  have hs0 : p.handshakeSec.toNat = 0 ↔ p.handshakeSec = 0 := by omega
  simp only [peerPart, peerColumns, List.getD_cons_zero, List.getD_cons_succ, hmod]
  rw [← listed_nil, emit_listed,
    item_opt _ p.flags.hasPresharedKey _ (b!"presharedKey", .str (rfc4648 p.presharedKey.toList), quoted (rfc4648 p.presharedKey.toList)) b!"\t\t\t\t"
      (skip_optKey _ _) (by intro h; rw [optKey_true _ _ h]; simp [body, quoted]),
    emit_listed,
    item_opt _ (p.endpoint ≠ .unset) _ (b!"endpoint", .str (T.endpoint p.endpoint), quoted (T.endpoint p.endpoint)) b!"\t\t\t\t"
      (by
        by_cases h : p.endpoint = .unset
        · simp [h]
        · simpa [h] using (hd.endpoint p hp h).2) (by
        intro h
        rw [if_neg (by simpa using h)]
        simp [body, quoted]),
    emitNum_listed _ _ _ _ _ (decimal p.handshakeSec.toNat) (by
      intro h
      rw [dec_zero] at h
      simp only [decide_eq_false_iff_not] at h
      exact number_dec _ (by omega) (by omega)),
    Option.bind_some,
    item_opt _ (p.handshakeSec ≠ 0) _ (b!"latestHandshake", .num p.handshakeSec.toNat, decimal p.handshakeSec.toNat) b!"\t\t\t\t"
      (by rw [dec_zero]; simp [hs0]) (by intro _; simp [body]),
    emitNum_listed _ _ _ _ _ (decimal p.rx) (by
      intro h
      rw [dec_zero] at h
      simp only [decide_eq_false_iff_not] at h
      exact number_dec _ (by omega) (by omega)),
    Option.bind_some,
    item_opt _ (p.rx ≠ 0) _ (b!"transferRx", .num p.rx, decimal p.rx) b!"\t\t\t\t"
      (by rw [dec_zero]; simp) (by intro _; simp [body]),
    emitNum_listed _ _ _ _ _ (decimal p.tx) (by
      intro h
      rw [dec_zero] at h
      simp only [decide_eq_false_iff_not] at h
      exact number_dec _ (by omega) (by omega)),
    Option.bind_some,
    item_opt _ (p.tx ≠ 0) _ (b!"transferTx", .num p.tx, decimal p.tx) b!"\t\t\t\t"
      (by rw [dec_zero]; simp) (by intro _; simp [body]),
    emitNum_listed _ _ _ _ _ (decimal p.keepalive.toNat) (by
      intro h
      simp only [decide_eq_false_iff_not] at h
      have hk : p.keepalive ≠ 0 := fun e => h (if_pos e)
      rw [if_neg hk]
      have := p.keepalive.toNat_lt
      exact number_dec _ (by have : p.keepalive.toNat ≠ 0 := fun e => hk (UInt16.toNat_inj.1 e); omega) (by omega)),
    Option.map_some,
    item_opt _ (p.keepalive ≠ 0) _ (b!"persistentKeepalive", .num p.keepalive.toNat, decimal p.keepalive.toNat) b!"\t\t\t\t"
      (by
        by_cases h : p.keepalive = 0
        · simp [h]
        · simpa [h] using digits_ne_off) (by intro _; simp [body])]
  have hips : (if (if p.allowedIPs = [] then b!"(none)" else joinWith b!"," (p.allowedIPs.map fun a => T.addr a.addr ++ b!"/" ++ decimal a.cidr.toNat)) = b!"(none)" then []
      else ((commaWords (if p.allowedIPs = [] then b!"(none)" else joinWith b!"," (p.allowedIPs.map fun a => T.addr a.addr ++ b!"/" ++ decimal a.cidr.toNat))).foldl
        (fun acc ip => emit false (b!"\t\t\t\t\t\"" ++ ip ++ b!"\"") acc) ([], b!"\n")).1) =
      joinWith b!"," (p.allowedIPs.map fun a => b!"\n\t\t\t\t\t" ++ quoted (ipOf T a)) := by
    by_cases h : p.allowedIPs = []
    · simp [h, joinWith]
    · rw [if_neg h]
      have hw : ∀ a ∈ p.allowedIPs.map fun a => T.addr a.addr ++ b!"/" ++ decimal a.cidr.toNat, c!"," ∉ a ∧ a ≠ [] := by
        intro x hx
        obtain ⟨a, ha, rfl⟩ := List.mem_map.1 hx
        have := chars_ip a (hd.addr p hp a ha)
        exact ⟨this.2, this.1.1⟩
      rw [if_neg, commaWords_join _ (by simpa using h) hw, ← listed_nil, fold_listed]
      · simp [listed, Function.comp_def, quoted, ipOf]
      · intro e
        have := congrArg (fun l => decide (c!"/" ∈ l)) e
        cases hl : p.allowedIPs with
        | nil => exact h hl
        | cons a l =>
          rw [hl] at this
          cases l <;> simp [joinWith] at this
  rw [hips]
  have hm : (peerMembers T p).map (fun m => b!"\n" ++ body b!"\t\t\t\t" m) = ((peerOpts T p).map (body b!"\t\t\t\t") ++
      [body b!"\t\t\t\t" (b!"allowedIps", .arr (p.allowedIPs.map fun a => .str (ipOf T a)), ipsText' T p.allowedIPs)]).map (b!"\n" ++ ·) := by
    rw [peerMembers, List.map_append, List.map_append, List.map_map]; rfl
  simp only [List.nil_append, ← List.map_append]
  rw [body, peerText, hm, peerOpts]
  generalize List.map (body b!"\t\t\t\t") _ = A
  rw [← listed_last]
  simp [body, ipsText', listed, List.append_assoc]

def deviceHead (d : Device) : CStr := b!"\t\"" ++ d.name ++ b!"\": {" ++
  joinWith b!"," (((deviceOpts d).map (body b!"\t\t") ++ [b!"\t\t\"peers\": {"]).map (b!"\n" ++ ·))

theorem devicePart_eq (d : Device) : devicePart d.name (deviceColumns d) = some (deviceHead d) := by
  simp only [devicePart, deviceColumns, List.getD_cons_zero, List.getD_cons_succ]
  rw [← listed_nil, emit_listed,
    item_opt _ d.flags.hasPrivateKey _ (b!"privateKey", .str (rfc4648 d.privateKey.toList), quoted (rfc4648 d.privateKey.toList)) b!"\t\t"
      (skip_optKey _ _) (by intro h; rw [optKey_true _ _ h]; simp [body, quoted]),
    emit_listed,
    item_opt _ d.flags.hasPublicKey _ (b!"publicKey", .str (rfc4648 d.publicKey.toList), quoted (rfc4648 d.publicKey.toList)) b!"\t\t"
      (skip_optKey _ _) (by intro h; rw [optKey_true _ _ h]; simp [body, quoted]),
    emitNum_listed _ _ _ _ _ (decimal d.listenPort.toNat) (by
      intro h
      rw [dec_zero] at h
      simp only [decide_eq_false_iff_not] at h
      have := d.listenPort.toNat_lt
      exact number_dec _ (by omega) (by omega)),
    Option.bind_some,
    item_opt _ (d.listenPort ≠ 0) _ (b!"listenPort", .num d.listenPort.toNat, decimal d.listenPort.toNat) b!"\t\t"
      (by rw [dec_zero]; simp [← UInt16.toNat_inj]) (by intro _; simp [body]),
    emitNum_listed _ _ _ _ _ (decimal d.fwmark.toNat) (by
      intro h
      simp only [decide_eq_false_iff_not] at h
      have hk : d.fwmark ≠ 0 := fun e => h (if_pos e)
      rw [if_neg hk]
      have := d.fwmark.toNat_lt
      exact number_hex _ (by omega)),
    Option.map_some,
    item_opt _ (d.fwmark ≠ 0) _ (b!"fwmark", .num d.fwmark.toNat, decimal d.fwmark.toNat) b!"\t\t"
      (by
        by_cases h : d.fwmark = 0
        · simp [h]
        · simp [h]) (by intro _; simp [body])]
  simp only [List.nil_append, ← List.map_append]
  rw [deviceHead, deviceOpts]
  generalize List.map (body b!"\t\t") _ = A
  rw [← listed_last]
  simp [listed, List.append_assoc]

/-- Texts, the first one after `delim`, the others after `,\n`. -/
def seqOut : CStr → List CStr → CStr
  | _, [] => []
  | delim, a :: l => delim ++ a ++ seqOut b!",\n" l

theorem seqOut_join (a : CStr) (l : List CStr) : b!"\n" ++ a ++ seqOut b!",\n" l = joinWith b!"," ((a :: l).map (b!"\n" ++ ·)) := by
  induction l generalizing a with
  | nil => simp [seqOut, joinWith]
  | cons b l ih =>
    have := ih b
    simp only [List.map_cons, joinWith, seqOut, List.append_assoc] at this ⊢
    rw [← this]
    simp

theorem seqOut_join' (l : List CStr) : seqOut b!"\n" l = joinWith b!"," (l.map (b!"\n" ++ ·)) := by
  cases l with
  | nil => rfl
  | cons a l => exact seqOut_join a l

def peerBody (T : Texts) (p : Peer) : CStr := body b!"\t\t\t" (rfc4648 p.publicKey.toList, (peerJson T p).2, peerText T p)
def deviceBody (T : Texts) (d : Device) : CStr := body b!"\t" (d.name, (deviceJson T d).2, deviceText T d)

theorem deviceBody_eq (T : Texts) (d : Device) : deviceBody T d = deviceHead d ++ seqOut b!"\n" (d.peers.map (peerBody T)) ++ endText := by
  rw [deviceBody, body, deviceText, deviceMembers, deviceHead, seqOut_join']
  simp only [List.map_append, List.map_cons, List.map_nil, List.map_map, join_snoc, Function.comp_def, List.append_assoc, List.map_eq_nil_iff]
  simp [body, endText, peerBody]

theorem peerCols_words {T : Texts} {d : Device} (hd : JsonReady T d) (p : Peer) (hp : p ∈ d.peers) : ∀ c ∈ peerColumns T p, Word c := by
  intro c hc
  apply wordOf
  simp only [peerColumns, List.mem_cons, List.not_mem_nil, or_false] at hc
  rcases hc with rfl | rfl | rfl | rfl | rfl | rfl | rfl | rfl
  · exact word_key _
  · exact word_optKey _ _
  · split
    · decide
    · rename_i h; exact (hd.endpoint p hp h).1
  · split
    · decide
    · rename_i h
      refine ⟨?_, fun c hc => ?_⟩
      · cases hl : p.allowedIPs with
        | nil => exact absurd hl h
        | cons a l => cases l <;> simp [joinWith]
      · rcases mem_joinWith _ _ _ hc with hc | ⟨x, hx, hc⟩
        · exact (by decide : ∀ c ∈ b!",", 33 ≤ c ∧ c < 127 ∧ c ≠ 34 ∧ c ≠ 92) c hc
        · obtain ⟨a, ha, rfl⟩ := List.mem_map.1 hx
          exact (chars_ip a (hd.addr p hp a ha)).1.2 c hc
  · exact word_dec _
  · exact word_dec _
  · exact word_dec _
  · split
    · decide
    · exact word_dec _

theorem deviceCols_words (d : Device) : ∀ c ∈ deviceColumns d, Word c := by
  intro c hc
  apply wordOf
  simp only [deviceColumns, List.mem_cons, List.not_mem_nil, or_false] at hc
  rcases hc with rfl | rfl | rfl | rfl
  · exact word_optKey _ _
  · exact word_optKey _ _
  · exact word_dec _
  · split
    · decide
    · exact word_mark _

def peerRow (T : Texts) (d : Device) (p : Peer) : List UInt8 := d.name ++ 9 :: (joinWith [9] (peerColumns T p) ++ [10])
def deviceRow (d : Device) : List UInt8 := d.name ++ 9 :: (joinWith [9] (deviceColumns d) ++ [10])

theorem dumpOf_rows (T : Texts) (d : Device) : dumpOf T d = deviceRow d ++ d.peers.flatMap (peerRow T d) := by
  simp only [dumpOf, table, dumpRows, if_true, List.map_cons, unlines_cons, List.map_map, unlines_map]
  have e : ∀ l : List CStr, l ≠ [] → joinWith [9] (d.name :: l) = d.name ++ 9 :: joinWith [9] l := by
    intro l hl
    cases l with
    | nil => exact absurd rfl hl
    | cons a l => simp [joinWith]
  rw [e _ (by simp [deviceColumns])]
  congr 1
  · simp [deviceRow]
  · congr 1
    funext p
    simp only [Function.comp]
    rw [e _ (by simp [peerColumns])]
    simp [peerRow]

theorem loop_peers {T : Texts} {d : Device} (hd : JsonReady T d) (ps : List Peer) (hps : ∀ p ∈ ps, p ∈ d.peers) (fuel : Nat) (fin delim : CStr)
    (rest : List UInt8) :
    loop (ps.length + fuel) d.name fin delim (ps.flatMap (peerRow T d) ++ rest) =
      (loop fuel d.name fin (if ps = [] then delim else b!",\n") rest).map fun r => seqOut delim (ps.map (peerBody T)) ++ r := by
  induction ps generalizing delim with
  | nil => simp [seqOut]
  | cons p ps ih =>
    have hp := hps p (by simp)
    have e : (p :: ps).flatMap (peerRow T d) ++ rest =
        d.name ++ 9 :: (joinWith [9] (peerColumns T p) ++ 10 :: (ps.flatMap (peerRow T d) ++ rest)) := by
      simp [peerRow]
    rw [e, List.length_cons, Nat.add_right_comm, loop, readTab_word (wordOf hd.name)]
    simp only [ne_eq, not_true_eq_false, if_false]
    have hv := readVars_words (peerColumns T p) (peerCols_words hd p hp) (ps.flatMap (peerRow T d) ++ rest)
    have hl : (peerColumns T p).length = 8 := rfl
    rw [hl] at hv
    rw [hv, peerPart_eq hd p hp, Option.bind_some, ih (fun q hq => hps q (by simp [hq]))]
    simp only [List.map_cons, seqOut, Option.map_map, Function.comp_def, peerBody, List.append_assoc, reduceCtorEq, if_false]
    by_cases h : ps = [] <;> simp [h]

/-- What is printed about the devices that are left. -/
def devOut (T : Texts) : CStr → CStr → List Device → CStr
  | _, fin, [] => fin ++ b!"\n}\n"
  | last, fin, d :: ds => (if last = [] then b!"\n" else fin ++ b!",\n") ++ deviceHead d ++ seqOut b!"\n" (d.peers.map (peerBody T)) ++ devOut T d.name endText ds

theorem readTab_nil : readTab [] = none := rfl

theorem loop_devices {T : Texts} (ds : List Device) (hds : ∀ d ∈ ds, JsonReady T d) (hn : (ds.map (·.name)).Nodup) (fuel : Nat) (last fin delim : CStr)
    (hl : ∀ d ∈ ds, d.name ≠ last) (hf : (ds.flatMap (dumpOf T)).length < fuel) :
    loop fuel last fin delim (ds.flatMap (dumpOf T)) = some (devOut T last fin ds) := by
  induction ds generalizing fuel last fin delim with
  | nil =>
    cases fuel with
    | zero => simp at hf
    | succ f => simp [loop, readTab_nil, devOut]
  | cons d ds ih =>
    have hd := hds d (by simp)
    simp only [List.map_cons, List.nodup_cons] at hn
    have hlen : d.peers.length + (ds.flatMap (dumpOf T)).length + 1 < fuel := by
      have h1 : (dumpOf T d).length ≥ d.peers.length + 1 := by
        have h2 : ∀ ps : List Peer, ps.length ≤ (ps.flatMap (peerRow T d)).length := by
          intro ps
          induction ps with
          | nil => simp
          | cons p ps ih => simp only [List.flatMap_cons, List.length_append, List.length_cons, peerRow] at ih ⊢; omega
        have := h2 d.peers
        rw [dumpOf_rows]
        simp only [List.length_append, deviceRow, List.length_cons]
        omega
      simp only [List.flatMap_cons, List.length_append] at hf
      omega
    obtain ⟨f, rfl⟩ : ∃ f, fuel = d.peers.length + f + 1 := ⟨fuel - d.peers.length - 1, by omega⟩
    have e : (d :: ds).flatMap (dumpOf T) =
        d.name ++ 9 :: (joinWith [9] (deviceColumns d) ++ 10 :: (d.peers.flatMap (peerRow T d) ++ ds.flatMap (dumpOf T))) := by
      rw [List.flatMap_cons, dumpOf_rows]; simp [deviceRow]
    rw [e, loop, readTab_word (wordOf hd.name)]
    simp only
    rw [if_pos (hl d (by simp))]
    have hv := readVars_words (deviceColumns d) (deviceCols_words d) (d.peers.flatMap (peerRow T d) ++ ds.flatMap (dumpOf T))
    have hl4 : (deviceColumns d).length = 4 := rfl
    rw [hl4] at hv
    rw [hv]
    simp only
    rw [devicePart_eq, Option.bind_some, loop_peers hd d.peers (fun _ h => h),
      ih (fun x hx => hds x (by simp [hx])) hn.2 f d.name endText _ (by
        intro x hx hc
        exact hn.1 (hc ▸ List.mem_map_of_mem hx)) (by omega)]
    simp only [Option.map_some, devOut, List.append_assoc]

theorem devOut_end (T : Texts) (ds : List Device) (hds : ∀ d ∈ ds, JsonReady T d) (last : CStr) (hl : last ≠ []) :
    devOut T last endText ds = endText ++ seqOut b!",\n" (ds.map (deviceBody T)) ++ b!"\n}\n" := by
  induction ds generalizing last with
  | nil => simp [devOut, seqOut]
  | cons d ds ih =>
    rw [devOut, if_neg hl, ih (fun x hx => hds x (by simp [hx])) _ (hds d (by simp)).name.1]
    simp only [List.map_cons, seqOut, deviceBody_eq, List.append_assoc]

theorem run_devices {T : Texts} (ds : List Device) (hds : ∀ d ∈ ds, JsonReady T d) (hn : (ds.map (·.name)).Nodup) :
    run (ds.flatMap (dumpOf T)) = some (devicesText T ds ++ b!"\n") := by
  rw [run, loop_devices ds hds hn _ _ _ _ (fun d hd => (hds d hd).name.1) (by omega), Option.map_some]
  cases ds with
  | nil => simp [devOut, devicesText, joinWith]
  | cons d ds =>
    rw [devOut, if_pos rfl, devOut_end T ds (fun x hx => hds x (by simp [hx])) _ (hds d (by simp)).name.1]
    have := seqOut_join' ((d :: ds).map (deviceBody T))
    rw [List.map_map] at this
    rw [devicesText, show (fun d => b!"\n" ++ body b!"\t" (d.name, (deviceJson T d).2, deviceText T d)) = (b!"\n" ++ ·) ∘ deviceBody T from rfl, ← this]
    simp only [List.map_cons, seqOut, deviceBody_eq, List.append_assoc]
    simp

end WG.WgJson
