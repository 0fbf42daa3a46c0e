import Verif.Proof.Dump
import Verif.Proof.Sync
import Verif.Spec.Showconf
/-! showconf output read by setconf (C38). -/
namespace WG
open Spec

/-- The text of a setting line. -/
def settingText (name v : List UInt8) : List UInt8 := name ++ b!" = " ++ v

theorem _root_.WG.Spec.Bare.append {a b : List UInt8} (h : Bare a) (h' : Bare b) : Bare (a ++ b) := by
  intro c hc
  rcases List.mem_append.1 hc with hc | hc
  · exact h c hc
  · exact h' c hc

instance (s : List UInt8) : Decidable (Bare s) := by unfold Bare; infer_instance

theorem filter_bare {s : List UInt8} (h : Bare s) : s.filter (fun c => !isSpace c) = s := by
  rw [List.filter_eq_self]; intro c hc; simp [(h c hc).1]

/-- A text of bare pieces and white space. -/
theorem takeWhile_hash {s : List UInt8} (h : c!"#" ∉ s) : s.takeWhile (· ≠ c!"#") = s := takeWhile_all _ _ fun c hc => by
  simp only [ne_eq, decide_not, Bool.not_eq_eq_eq_not, Bool.not_true, decide_eq_false_iff_not]; rintro rfl; exact h hc

theorem cleaned_eq {s : List UInt8} (h : c!"#" ∉ s) : cleaned s = s.filter fun c => !isSpace c := by rw [cleaned, takeWhile_hash h]

theorem _root_.WG.Spec.Bare.hash {s : List UInt8} (h : Bare s) : c!"#" ∉ s := fun hm => (h _ hm).2.1 rfl
theorem _root_.WG.Spec.Bare.nul {s : List UInt8} (h : Bare s) : (0 : UInt8) ∉ s := fun hm => (h _ hm).2.2 rfl

/-- `name = v` and a line feed, cleaned. -/
theorem cleaned_setting (name v w : List UInt8) (hn : Bare name) (hv : c!"#" ∉ v) (hw : v.filter (fun c => !isSpace c) = w) :
    cleaned (settingText name v ++ [10]) = name ++ c!"=" :: w := by
  rw [cleaned_eq]
  · simp only [settingText, List.filter_append, filter_bare hn, hw]
    rw [show (b!" = ").filter (fun c => !isSpace c) = b!"=" from by decide, show ([10] : List UInt8).filter (fun c => !isSpace c) = [] from by decide]
    simp
  · intro hm
    simp only [settingText, List.mem_append] at hm
    rcases hm with ((hm | hm) | hm) | hm
    · exact hn.hash hm
    · revert hm; decide
    · exact hv hm
    · revert hm; decide

theorem digit_bare : ∀ c : UInt8, isDigit c = true → isSpace c = false ∧ c ≠ c!"#" ∧ c ≠ 0 := by apply forall_u8; decide +kernel
theorem hexDigit_bare : ∀ c : UInt8, isHexDigit c = true → isSpace c = false ∧ c ≠ c!"#" ∧ c ≠ 0 := by apply forall_u8; decide +kernel

theorem bare_digits {s : List UInt8} (h : ∀ c ∈ s, isDigit c = true) : Bare s := fun c hc => digit_bare c (h c hc)

theorem bare_hex {s : List UInt8} (h : ∀ c ∈ s, isHexDigit c = true) : Bare s := fun c hc => hexDigit_bare c (h c hc)

theorem bare_key (k : Key) : Bare (rfc4648 k.toList) := by
  intro c hc
  have := rfc4648_mem _ c hc
  exact (by decide : ∀ c ∈ b64Alphabet ++ b!"=", isSpace c = false ∧ c ≠ c!"#" ∧ c ≠ 0) c this

theorem rfc_ne_nil (k : Key) : rfc4648 k.toList ≠ [] := by
  rw [← keyToBase64_rfc]; intro h; have := keyToBase64_length k; rw [h] at this; simp at this

/-! ### The text as lines -/

/-- The endpoint text of showconf. -/
def epText (o : OutEnv) (e : Endpoint) : Option (List UInt8) :=
  match e, o.nameinfo e with
  | .unset, _ => none
  | _, none => none
  | .in6 .., some (h, s) => some (hostPort h s)
  | .in4 .., some (h, s) => some (h ++ c!":" :: s)

/-- The setting lines of a peer. -/
def peerBody (o : OutEnv) (p : Peer) : List (List UInt8) :=
  [settingText b!"PublicKey" (rfc4648 p.publicKey.toList)] ++
  (if p.flags.hasPresharedKey then [settingText b!"PresharedKey" (rfc4648 p.presharedKey.toList)] else []) ++
  (if p.allowedIPs ≠ [] then [settingText b!"AllowedIPs" (confIPs o p.allowedIPs)] else []) ++
  ((epText o p.endpoint).toList.map (settingText b!"Endpoint")) ++
  (if p.keepalive ≠ 0 then [settingText b!"PersistentKeepalive" (decimal p.keepalive.toNat)] else [])

def peerLinesOf (o : OutEnv) (p : Peer) : List (List UInt8) := b!"[Peer]" :: peerBody o p

/-- Blocks with an empty line between. -/
def blocks : List (List (List UInt8)) → List (List UInt8)
  | [] => []
  | [b] => b
  | b :: l => b ++ [[]] ++ blocks l

def devBody (d : Device) : List (List UInt8) :=
  (if d.listenPort ≠ 0 then [settingText b!"ListenPort" (decimal d.listenPort.toNat)] else []) ++
  (if d.fwmark ≠ 0 then [settingText b!"FwMark" (b!"0x" ++ hexadecimal d.fwmark.toNat)] else []) ++
  (if d.flags.hasPrivateKey then [settingText b!"PrivateKey" (rfc4648 d.privateKey.toList)] else [])

def confLines (o : OutEnv) (d : Device) : List (List UInt8) :=
  b!"[Interface]" :: devBody d ++ [[]] ++ blocks (d.peers.map (peerLinesOf o))

theorem confEndpoint_eq (o : OutEnv) (e : Endpoint) : confEndpoint o e = unlines ((epText o e).toList.map (settingText b!"Endpoint")) := by
  cases e with
  | unset => rfl
  | in4 a p =>
    simp only [confEndpoint, epText]
    cases o.nameinfo (.in4 a p) with
    | none => rfl
    | some hs => simp [unlines_one, settingText]
  | in6 a p fl sc =>
    simp only [confEndpoint, epText]
    cases o.nameinfo (.in6 a p fl sc) with
    | none => rfl
    | some hs =>
      simp only [Option.toList_some, List.map_cons, List.map_nil, unlines_one, settingText, hostPort, List.contains_iff_mem]
      split <;> simp

theorem unlines_nil : unlines [] = [] := rfl

theorem confPeer_eq (o : OutEnv) (p : Peer) : confPeer o p = unlines (peerLinesOf o p) := by
  simp only [confPeer, peerLinesOf, peerBody, unlines_cons, unlines_append, unlines_ite, unlines_nil, List.append_nil, keyToBase64_rfc, showDec_eq, confEndpoint_eq]
  simp only [settingText]
  simp only [List.append_assoc, List.cons_append, List.nil_append]

theorem confPeers_eq (o : OutEnv) (ps : List Peer) : confPeers o ps = unlines (blocks (ps.map (peerLinesOf o))) := by
  induction ps with
  | nil => rfl
  | cons p ps ih =>
    cases ps with
    | nil => simp only [confPeers, List.map_cons, List.map_nil, blocks, confPeer_eq]
    | cons q ps =>
      simp only [confPeers, List.map_cons, blocks, confPeer_eq, unlines_append] at ih ⊢
      rw [ih]; simp [unlines]

theorem confText_eq (o : OutEnv) (d : Device) : confText o d = unlines (confLines o d) := by
  simp only [confText, confLines, devBody, List.cons_append, unlines_cons, unlines_append, unlines_ite, unlines_nil, List.append_nil, keyToBase64_rfc, showDec_eq, showHex_eq, confPeers_eq]
  simp only [settingText]
  simp only [List.append_assoc, List.cons_append, List.nil_append]

/-! ### What the lines say -/

/-- The line is clean: no line feed, NUL or `#`. -/
def CleanLine (l : List UInt8) : Prop := (10 : UInt8) ∉ l ∧ (0 : UInt8) ∉ l ∧ c!"#" ∉ l

theorem _root_.WG.Spec.Bare.clean {s : List UInt8} (h : Bare s) : CleanLine s :=
  ⟨fun hm => absurd (h _ hm).1 (by decide), h.nul, h.hash⟩

theorem CleanLine.append {a b : List UInt8} (h : CleanLine a) (h' : CleanLine b) : CleanLine (a ++ b) :=
  ⟨fun hm => (List.mem_append.1 hm).elim h.1 h'.1, fun hm => (List.mem_append.1 hm).elim h.2.1 h'.2.1, fun hm => (List.mem_append.1 hm).elim h.2.2 h'.2.2⟩

instance (s : List UInt8) : Decidable (CleanLine s) := by unfold CleanLine; infer_instance

theorem clean_setting {name v : List UInt8} (hn : CleanLine name) (hv : CleanLine v) : CleanLine (settingText name v) :=
  (hn.append (b := b!" = ") (by decide)).append hv

section
variable {o : OutEnv} {pton4 : List UInt8 → Option IP4} {pton6 : List UInt8 → Option IP6} {portOf : List UInt8 → Option UInt16}
  {resolves : List UInt8 → List UInt8 → Endpoint → Prop}

/-- The cleaned allowed IPs: entries joined by commas. -/
theorem confIPs_clean (hR : ReadsBack (ntopAddr o) pton4 pton6 portOf) (l : List AllowedIP) :
    CleanLine (confIPs o l) ∧ (confIPs o l).filter (fun c => !isSpace c) = commaJoin (l.map fun a => ntopAddr o a.addr ++ c!"/" :: decimal a.cidr.toNat) := by
  have entry : ∀ a : AllowedIP, Bare (ntopAddr o a.addr ++ c!"/" :: decimal a.cidr.toNat) := fun a =>
    (hR.addr a.addr).1.append (Bare.append (a := b!"/") (by decide) (bare_digits (decimal_digit _)))
  induction l with
  | nil => exact ⟨show CleanLine [] by decide, rfl⟩
  | cons a l ih =>
    cases l with
    | nil =>
      simp only [confIPs, List.map_cons, List.map_nil, commaJoin, showDec_eq]
      exact ⟨(entry a).clean, filter_bare (entry a)⟩
    | cons b l =>
      rw [show confIPs o (a :: b :: l) = (ntopAddr o a.addr ++ c!"/" :: decimal a.cidr.toNat) ++ b!", " ++ confIPs o (b :: l) from by
        simp [confIPs, showDec_eq]]
      refine ⟨((entry a).clean.append (b := b!", ") (by decide)).append ih.1, ?_⟩
      rw [List.filter_append, List.filter_append, filter_bare (entry a), ih.2,
        show (b!", ").filter (fun c => !isSpace c) = b!"," from by decide]
      simp [commaJoin]

theorem ips_value (hR : ReadsBack (ntopAddr o) pton4 pton6 portOf) (l : List AllowedIP) (hl : l ≠ [])
    (hb : ∀ a ∈ l, a.cidr.toNat ≤ addrBits a.addr) :
    commaJoin (l.map fun a => ntopAddr o a.addr ++ c!"/" :: decimal a.cidr.toNat) ≠ [] ∧
    IsAllowedIPs pton4 pton6 (commaJoin (l.map fun a => ntopAddr o a.addr ++ c!"/" :: decimal a.cidr.toNat)) l := by
  have hne : commaJoin (l.map fun a => ntopAddr o a.addr ++ c!"/" :: decimal a.cidr.toNat) ≠ [] := by
    cases l with
    | nil => exact absurd rfl hl
    | cons a l => cases l <;> simp [commaJoin]
  refine ⟨hne, .inr ⟨hne, _, by simpa using hl, ?_, rfl, ?_⟩⟩
  · intro e he
    obtain ⟨a, -, rfl⟩ := List.mem_map.1 he
    intro hm
    rcases List.mem_append.1 hm with hm | hm
    · exact (hR.addr _).2.2.1 hm
    · rcases List.mem_cons.1 hm with hm | hm
      · exact absurd hm (by decide)
      · exact (digit_sep (decimal_digit _ _ hm)).1 rfl
  · rw [List.forall₂_map_left_iff]
    have : ∀ l' : List AllowedIP, (∀ a ∈ l', a ∈ l) → List.Forall₂ (fun a c => IsAllowedIP pton4 pton6 (ntopAddr o a.addr ++ c!"/" :: decimal a.cidr.toNat) c) l' l' := by
      intro l'
      induction l' with
      | nil => intro _; exact .nil
      | cons a l' ih =>
        intro h
        refine .cons ⟨_, (hR.addr a.addr).2.1, (hR.addr a.addr).2.2.2, .inr ⟨_, _, rfl, decimal_isDecimal _, hb a (h a (by simp)), rfl⟩⟩ (ih fun x hx => h x (by simp [hx]))
    exact this l fun _ h => h

theorem ep_value {e : Endpoint} (he : EndpointReadsBack o.nameinfo resolves e) (hu : e ≠ .unset) :
    ∃ t h s, epText o e = some t ∧ Bare t ∧ t ≠ [] ∧ IsEndpointText t h s ∧ resolves h s e := by
  obtain ⟨h, s, h1, h2, h3, h4, h5, h6, h7, h8, h9⟩ := he
  have hc : Bare (h ++ c!":" :: s) := h2.append (Bare.append (a := b!":") (by decide) h3)
  have plain : IsEndpointText (h ++ c!":" :: s) h s := by
    refine ⟨h4, .inr ⟨?_, rfl, h5⟩⟩
    cases h with
    | nil => simp
    | cons c t => simpa using h7
  cases e with
  | unset => exact absurd rfl hu
  | in4 a p => exact ⟨_, h, s, by simp only [epText, h1], hc, by simp, plain, h9⟩
  | in6 a p fl sc =>
    refine ⟨_, h, s, by simp only [epText, h1]; rfl, ?_, ?_, ?_, h9⟩
    · rw [hostPort]; split
      · have := (Bare.append (a := b!"[") (by decide) h2).append (Bare.append (a := b!"]:") (by decide) h3)
        simpa using this
      · exact hc
    · rw [hostPort]; split <;> simp
    · rw [hostPort]; split
      · exact ⟨h4, .inl ⟨by simp, h6⟩⟩
      · exact plain

/-- The settings the peer lines say. -/
def peerSettings (p : Peer) : List PeerSetting :=
  [.publicKey p.publicKey] ++ (if p.flags.hasPresharedKey then [.presharedKey p.presharedKey] else []) ++
  (if p.allowedIPs ≠ [] then [.allowedIPs p.allowedIPs] else []) ++ (if p.endpoint ≠ .unset then [.endpoint p.endpoint] else []) ++
  (if p.keepalive ≠ 0 then [.keepalive p.keepalive] else [])

def devSettingsOf (d : Device) : List DevSetting :=
  (if d.listenPort ≠ 0 then [.listenPort d.listenPort] else []) ++ (if d.fwmark ≠ 0 then [.fwmark d.fwmark] else []) ++
  (if d.flags.hasPrivateKey then [.privateKey d.privateKey] else [])

/-- Each line is clean, not blank, and its cleaned text says the setting. -/
def LineSays {α : Type} (Says : List UInt8 → α → Prop) (l : List UInt8) (s : α) : Prop :=
  CleanLine l ∧ cleaned (l ++ [10]) ≠ [] ∧ Says (cleaned (l ++ [10])) s

theorem forall2_ite {α β : Type} {R : α → β → Prop} {c : Prop} [Decidable c] {a : α} {b : β} (h : c → R a b) :
    List.Forall₂ R (if c then [a] else []) (if c then [b] else []) := by
  split
  · exact .cons (h (by assumption)) .nil
  · exact .nil

theorem setting_of {name w : List UInt8} (lname : List UInt8) (h : name.map lower = lname) (hw : w ≠ []) : IsSetting (name ++ c!"=" :: w) lname w :=
  ⟨hw, name, h, rfl⟩

theorem says_of {α : Type} {Says : List UInt8 → α → Prop} {name v w : List UInt8} {s : α} (hn : Bare name) (hv : CleanLine v)
    (hw : v.filter (fun c => !isSpace c) = w) (h : Says (name ++ c!"=" :: w) s) : LineSays Says (settingText name v) s := by
  have e := cleaned_setting name v w hn hv.2.2 hw
  exact ⟨clean_setting hn.clean hv, by rw [e]; simp, by rw [e]; exact h⟩

theorem peerBody_says (hR : ReadsBack (ntopAddr o) pton4 pton6 portOf) (p : Peer)
    (hE : p.endpoint ≠ .unset → EndpointReadsBack o.nameinfo resolves p.endpoint) (hb : ∀ a ∈ p.allowedIPs, a.cidr.toNat ≤ addrBits a.addr) :
    List.Forall₂ (LineSays (PeerLine (docSyntax portOf pton4 pton6 resolves))) (peerBody o p) (peerSettings p) := by
  refine forall2_append (forall2_append (forall2_append (forall2_append (.cons ?_ .nil) (forall2_ite fun _ => ?_)) (forall2_ite fun h => ?_)) ?_) (forall2_ite fun h => ?_)
  · exact says_of (by decide) (bare_key _).clean (filter_bare (bare_key _)) (.publicKey (setting_of _ (by decide) (rfc_ne_nil _)) rfl)
  · exact says_of (by decide) (bare_key _).clean (filter_bare (bare_key _)) (.presharedKey (setting_of _ (by decide) (rfc_ne_nil _)) rfl)
  · obtain ⟨h1, h2⟩ := confIPs_clean hR p.allowedIPs
    obtain ⟨h3, h4⟩ := ips_value hR _ h hb
    exact says_of (by decide) h1 h2 (.allowedIPs (setting_of _ (by decide) h3) h4)
  · by_cases hu : p.endpoint = .unset
    · rw [hu]; exact .nil
    · rw [if_pos hu]
      obtain ⟨t, h, s, h1, h2, h3, h4, h5⟩ := ep_value (hE hu) hu
      rw [h1]
      exact .cons (says_of (by decide) h2.clean (filter_bare h2) (.endpoint (setting_of _ (by decide) h3) ⟨hu, h, s, h4, h5⟩)) .nil
  · have hd := bare_digits (decimal_digit p.keepalive.toNat)
    have hlt := p.keepalive.toNat_lt
    exact says_of (by decide) hd.clean (filter_bare hd) (.keepalive (setting_of _ (by decide) (decimal_isDecimal _).1) (.inr ⟨decimal_isDecimal _, by omega⟩))

theorem devBody_says (hR : ReadsBack (ntopAddr o) pton4 pton6 portOf) (d : Device) :
    List.Forall₂ (LineSays (DevLine (docSyntax portOf pton4 pton6 resolves))) (devBody d) (devSettingsOf d) := by
  refine forall2_append (forall2_append (forall2_ite fun _ => ?_) (forall2_ite fun _ => ?_)) (forall2_ite fun h => ?_)
  · have hd := bare_digits (decimal_digit d.listenPort.toNat)
    exact says_of (by decide) hd.clean (filter_bare hd) (.listenPort (setting_of _ (by decide) (decimal_isDecimal _).1) ⟨(decimal_isDecimal _).1, hR.port _⟩)
  · have hd : Bare (b!"0x" ++ hexadecimal d.fwmark.toNat) := Bare.append (by decide) (bare_hex (hexadecimal_isHexNum _).2.1)
    have hlt := d.fwmark.toNat_lt
    exact says_of (by decide) hd.clean (filter_bare hd) (.fwmark (setting_of _ (by decide) (by simp)) (.inr ⟨by omega, .inr ⟨_, rfl, hexadecimal_isHexNum _⟩⟩))
  · exact says_of (by decide) (bare_key _).clean (filter_bare (bare_key _)) (.privateKey (setting_of _ (by decide) (rfc_ne_nil _)) rfl)

/-- Cleaned nonblank lines of a block. -/
def cleanBlock (ls : List (List UInt8)) : List (List UInt8) := (ls.map fun l => cleaned (l ++ [10])).filter (· ≠ [])

theorem cleanBlock_append (a b : List (List UInt8)) : cleanBlock (a ++ b) = cleanBlock a ++ cleanBlock b := by simp [cleanBlock]

theorem cleanBlock_blank : cleanBlock [[]] = [] := by decide

theorem cleanBlock_blocks (bs : List (List (List UInt8))) : cleanBlock (blocks bs) = (bs.map cleanBlock).flatten := by
  induction bs with
  | nil => rfl
  | cons b bs ih =>
    cases bs with
    | nil => simp [blocks]
    | cons c bs =>
      rw [show blocks (b :: c :: bs) = b ++ [[]] ++ blocks (c :: bs) from rfl, cleanBlock_append, cleanBlock_append, cleanBlock_blank, ih]
      simp

theorem cleanBlock_says {α : Type} {Says : List UInt8 → α → Prop} {ls : List (List UInt8)} {ss : List α} (h : List.Forall₂ (LineSays Says) ls ss) :
    List.Forall₂ Says (cleanBlock ls) ss ∧ ∀ l ∈ ls, CleanLine l := by
  induction h with
  | nil => exact ⟨.nil, by simp⟩
  | @cons l s ls ss h _ ih =>
    refine ⟨?_, ?_⟩
    · simp only [cleanBlock, List.map_cons] at ih ⊢
      rw [List.filter_cons_of_pos (by simpa using h.2.1)]
      exact .cons h.2.2 ih.1
    · intro x hx
      rcases List.mem_cons.1 hx with rfl | hx
      · exact h.1
      · exact ih.2 x hx

theorem confLines_clean (hR : ReadsBack (ntopAddr o) pton4 pton6 portOf) (d : Device)
    (hE : ∀ p ∈ d.peers, p.endpoint ≠ .unset → EndpointReadsBack o.nameinfo resolves p.endpoint)
    (hb : ∀ p ∈ d.peers, ∀ a ∈ p.allowedIPs, a.cidr.toNat ≤ addrBits a.addr) : ∀ l ∈ confLines o d, CleanLine l := by
  have hdev := cleanBlock_says (devBody_says (resolves := resolves) hR d)
  have hpeer := fun p (hp : p ∈ d.peers) => cleanBlock_says (peerBody_says hR p (hE p hp) (hb p hp))
  intro l hl
  simp only [confLines, List.cons_append, List.mem_cons, List.mem_append] at hl
  rcases hl with rfl | (hl | hl) | hl
  · decide
  · exact hdev.2 l hl
  · simp only [List.not_mem_nil, or_false] at hl; subst hl; decide
  · have : ∀ ps : List Peer, (∀ p ∈ ps, p ∈ d.peers) → l ∈ blocks (ps.map (peerLinesOf o)) → CleanLine l := by
      intro ps
      have one : ∀ p ∈ d.peers, l ∈ peerLinesOf o p → CleanLine l := by
        intro p hp hl
        rcases List.mem_cons.1 hl with rfl | hl
        · decide
        · exact (hpeer p hp).2 l hl
      induction ps with
      | nil => intro _ h; simp [blocks] at h
      | cons p ps ih =>
        intro hm h
        cases ps with
        | nil => exact one p (hm p (by simp)) h
        | cons q ps =>
          simp only [List.map_cons, blocks, List.mem_append, List.mem_singleton] at h
          rcases h with (h | h) | h
          · exact one p (hm p (by simp)) h
          · subst h; decide
          · exact ih (fun x hx => hm x (by simp [hx])) h
    exact this _ (fun _ h => h) hl

theorem confLines_say (hR : ReadsBack (ntopAddr o) pton4 pton6 portOf) (d : Device)
    (hE : ∀ p ∈ d.peers, p.endpoint ≠ .unset → EndpointReadsBack o.nameinfo resolves p.endpoint)
    (hb : ∀ p ∈ d.peers, ∀ a ∈ p.allowedIPs, a.cidr.toNat ≤ addrBits a.addr) :
    FileSays (docSyntax portOf pton4 pton6 resolves) ((fileLines (confText o d)).map beforeNul)
      (.interface (devSettingsOf d) :: d.peers.map fun p => .peer (peerSettings p)) := by
  have hdev := cleanBlock_says (devBody_says (resolves := resolves) hR d)
  have hpeer := fun p (hp : p ∈ d.peers) => cleanBlock_says (peerBody_says hR p (hE p hp) (hb p hp))
  have hclean := confLines_clean hR d hE hb
  have hlines : (fileLines (confText o d)).map beforeNul = (confLines o d).map (· ++ [10]) := by
    rw [confText_eq, fileLines_unlines _ fun l hl => (hclean l hl).1]
    rw [List.map_map]
    apply List.map_congr_left
    intro l hl
    simp only [Function.comp, beforeNul]
    apply takeWhile_all
    intro c hc
    simp only [ne_eq, decide_not, Bool.not_eq_eq_eq_not, Bool.not_true, decide_eq_false_iff_not]
    rintro rfl
    rcases List.mem_append.1 hc with hc | hc
    · exact (hclean l hl).2.1 hc
    · simp at hc
  refine ⟨(b!"[Interface]" :: cleanBlock (devBody d)) :: d.peers.map fun p => b!"[Peer]" :: cleanBlock (peerBody o p), ?_, ?_⟩
  · rw [hlines, List.map_map]
    show cleanBlock (confLines o d) = _
    have hp : cleanBlock [b!"[Peer]"] = [b!"[Peer]"] := by decide
    have hi : cleanBlock [b!"[Interface]"] = [b!"[Interface]"] := by decide
    have hpl : ∀ p, cleanBlock (peerLinesOf o p) = b!"[Peer]" :: cleanBlock (peerBody o p) := by
      intro p
      rw [show peerLinesOf o p = [b!"[Peer]"] ++ peerBody o p from rfl, cleanBlock_append, hp]; rfl
    rw [show confLines o d = [b!"[Interface]"] ++ devBody d ++ [[]] ++ blocks (d.peers.map (peerLinesOf o)) from rfl,
      cleanBlock_append, cleanBlock_append, cleanBlock_append, cleanBlock_blank, hi, cleanBlock_blocks, List.map_map]
    simp [Function.comp_def, hpl]
  · refine .cons (.interface (by unfold EqNoCase; decide) hdev.1) ?_
    rw [List.forall₂_map_left_iff, List.forall₂_map_right_iff]
    have : ∀ ps : List Peer, (∀ p ∈ ps, p ∈ d.peers) → List.Forall₂ (fun a c => SectionSays (docSyntax portOf pton4 pton6 resolves)
        (b!"[Peer]" :: cleanBlock (peerBody o a)) (.peer (peerSettings c))) ps ps := by
      intro ps
      induction ps with
      | nil => intro _; exact .nil
      | cons p ps ih => intro h; exact .cons (.peer (by unfold EqNoCase; decide) (hpeer p (h p (by simp))).1) (ih fun x hx => h x (by simp [hx]))
    exact this _ fun _ h => h

end

theorem filterMap_ite {α β : Type} {c : Prop} [Decidable c] (a : α) (f : α → Option β) :
    (if c then [a] else []).filterMap f = if c then (f a).toList else [] := by
  split
  · simp [List.filterMap_cons]; cases f a <;> rfl
  · rfl

theorem peerMeaning_eq (p : Peer) : peerMeaning (peerSettings p) = Peer.asRequest p := by
  simp only [peerMeaning, peerSettings, Peer.asRequest, List.filterMap_append, filterMap_ite, List.flatMap_append]
  by_cases h1 : p.flags.hasPresharedKey <;> by_cases h2 : p.allowedIPs = [] <;> by_cases h3 : p.endpoint = .unset <;> by_cases h4 : p.keepalive = 0 <;>
    simp [h1, h2, h3, h4, lastOr, PeerSetting.pub?, PeerSetting.psk?, PeerSetting.endpoint?, PeerSetting.keepalive?, PeerSetting.ips]

theorem fileMeaning_eq (d : Device) :
    fileMeaning false (.interface (devSettingsOf d) :: d.peers.map fun p => .peer (peerSettings p)) = Device.asRequest d := by
  have hs : devSettings (.interface (devSettingsOf d) :: d.peers.map fun p => .peer (peerSettings p)) = devSettingsOf d := by
    simp [devSettings, List.flatMap_map]
  have hp : peerSections (.interface (devSettingsOf d) :: d.peers.map fun p => .peer (peerSettings p)) = d.peers.map peerSettings := by
    simp [peerSections, List.filterMap_map]
  simp only [fileMeaning, hs, hp, Device.asRequest, List.map_map]
  have hq : d.peers.map (peerMeaning ∘ peerSettings) = d.peers.map Peer.asRequest :=
    List.map_congr_left fun p _ => peerMeaning_eq p
  clear hs hp
  rw [hq]
  simp only [devSettingsOf, List.filterMap_append, filterMap_ite]
  by_cases h1 : d.flags.hasPrivateKey <;> by_cases h2 : d.listenPort = 0 <;> by_cases h3 : d.fwmark = 0 <;>
    simp [h1, h2, h3, lastOr, DevSetting.port?, DevSetting.mark?, DevSetting.priv?]

/-! ### Applying it -/

theorem asRequest_fold (ps : List Peer) (s : Iface) (hn : (ps.map (·.publicKey)).Nodup) (hfresh : ∀ p ∈ ps, s.peers p.publicKey = none)
    (hown : ∀ p ∈ ps, ∀ n, s.owner n ≠ some p.publicKey) :
    (((ps.map Peer.asRequest).map peerReqOf).foldl applyPeerReq s).peers = (fun k =>
      match ps.find? (·.publicKey = k) with
      | some p => some { psk := if p.flags.hasPresharedKey then p.presharedKey else zeroKey, endpoint := p.endpoint, keepalive := p.keepalive }
      | none => s.peers k) ∧
    (((ps.map Peer.asRequest).map peerReqOf).foldl applyPeerReq s).owner = (fun n =>
      match ps.reverse.find? (fun p => n ∈ p.allowedIPs.map network) with
      | some p => some p.publicKey
      | none => s.owner n) ∧
    (((ps.map Peer.asRequest).map peerReqOf).foldl applyPeerReq s).privateKey = s.privateKey ∧
    (((ps.map Peer.asRequest).map peerReqOf).foldl applyPeerReq s).listenPort = s.listenPort ∧
    (((ps.map Peer.asRequest).map peerReqOf).foldl applyPeerReq s).fwmark = s.fwmark := by
  induction ps generalizing s with
  | nil => exact ⟨rfl, rfl, rfl, rfl, rfl⟩
  | cons p ps ih =>
    simp only [List.map_cons, List.nodup_cons] at hn
    have hold : s.peers p.publicKey = none := hfresh p (by simp)
    have hdrop : dropOwner p.publicKey s.owner = s.owner := by
      funext n
      simp only [dropOwner]
      rw [if_neg (hown p (by simp) n)]
    have step : applyPeerReq s (peerReqOf (Peer.asRequest p)) =
        { s with peers := fun k => if k = p.publicKey then some { psk := if p.flags.hasPresharedKey then p.presharedKey else zeroKey, endpoint := p.endpoint, keepalive := p.keepalive } else s.peers k
                 owner := fun n => if n ∈ p.allowedIPs.map network then some p.publicKey else s.owner n } := by
      simp only [applyPeerReq, peerReqOf, Peer.asRequest, Bool.false_eq_true, if_false, hold, Option.getD_none, if_true, hdrop]
      congr 1
      · funext k
        by_cases hk : k = p.publicKey
        · rw [if_pos hk, if_pos hk]
          by_cases h1 : p.flags.hasPresharedKey <;> by_cases h3 : p.endpoint = .unset <;> by_cases h4 : p.keepalive = 0 <;> simp [h1, h3, h4]
        · rw [if_neg hk, if_neg hk]
      · funext n; rw [foldl_giveIP]
    simp only [List.map_cons, List.foldl_cons, step]
    obtain ⟨i1, i2, i3, i4, i5⟩ := ih
      { s with peers := fun k => if k = p.publicKey then some { psk := if p.flags.hasPresharedKey then p.presharedKey else zeroKey, endpoint := p.endpoint, keepalive := p.keepalive } else s.peers k
               owner := fun n => if n ∈ p.allowedIPs.map network then some p.publicKey else s.owner n } hn.2 (by
        intro q hq
        have : q.publicKey ≠ p.publicKey := fun e => hn.1 (e ▸ List.mem_map_of_mem hq)
        show (if q.publicKey = p.publicKey then _ else _) = _
        rw [if_neg this]
        exact hfresh q (by simp [hq])) (by
        intro q hq n
        have : q.publicKey ≠ p.publicKey := fun e => hn.1 (e ▸ List.mem_map_of_mem hq)
        show (if n ∈ p.allowedIPs.map network then some p.publicKey else s.owner n) ≠ _
        split
        · intro e; exact this (Option.some.inj e).symm
        · exact hown q (by simp [hq]) n)
    refine ⟨?_, ?_, i3, i4, i5⟩
    · rw [i1]
      funext k
      by_cases hk : p.publicKey = k
      · rw [List.find?_cons_of_pos (by simpa using hk)]
        have : ps.find? (fun x => decide (x.publicKey = k)) = none := by
          rw [List.find?_eq_none]
          intro q hq
          simp only [decide_eq_true_eq]
          intro e
          exact hn.1 (by rw [hk, ← e]; exact List.mem_map_of_mem hq)
        rw [this]
        simp only [if_pos hk.symm]
      · rw [List.find?_cons_of_neg (by simpa using hk)]
        cases ps.find? (fun x => decide (x.publicKey = k)) with
        | some q => rfl
        | none => simp only; rw [if_neg (fun e => hk e.symm)]
    · rw [i2]
      funext n
      simp only [List.reverse_cons, List.find?_append]
      cases ps.reverse.find? (fun p => decide (n ∈ p.allowedIPs.map network)) with
      | some q => rfl
      | none =>
        simp only [Option.none_or]
        by_cases h : n ∈ p.allowedIPs.map network
        · rw [List.find?_cons_of_pos (by simpa using h), if_pos h]
        · rw [List.find?_cons_of_neg (by simpa using h), if_neg h]; rfl

/-- Applying the request of a faithful report to any interface reproduces the interface reported. -/
theorem asRequest_reproduces (d : Device) (s0 s : Iface) (h : Reports d s0) : applyReq s (requestOf (Device.asRequest d)) = s0 := by
  have hdev : applyDevReq s (requestOf (Device.asRequest d)) =
      { privateKey := s0.privateKey, listenPort := s0.listenPort, fwmark := s0.fwmark, peers := fun _ => none, owner := fun _ => none } := by
    simp only [applyDevReq, requestOf, Device.asRequest, if_true, Option.getD_some, h.port, h.mark, ← h.priv]
  rw [applyReq, requestOf_peers, hdev]
  obtain ⟨i1, i2, i3, i4, i5⟩ := asRequest_fold d.peers
    { privateKey := s0.privateKey, listenPort := s0.listenPort, fwmark := s0.fwmark, peers := fun _ => none, owner := fun _ => none }
    h.keys (fun _ _ => rfl) (fun _ _ _ => by simp)
  simp only [Device.asRequest]
  generalize ((d.peers.map Peer.asRequest).map peerReqOf).foldl applyPeerReq
    { privateKey := s0.privateKey, listenPort := s0.listenPort, fwmark := s0.fwmark, peers := fun _ => none, owner := fun _ => none } = r at i1 i2 i3 i4 i5
  obtain ⟨a, b, c, dd, e⟩ := r
  simp only at i1 i2 i3 i4 i5
  obtain ⟨a', b', c', dd', e'⟩ := s0
  simp only [Iface.mk.injEq]
  refine ⟨i3, i4, i5, ?_, ?_⟩
  · rw [i1]
    funext k
    cases hf : d.peers.find? (fun x => decide (x.publicKey = k)) with
    | some p =>
      have hm := List.mem_of_find?_eq_some hf
      have hk : p.publicKey = k := by simpa using List.find?_some hf
      have := h.peer p hm
      rw [hk] at this
      exact this.symm
    | none =>
      have := h.none k (by
        intro hm
        obtain ⟨p, hp, e⟩ := List.mem_map.1 hm
        have := List.find?_eq_none.1 hf p hp
        simp only [decide_eq_true_eq] at this
        exact this e)
      exact this.symm
  · rw [i2]
    funext n
    have hmap : ∀ p ∈ d.peers, p.allowedIPs.map network = p.allowedIPs := by
      intro p hp
      conv => rhs; rw [← List.map_id p.allowedIPs]
      exact List.map_congr_left fun a ha => h.net p hp a ha
    cases hf : d.peers.reverse.find? (fun p => decide (n ∈ p.allowedIPs.map network)) with
    | some p =>
      have hm : p ∈ d.peers := List.mem_reverse.1 (List.mem_of_find?_eq_some hf)
      have hk : n ∈ p.allowedIPs.map network := by simpa using List.find?_some hf
      rw [hmap p hm] at hk
      exact ((h.owner n p.publicKey).2 ⟨p, hm, rfl, hk⟩).symm
    | none =>
      simp only
      cases he : e' n with
      | none => rfl
      | some k =>
        obtain ⟨p, hp, -, hn⟩ := (h.owner n k).1 he
        have := List.find?_eq_none.1 hf p (List.mem_reverse.2 hp)
        simp only [decide_eq_true_eq] at this
        rw [hmap p hp] at this
        exact absurd hn this

end WG
