import Verif.Spec.Freebsd
import Verif.Proof.OpenbsdGet
/-! Proofs about the FreeBSD kernel interface. -/
namespace WG.Fbsd
open Spec Spec.Obsd Spec.Fbsd
open WG.Obsd (okb)

/-! ### Lists by name -/

theorem lookup_append_one (l : NvList) (n : CStr) (v : Nv) (m : CStr) : (l ++ [(n, v)]).lookup m = (l.lookup m).or (if m = n then some v else none) := by
  induction l with
  | nil =>
    by_cases h : m = n
    · simp [List.lookup, h]
    · have : (m == n) = false := by simpa using h
      simp [List.lookup, h, this]
  | cons e l ih =>
    rw [List.cons_append, List.lookup_cons, List.lookup_cons]
    by_cases h : (m == e.1) = true
    · rw [h]; rfl
    · simp only [Bool.not_eq_true] at h
      rw [h]
      exact ih

theorem lookup_addIf (b : Bool) (l : NvList) (n : CStr) (v : Nv) (m : CStr) : (addIf b l n v).lookup m = (l.lookup m).or (if b = true ∧ m = n then some v else none) := by
  rw [addIf]
  cases b with
  | true => rw [if_pos rfl, lookup_append_one]; simp
  | false => simp

theorem names_addIf {b : Bool} {l : NvList} {ns : List CStr} (h : (l.map (·.1)).Sublist ns) (n : CStr) (v : Nv) : ((addIf b l n v).map (·.1)).Sublist (ns ++ [n]) := by
  rw [addIf]
  cases b with
  | true => rw [if_pos rfl, List.map_append]; exact h.append (List.Sublist.refl _)
  | false => simpa using h.trans (List.sublist_append_left ns [n])

theorem unique_of {l : NvList} {ns : List CStr} (h : (l.map (·.1)).Sublist ns) (hn : ns.Nodup) : unique l = true := by
  rw [unique, decide_eq_true_eq]; exact h.nodup hn

theorem find_eq {α : Type} (ty : Nv → Option α) {l : NvList} (h : unique l = true) (name : CStr) : find ty l name = (l.lookup name).bind ty := by
  rw [unique, decide_eq_true_eq] at h
  induction l with
  | nil => rfl
  | cons e l ih =>
    rw [List.map_cons, List.nodup_cons] at h
    have hih := ih h.2
    rw [find] at hih ⊢
    rw [List.findSome?_cons, List.lookup_cons]
    by_cases he : e.1 = name
    · rw [if_pos he]
      have : (name == e.1) = true := by simp [he]
      rw [this]
      cases ht : ty e.2 with
      | some a => simp [ht]
      | none =>
        rw [hih]
        have : l.lookup name = none := by
          rw [List.lookup_eq_none_iff]
          intro p hp
          have hne : e.1 ≠ p.1 := fun hc => h.1 (by rw [hc]; exact List.mem_map.2 ⟨p, hp, rfl⟩)
          rw [he] at hne
          simpa using hne
        rw [this]
        simp [ht]
    · have : (name == e.1) = false := by simpa using fun h => he h.symm
      rw [if_neg he, this]
      exact hih

/-! ### Setting -/

theorem bytes?_toList {n : Nat} (v : Vector UInt8 n) : bytes? n v.toList = some v := by
  rw [bytes?, dif_pos (by simp)]
  congr 1

theorem nvAip_list (a : AllowedIP) (h : a.cidr.toNat ≤ addrBits a.addr) : nvAip (aipList a) = some a := by
  have hc : a.cidr.toNat < 2 ^ 64 := by have := a.cidr.toNat_lt; omega
  have hof : UInt8.ofNat a.cidr.toNat = a.cidr := by simp
  have hu : unique (aipList a) = true := by
    cases ha : a.addr
    · exact unique_of (ns := [b!"cidr", b!"ipv4"]) (by rw [aipList, ha]; exact List.Sublist.refl _) (by decide)
    · exact unique_of (ns := [b!"cidr", b!"ipv6"]) (by rw [aipList, ha]; exact List.Sublist.refl _) (by decide)
  rw [nvAip, if_neg (by simp [hu])]
  cases ha : a.addr with
  | v4 b =>
    have e : aipList a = [(b!"cidr", .num a.cidr.toNat), (b!"ipv4", .bin b.toList)] := by rw [aipList, ha]; rfl
    have o1 : opt (aipList a) b!"cidr" (asNum (2 ^ 64)) = some (some a.cidr.toNat) := by
      rw [e]; simp [opt, List.lookup, asNum, hc]
    have o2 : opt (aipList a) b!"ipv4" (asBytes 4) = some (some b) := by
      rw [e]; simp [opt, List.lookup, asBytes, bytes?_toList]
    have o3 : opt (aipList a) b!"ipv6" (asBytes 16) = some none := by
      rw [e]; simp [opt, List.lookup]
    rw [o1, o2, o3]
    rw [ha] at h
    have h' : a.cidr.toNat ≤ 32 := h
    simp only [Option.bind_some]
    rw [if_pos h', hof, ← ha]
  | v6 b =>
    have e : aipList a = [(b!"cidr", .num a.cidr.toNat), (b!"ipv6", .bin b.toList)] := by rw [aipList, ha]; rfl
    have o1 : opt (aipList a) b!"cidr" (asNum (2 ^ 64)) = some (some a.cidr.toNat) := by
      rw [e]; simp [opt, List.lookup, asNum, hc]
    have o2 : opt (aipList a) b!"ipv4" (asBytes 4) = some none := by
      rw [e]; simp [opt, List.lookup]
    have o3 : opt (aipList a) b!"ipv6" (asBytes 16) = some (some b) := by
      rw [e]; simp [opt, List.lookup, asBytes, bytes?_toList]
    rw [o1, o2, o3]
    rw [ha] at h
    have h' : a.cidr.toNat ≤ 128 := h
    simp only [Option.bind_some]
    rw [if_pos h', hof, ← ha]

theorem mapM_map_some {α β γ : Type} {f : α → β} {g : β → Option γ} {h : α → γ} {l : List α} (hl : ∀ a ∈ l, g (f a) = some (h a)) : (l.map f).mapM g = some (l.map h) := by
  induction l with
  | nil => rfl
  | cons a l ih =>
    rw [List.map_cons, List.mapM_cons, hl a (by simp), ih fun b hb => hl b (by simp [hb])]
    rfl

theorem readSockaddr_union (e : Endpoint) (h : e ≠ .unset) :
    ((epUnion e).getD 1 0 = 2 ∨ (epUnion e).getD 1 0 = 28) ∧ nvSockaddr ((epUnion e).take ((epUnion e).getD 0 0).toNat) = some e := by
  cases e with
  | unset => exact absurd rfl h
  | in4 a p =>
    refine ⟨.inl (by simp [epUnion]), ?_⟩
    obtain ⟨⟨l⟩, hl⟩ := a
    match l, hl with
    | [a, b, c, d], _ =>
      have hp := WG.Obsd.bePort_eq p
      have e : (epUnion (.in4 ⟨⟨[a, b, c, d]⟩, rfl⟩ p)).take ((epUnion (.in4 ⟨⟨[a, b, c, d]⟩, rfl⟩ p)).getD 0 0).toNat =
        [16, 2, UInt8.ofNat (p.toNat / 256), UInt8.ofNat p.toNat, a, b, c, d, 0, 0, 0, 0, 0, 0, 0, 0] := rfl
      rw [e, nvSockaddr, if_pos ⟨rfl, rfl, rfl⟩]
      change some (Endpoint.in4 _ (bePort [UInt8.ofNat (p.toNat / 256), UInt8.ofNat p.toNat])) = _
      rw [hp]
      rfl
  | in6 a p fl sc =>
    refine ⟨.inr (by simp [epUnion]), ?_⟩
    obtain ⟨⟨l⟩, hl⟩ := a
    match l, hl with
    | [a, b, c, d, e, f, g, i, a', b', c', d', e', f', g', i'], _ =>
      have hp := WG.Obsd.bePort_eq p
      have hf := WG.Obsd.le_u32b fl
      have hs := WG.Obsd.le_u32b sc
      have e : (epUnion (.in6 ⟨⟨[a, b, c, d, e, f, g, i, a', b', c', d', e', f', g', i']⟩, rfl⟩ p fl sc)).take
          ((epUnion (.in6 ⟨⟨[a, b, c, d, e, f, g, i, a', b', c', d', e', f', g', i']⟩, rfl⟩ p fl sc)).getD 0 0).toNat =
        [28, 28, UInt8.ofNat (p.toNat / 256), UInt8.ofNat p.toNat] ++ u32b fl.toNat ++ [a, b, c, d, e, f, g, i, a', b', c', d', e', f', g', i'] ++ u32b sc.toNat := rfl
      rw [e, nvSockaddr, if_neg (by rintro ⟨h, -⟩; exact absurd h (by simp [u32b])), if_pos ⟨rfl, rfl, rfl⟩]
      change some (Endpoint.in6 _ (bePort [UInt8.ofNat (p.toNat / 256), UInt8.ofNat p.toNat]) (UInt32.ofNat (le (u32b fl.toNat))) (UInt32.ofNat (le (u32b sc.toNat)))) = _
      rw [hp, hf, hs]
      rfl

theorem opt_of {α : Type} {l : NvList} {n : CStr} {rd : Nv → Option α} {o : Option α} {v : Nv} {c : Prop} [Decidable c] (h1 : l.lookup n = if c then some v else none)
    (h2 : o = if c then rd v else none) (h3 : c → (rd v).isSome = true) : opt l n rd = some o := by
  rw [opt, h1]
  by_cases h : c
  · rw [if_pos h] at h2 ⊢
    have h3 := h3 h
    cases hv : rd v with
    | none => rw [hv] at h3; cases h3
    | some x => rw [h2, hv]; simp [hv]
  · rw [if_neg h] at h2 ⊢
    rw [h2]

theorem lookup_peerList (p : Peer) (n : CStr) : (peerList p).lookup n =
    if n = b!"public-key" then some (.bin p.publicKey.toList)
    else if n = b!"preshared-key" then (if p.flags.hasPresharedKey then some (.bin p.presharedKey.toList) else none)
    else if n = b!"persistent-keepalive-interval" then (if p.flags.hasKeepalive then some (.num p.keepalive.toNat) else none)
    else if n = b!"endpoint" then (if (epUnion p.endpoint).getD 1 0 = 2 ∨ (epUnion p.endpoint).getD 1 0 = 28 then
      some (.bin ((epUnion p.endpoint).take ((epUnion p.endpoint).getD 0 0).toNat)) else none)
    else if n = b!"replace-allowedips" then (if p.flags.replaceAllowedIPs then some (.flag true) else none)
    else if n = b!"remove" then (if p.flags.removeMe then some (.flag true) else none)
    else if n = b!"allowed-ips" then (if p.allowedIPs.length ≠ 0 then some (.lists (p.allowedIPs.map aipList)) else none)
    else none := by
  rw [peerList]
  simp only [lookup_addIf]
  by_cases h : n = b!"public-key"
  · subst h; simp [List.lookup]
  rw [if_neg h]
  have hb : (n == b!"public-key") = false := by simpa using h
  simp only [List.lookup, hb, Option.none_or]
  by_cases h : n = b!"preshared-key"
  · subst h; simp
  rw [if_neg h, if_neg (by simp [h])]
  by_cases h : n = b!"persistent-keepalive-interval"
  · subst h; simp
  rw [if_neg h, if_neg (by simp [h])]
  by_cases h : n = b!"endpoint"
  · subst h; simp
  rw [if_neg h, if_neg (by simp [h])]
  by_cases h : n = b!"replace-allowedips"
  · subst h; simp
  rw [if_neg h, if_neg (by simp [h])]
  by_cases h : n = b!"remove"
  · subst h; simp
  rw [if_neg h, if_neg (by simp [h])]
  by_cases h : n = b!"allowed-ips"
  · subst h; simp
  rw [if_neg h, if_neg (by simp [h])]
  rfl

theorem unique_peerList (p : Peer) : unique (peerList p) = true := by
  refine unique_of (ns := [] ++ [b!"public-key"] ++ [b!"preshared-key"] ++ [b!"persistent-keepalive-interval"] ++ [b!"endpoint"] ++ [b!"replace-allowedips"] ++ [b!"remove"] ++ [b!"allowed-ips"]) ?_
    (by decide)
  rw [peerList]
  exact names_addIf (names_addIf (names_addIf (names_addIf (names_addIf (names_addIf (List.Sublist.refl _) _ _) _ _) _ _) _ _) _ _) _ _

/-- The peer a configuration asks for, as exchanged. -/
def wantPeer (p : Peer) : IoPeer where
  key := some p.publicKey
  psk := if p.flags.hasPresharedKey then some p.presharedKey else none
  keepalive := if p.flags.hasKeepalive then some p.keepalive else none
  endpoint := if p.endpoint = .unset then none else some p.endpoint
  replaceIPs := p.flags.replaceAllowedIPs
  remove := p.flags.removeMe
  ips := p.allowedIPs

theorem nvPeer_list (p : Peer) (hip : ∀ a ∈ p.allowedIPs, a.cidr.toNat ≤ addrBits a.addr) : nvPeer (peerList p) = some (wantPeer p) := by
  have L := lookup_peerList p
  have o1 : opt (peerList p) b!"public-key" (asBytes 32) = some (some p.publicKey) := by
    rw [opt, L, if_pos rfl]; simp [asBytes, bytes?_toList]
  have o2 : opt (peerList p) b!"preshared-key" (asBytes 32) = some (if p.flags.hasPresharedKey then some p.presharedKey else none) :=
    opt_of (by rw [L, if_neg (by decide), if_pos rfl]) (by simp only [asBytes, bytes?_toList]) (by simp [asBytes, bytes?_toList])
  have hk : p.keepalive.toNat < 2 ^ 16 := p.keepalive.toNat_lt
  have o3 : opt (peerList p) b!"persistent-keepalive-interval" (asNum (2 ^ 16)) = some (if p.flags.hasKeepalive then some p.keepalive.toNat else none) :=
    opt_of (by rw [L, if_neg (by decide), if_neg (by decide), if_pos rfl]) (by rw [asNum, if_pos hk]) (by intro; rw [asNum, if_pos hk]; rfl)
  have o4 : opt (peerList p) b!"endpoint" asSockaddr = some (if p.endpoint = .unset then none else some p.endpoint) := by
    refine opt_of (by rw [L, if_neg (by decide), if_neg (by decide), if_neg (by decide), if_pos rfl]) ?_ ?_
    · by_cases h : p.endpoint = .unset
      · rw [if_pos h, if_neg]
        rw [h]; decide
      · obtain ⟨h1, h2⟩ := readSockaddr_union _ h
        rw [if_neg h, if_pos h1, asSockaddr, h2]
    · intro h
      by_cases h' : p.endpoint = .unset
      · rw [h'] at h
        exact absurd h (by decide)
      · rw [asSockaddr, (readSockaddr_union _ h').2]; rfl
  have o5 : opt (peerList p) b!"replace-allowedips" asFlag = some (if p.flags.replaceAllowedIPs then some true else none) :=
    opt_of (by rw [L, if_neg (by decide), if_neg (by decide), if_neg (by decide), if_neg (by decide), if_pos rfl]) rfl (by intro; rfl)
  have o6 : opt (peerList p) b!"remove" asFlag = some (if p.flags.removeMe then some true else none) :=
    opt_of (by rw [L, if_neg (by decide), if_neg (by decide), if_neg (by decide), if_neg (by decide), if_neg (by decide), if_pos rfl]) rfl (by intro; rfl)
  have o7 : opt (peerList p) b!"rx-bytes" (asNum (2 ^ 64)) = some none := by
    rw [opt, L, if_neg (by decide), if_neg (by decide), if_neg (by decide), if_neg (by decide), if_neg (by decide), if_neg (by decide), if_neg (by decide)]
  have o8 : opt (peerList p) b!"tx-bytes" (asNum (2 ^ 64)) = some none := by
    rw [opt, L, if_neg (by decide), if_neg (by decide), if_neg (by decide), if_neg (by decide), if_neg (by decide), if_neg (by decide), if_neg (by decide)]
  have o9 : opt (peerList p) b!"last-handshake-time" asTime = some none := by
    rw [opt, L, if_neg (by decide), if_neg (by decide), if_neg (by decide), if_neg (by decide), if_neg (by decide), if_neg (by decide), if_neg (by decide)]
  have o10 : opt (peerList p) b!"allowed-ips" asLists = some (if p.allowedIPs.length ≠ 0 then some (p.allowedIPs.map aipList) else none) :=
    opt_of (by rw [L, if_neg (by decide), if_neg (by decide), if_neg (by decide), if_neg (by decide), if_neg (by decide), if_neg (by decide), if_pos rfl]) rfl (by intro; rfl)
  have hl : ((if p.allowedIPs.length ≠ 0 then some (p.allowedIPs.map aipList) else none : Option (List NvList)).getD []).mapM nvAip = some p.allowedIPs := by
    by_cases h : p.allowedIPs.length ≠ 0
    · rw [if_pos h]
      have := mapM_map_some (f := aipList) (g := nvAip) (h := id) (l := p.allowedIPs) fun a ha => nvAip_list a (hip a ha)
      simpa using this
    · rw [if_neg h]
      have : p.allowedIPs = [] := by simpa using h
      rw [this]; rfl
  rw [nvPeer, if_neg (by simp [unique_peerList]), o1, o2, o3, o4, o5, o6, o7, o8, o9, o10]
  simp only [Option.bind_some]
  rw [hl]
  simp only [Option.map_some, wantPeer]
  congr 2
  · cases p.flags.hasKeepalive <;> simp
  · cases p.flags.replaceAllowedIPs <;> rfl
  · cases p.flags.removeMe <;> rfl

/-- The interface a configuration asks for, as exchanged. -/
def wantIface (d : Device) : IoIface where
  privateKey := if d.flags.hasPrivateKey then some d.privateKey else none
  port := if d.flags.hasListenPort then some d.listenPort else none
  rtable := if d.flags.hasFwmark then some d.fwmark else none
  replacePeers := d.flags.replacePeers
  peers := d.peers.map wantPeer

theorem lookup_deviceList (d : Device) (n : CStr) : (deviceList d).lookup n =
    if n = b!"private-key" then (if d.flags.hasPrivateKey then some (.bin d.privateKey.toList) else none)
    else if n = b!"listen-port" then (if d.flags.hasListenPort then some (.num d.listenPort.toNat) else none)
    else if n = b!"user-cookie" then (if d.flags.hasFwmark then some (.num d.fwmark.toNat) else none)
    else if n = b!"replace-peers" then (if d.flags.replacePeers then some (.flag true) else none)
    else if n = b!"peers" then (if d.peers.length ≠ 0 then some (.lists (d.peers.map peerList)) else none)
    else none := by
  rw [deviceList]
  simp only [lookup_addIf, List.lookup, Option.none_or]
  by_cases h : n = b!"private-key"
  · subst h; simp
  rw [if_neg h, if_neg (by simp [h])]
  by_cases h : n = b!"listen-port"
  · subst h; simp
  rw [if_neg h, if_neg (by simp [h])]
  by_cases h : n = b!"user-cookie"
  · subst h; simp
  rw [if_neg h, if_neg (by simp [h])]
  by_cases h : n = b!"replace-peers"
  · subst h; simp
  rw [if_neg h, if_neg (by simp [h])]
  by_cases h : n = b!"peers"
  · subst h; simp
  rw [if_neg h, if_neg (by simp [h])]
  rfl

theorem unique_deviceList (d : Device) : unique (deviceList d) = true := by
  refine unique_of (ns := [] ++ [b!"private-key"] ++ [b!"listen-port"] ++ [b!"user-cookie"] ++ [b!"replace-peers"] ++ [b!"peers"]) ?_ (by decide)
  rw [deviceList]
  exact names_addIf (names_addIf (names_addIf (names_addIf (names_addIf (List.Sublist.refl _) _ _) _ _) _ _) _ _) _ _

theorem nvIface_list (d : Device) (hip : ∀ p ∈ d.peers, ∀ a ∈ p.allowedIPs, a.cidr.toNat ≤ addrBits a.addr) : nvIface (deviceList d) = some (wantIface d) := by
  have L := lookup_deviceList d
  have o1 : opt (deviceList d) b!"public-key" (asBytes 32) = some none := by
    rw [opt, L, if_neg (by decide), if_neg (by decide), if_neg (by decide), if_neg (by decide), if_neg (by decide)]
  have o2 : opt (deviceList d) b!"private-key" (asBytes 32) = some (if d.flags.hasPrivateKey then some d.privateKey else none) :=
    opt_of (by rw [L, if_pos rfl]) (by simp only [asBytes, bytes?_toList]) (by simp [asBytes, bytes?_toList])
  have hp : d.listenPort.toNat < 2 ^ 16 := d.listenPort.toNat_lt
  have hm : d.fwmark.toNat < 2 ^ 32 := d.fwmark.toNat_lt
  have o3 : opt (deviceList d) b!"listen-port" (asNum (2 ^ 16)) = some (if d.flags.hasListenPort then some d.listenPort.toNat else none) :=
    opt_of (by rw [L, if_neg (by decide), if_pos rfl]) (by rw [asNum, if_pos hp]) (by intro; rw [asNum, if_pos hp]; rfl)
  have o4 : opt (deviceList d) b!"user-cookie" (asNum (2 ^ 32)) = some (if d.flags.hasFwmark then some d.fwmark.toNat else none) :=
    opt_of (by rw [L, if_neg (by decide), if_neg (by decide), if_pos rfl]) (by rw [asNum, if_pos hm]) (by intro; rw [asNum, if_pos hm]; rfl)
  have o5 : opt (deviceList d) b!"replace-peers" asFlag = some (if d.flags.replacePeers then some true else none) :=
    opt_of (by rw [L, if_neg (by decide), if_neg (by decide), if_neg (by decide), if_pos rfl]) rfl (by intro; rfl)
  have o6 : opt (deviceList d) b!"peers" asLists = some (if d.peers.length ≠ 0 then some (d.peers.map peerList) else none) :=
    opt_of (by rw [L, if_neg (by decide), if_neg (by decide), if_neg (by decide), if_neg (by decide), if_pos rfl]) rfl (by intro; rfl)
  have hl : ((if d.peers.length ≠ 0 then some (d.peers.map peerList) else none : Option (List NvList)).getD []).mapM nvPeer = some (d.peers.map wantPeer) := by
    by_cases h : d.peers.length ≠ 0
    · rw [if_pos h]
      exact mapM_map_some fun p hp => nvPeer_list p (hip p hp)
    · rw [if_neg h]
      have : d.peers = [] := by simpa using h
      rw [this]; rfl
  rw [nvIface, if_neg (by simp [unique_deviceList]), o1, o2, o3, o4, o5, o6]
  simp only [Option.bind_some]
  rw [hl]
  simp only [Option.map_some, wantIface]
  congr 2
  · cases d.flags.hasListenPort <;> simp
  · cases d.flags.hasFwmark <;> simp
  · cases d.flags.replacePeers <;> rfl

/-! ### Allocations -/

/-- Exactly these are held (in some order), and nothing wrong was released. -/
def Holds (m : Mem) (h : List Nat) : Prop := m.bad = false ∧ m.held.Perm h

theorem alloc_holds {fails : Fails} {m : Mem} {h : List Nat} (hm : Holds m h) :
    (∃ a m', alloc fails m = (.ok a, m') ∧ Holds m' (a :: h)) ∨ ∃ n e m', alloc fails m = (.error e, m') ∧ fails n = some e ∧ Holds m' h := by
  rw [alloc]
  cases hf : fails m.next with
  | some e => exact .inr ⟨_, e, _, rfl, hf, hm.1, hm.2⟩
  | none => exact .inl ⟨_, _, rfl, hm.1, hm.2.cons _⟩

theorem release_holds {m : Mem} {a : Nat} {h : List Nat} (hm : Holds m (a :: h)) : Holds (release m (some a)) h := by
  rw [release, if_pos (hm.2.mem_iff.2 (by simp))]
  refine ⟨hm.1, ?_⟩
  have := hm.2.erase a
  simpa using this

theorem releaseAll_holds : ∀ {l : List Nat} {m : Mem} {h : List Nat}, Holds m (l ++ h) → Holds (releaseAll m l) h
  | [], _, _, hm => hm
  | a :: l, m, h, hm => by
    rw [releaseAll, List.foldl_cons]
    exact releaseAll_holds (release_holds hm)

theorem Holds.perm {m : Mem} {h h' : List Nat} (hm : Holds m h) (p : h.Perm h') : Holds m h' := ⟨hm.1, hm.2.trans p⟩

theorem createAips_holds (fails : Fails) : ∀ (n : Nat) (m : Mem) (l h : List Nat), Holds m (l ++ h) →
    (∃ l' m', createAips fails n m l = (.ok l', m') ∧ Holds m' (l' ++ h)) ∨ ∃ k e l' m', createAips fails n m l = (.error (e, l'), m') ∧ fails k = some e ∧ Holds m' (l' ++ h)
  | 0, m, l, h, hm => .inl ⟨l, m, rfl, hm⟩
  | n + 1, m, l, h, hm => by
    rw [createAips]
    rcases alloc_holds (fails := fails) hm with ⟨a, m', h1, h2⟩ | ⟨k, e, m', h1, h2, h3⟩
    · rw [h1]
      refine createAips_holds fails n m' (l ++ [a]) h (h2.perm ?_)
      have : (a :: (l ++ h)).Perm (l ++ a :: h) := List.perm_middle.symm
      simpa using this
    · rw [h1]
      exact .inr ⟨k, e, l, m', rfl, h2, h3⟩

theorem createPeer_holds (fails : Fails) (n : Nat) (m : Mem) (h : List Nat) (hm : Holds m h) :
    (∃ a m', createPeer fails n m = (.ok a, m') ∧ Holds m' (a :: h)) ∨ ∃ k e m', createPeer fails n m = (.error e, m') ∧ fails k = some e ∧ Holds m' h := by
  rw [createPeer]
  rcases alloc_holds (fails := fails) hm with ⟨p, m1, h1, h2⟩ | ⟨k, e, m1, h1, h2, h3⟩
  · rw [h1]
    dsimp only
    by_cases hn : n = 0
    · rw [if_pos hn]; exact .inl ⟨p, m1, rfl, h2⟩
    · rw [if_neg hn]
      rcases alloc_holds (fails := fails) h2 with ⟨arr, m2, h3, h4⟩ | ⟨k, e, m2, h3, h4, h5⟩
      · rw [h3]
        dsimp only
        rcases createAips_holds fails n m2 [] (arr :: p :: h) h4 with ⟨l, m3, h5, h6⟩ | ⟨k, e, l, m3, h5, h6, h7⟩
        · rw [h5]
          exact .inl ⟨p, _, rfl, release_holds (releaseAll_holds h6)⟩
        · rw [h5]
          exact .inr ⟨k, e, _, rfl, h6, release_holds (release_holds (releaseAll_holds h7))⟩
      · rw [h3]
        exact .inr ⟨k, e, _, rfl, h4, release_holds h5⟩
  · rw [h1]
    exact .inr ⟨k, e, m1, rfl, h2, h3⟩

theorem createPeers_holds (fails : Fails) : ∀ (ps : List Peer) (m : Mem) (l h : List Nat), Holds m (l ++ h) →
    (∃ l' m', createPeers fails ps m l = (.ok l', m') ∧ Holds m' (l' ++ h)) ∨ ∃ k e l' m', createPeers fails ps m l = (.error (e, l'), m') ∧ fails k = some e ∧ Holds m' (l' ++ h)
  | [], m, l, h, hm => .inl ⟨l, m, rfl, hm⟩
  | p :: ps, m, l, h, hm => by
    rw [createPeers]
    rcases createPeer_holds fails p.allowedIPs.length m _ hm with ⟨a, m', h1, h2⟩ | ⟨k, e, m', h1, h2, h3⟩
    · rw [h1]
      refine createPeers_holds fails ps m' (l ++ [a]) h (h2.perm ?_)
      have : (a :: (l ++ h)).Perm (l ++ a :: h) := List.perm_middle.symm
      simpa using this
    · rw [h1]
      exact .inr ⟨k, e, l, m', rfl, h2, h3⟩

/-- An optional allocation. -/
def optList : Option Nat → List Nat
  | none => []
  | some a => [a]

theorem releaseOpt_holds {m : Mem} {o : Option Nat} {h : List Nat} (hm : Holds m (optList o ++ h)) : Holds (release m o) h := by
  cases o with
  | none => exact hm
  | some a => exact release_holds hm

/-- What comes after packing. -/
def sendOff (env : SetEnv) (d : Device) (m : Mem) : SetOut :=
  match env.sock with
  | some e => ⟨-e, some e, none, m⟩
  | none =>
    match env.ioctl (d.name.take 15) (deviceList d) with
    | some e => ⟨-1, some e, some (d.name.take 15, deviceList d), m⟩
    | none => ⟨0, none, some (d.name.take 15, deviceList d), m⟩

theorem kernelSet_cases (env : SetEnv) (d : Device) :
    (∃ n e m, env.fails n = some e ∧ kernelSet env d = ⟨-e, some e, none, m⟩ ∧ Holds m []) ∨ ∃ a m, kernelSet env d = sendOff env d m ∧ Holds m [a] := by
  rw [kernelSet]
  rcases alloc_holds (fails := env.fails) (m := {}) (h := []) ⟨rfl, List.Perm.refl _⟩ with ⟨dv, m1, h1, h2⟩ | ⟨k, e, m1, h1, h2, h3⟩
  · rw [h1]
    dsimp only
    have harr : (∃ o m2, allocPeers env.fails d.peers.length m1 = (.ok o, m2) ∧ Holds m2 (optList o ++ [dv])) ∨
      ∃ k e m2, allocPeers env.fails d.peers.length m1 = (.error e, m2) ∧ env.fails k = some e ∧ Holds m2 [dv] := by
      rw [allocPeers]
      by_cases hp : d.peers.length = 0
      · rw [if_pos hp]; exact .inl ⟨none, m1, rfl, h2⟩
      · rw [if_neg hp]
        rcases alloc_holds (fails := env.fails) h2 with ⟨a, m2, h3, h4⟩ | ⟨k, e, m2, h3, h4, h5⟩
        · rw [h3]; exact .inl ⟨some a, m2, rfl, h4⟩
        · rw [h3]; exact .inr ⟨k, e, m2, rfl, h4, h5⟩
    rcases harr with ⟨o, m2, h3, h4⟩ | ⟨k, e, m2, h3, h4, h5⟩
    · rw [h3]
      dsimp only
      rcases createPeers_holds env.fails d.peers m2 [] _ h4 with ⟨l, m3, h5, h6⟩ | ⟨k, e, l, m3, h5, h6, h7⟩
      · rw [h5]
        dsimp only
        have h7 := releaseOpt_holds (releaseAll_holds h6)
        rcases alloc_holds (fails := env.fails) h7 with ⟨a, m4, h8, h9⟩ | ⟨k, e, m4, h8, h9, h10⟩
        · rw [h8]
          refine .inr ⟨a, _, ?_, release_holds (h9.perm (List.Perm.swap _ _ _))⟩
          rfl
        · rw [h8]
          exact .inl ⟨k, e, _, h9, rfl, release_holds h10⟩
      · rw [h5]
        exact .inl ⟨k, e, _, h6, rfl, release_holds (releaseOpt_holds (releaseAll_holds h7))⟩
    · rw [h3]
      exact .inl ⟨k, e, _, h4, rfl, release_holds h5⟩
  · rw [h1]
    exact .inl ⟨k, e, m1, h2, rfl, h3⟩

/-! ### Getting -/

theorem opt_some {α : Type} {l : NvList} {n : CStr} {rd : Nv → Option α} {o : Option α} (h : opt l n rd = some o) :
    (l.lookup n = none ∧ o = none) ∨ ∃ v x, l.lookup n = some v ∧ rd v = some x ∧ o = some x := by
  rw [opt] at h
  cases hl : l.lookup n with
  | none => rw [hl] at h; cases h; exact .inl ⟨rfl, rfl⟩
  | some v =>
    rw [hl] at h
    obtain ⟨x, hx, rfl⟩ := Option.map_eq_some_iff.1 h
    exact .inr ⟨v, x, rfl, hx, rfl⟩

theorem asBytes_some {n : Nat} {v : Nv} {x : Vector UInt8 n} (h : asBytes n v = some x) : v = .bin x.toList := by
  cases v with
  | bin b => rw [bytes?_some h]
  | num | flag | lists => cases h

theorem asNum_some {n : Nat} {v : Nv} {x : Nat} (h : asNum n v = some x) : v = .num x ∧ x < n := by
  cases v with
  | num b =>
    rw [asNum] at h
    by_cases hb : b < n
    · rw [if_pos hb] at h; cases h; exact ⟨rfl, hb⟩
    · rw [if_neg hb] at h; cases h
  | bin | flag | lists => cases h

theorem asLists_some {v : Nv} {x : List NvList} (h : asLists v = some x) : v = .lists x := by
  cases v with
  | lists l => cases h; rfl
  | bin | flag | num => cases h

theorem find_bytes {l : NvList} (hu : unique l = true) {n : CStr} {k : Nat} {o : Option (Vector UInt8 k)} (h : opt l n (asBytes k) = some o) : find Nv.bin? l n = o.map (·.toList) := by
  rw [find_eq _ hu]
  rcases opt_some h with ⟨h1, h2⟩ | ⟨v, x, h1, h2, h3⟩
  · rw [h1, h2]; rfl
  · rw [h1, h3, asBytes_some h2]; rfl

theorem binOf_eq {l : NvList} (hu : unique l = true) {n : CStr} {k : Nat} {o : Option (Vector UInt8 k)} (h : opt l n (asBytes k) = some o) : binOf l n k = o.map (·.toList) := by
  rw [binOf, find_bytes hu h]
  cases o with
  | none => rfl
  | some v => simp

theorem find_num {l : NvList} (hu : unique l = true) {n : CStr} {k : Nat} {o : Option Nat} (h : opt l n (asNum k) = some o) : find Nv.num? l n = o ∧ ∀ x, o = some x → x < k := by
  rw [find_eq _ hu]
  rcases opt_some h with ⟨h1, h2⟩ | ⟨v, x, h1, h2, h3⟩
  · rw [h1, h2]; exact ⟨rfl, by intro x h; cases h⟩
  · obtain ⟨h4, h5⟩ := asNum_some h2
    rw [h1, h3, h4]
    exact ⟨rfl, by intro y h; cases h; exact h5⟩

theorem numUpTo_eq {l : NvList} (hu : unique l = true) {n : CStr} {k : Nat} {o : Option Nat} (h : opt l n (asNum (k + 1)) = some o) : numUpTo l n k = o := by
  obtain ⟨h1, h2⟩ := find_num hu h
  rw [numUpTo, h1]
  cases o with
  | none => rfl
  | some x =>
    have := h2 x rfl
    simp only [Option.bind_some]
    rw [if_pos (by omega)]

theorem find_lists {l : NvList} (hu : unique l = true) {n : CStr} {o : Option (List NvList)} (h : opt l n asLists = some o) : find Nv.lists? l n = o := by
  rw [find_eq _ hu]
  rcases opt_some h with ⟨h1, h2⟩ | ⟨v, x, h1, h2, h3⟩
  · rw [h1, h2]; rfl
  · rw [h1, h3, asLists_some h2]; rfl

theorem rdBytes_all {n : Nat} (v : Vector UInt8 n) : rdBytes v.toList 0 n = .ok v.toList := by
  rw [rdBytes, if_pos (by simp), List.drop_zero, List.take_of_length_le (by simp)]

theorem getAips_spec : ∀ (ls : List NvList) (ips : List AllowedIP), ls.mapM nvAip = some ips → getAips ls = .ok (some ips)
  | [], ips, h => by cases h; rfl
  | l :: ls, ips, h => by
    rw [List.mapM_cons] at h
    obtain ⟨a, ha, h⟩ := Option.bind_eq_some_iff.1 h
    obtain ⟨r, hr, h⟩ := Option.bind_eq_some_iff.1 h
    cases h
    have ih := getAips_spec ls r hr
    rw [nvAip] at ha
    by_cases hu : unique l = true
    · rw [if_neg (by simp [hu])] at ha
      obtain ⟨cidr, h1, ha⟩ := Option.bind_eq_some_iff.1 ha
      obtain ⟨a4, h2, ha⟩ := Option.bind_eq_some_iff.1 ha
      obtain ⟨a6, h3, ha⟩ := Option.bind_eq_some_iff.1 ha
      rw [getAips, (find_num hu h1).1, find_bytes hu h2, find_bytes hu h3]
      match cidr, a4, a6, ha with
      | some n, some v, none, ha =>
        by_cases hn : n ≤ 32
        · have ha := (if_pos hn).symm.trans ha
          cases ha
          dsimp only [Option.map_some]
          rw [if_neg (by omega), rdBytes_all, okb, ih, okb, vecAt_toList']
          rfl
        · have ha := (if_neg hn).symm.trans ha
          cases ha
      | some n, none, some v, ha =>
        by_cases hn : n ≤ 128
        · have ha := (if_pos hn).symm.trans ha
          cases ha
          dsimp only [Option.map_some, Option.map_none]
          rw [if_neg (by omega), rdBytes_all, okb, ih, okb, vecAt_toList']
          rfl
        · have ha := (if_neg hn).symm.trans ha
          cases ha
      | none, _, _, ha => cases ha
      | some n, some v, some w, ha => cases ha
      | some n, none, none, ha => cases ha
    · rw [if_pos (by simpa using hu)] at ha; cases ha

theorem toNat_eq_of {x : UInt8} {n : Nat} (h : number [x] 0 1 = n) : x = UInt8.ofNat n := by
  have : x.toNat + 256 * 0 = n := h
  rw [← this]; simp

theorem getEndpoint_spec {l : NvList} (hu : unique l = true) {o : Option Endpoint} (h : opt l b!"endpoint" asSockaddr = some o) : getEndpoint l = o.getD .unset := by
  rw [getEndpoint, find_eq _ hu]
  rcases opt_some h with ⟨h1, h2⟩ | ⟨v, e, h1, h2, h3⟩
  · rw [h1, h2]; rfl
  · rw [h1, h3]
    cases v with
    | num | flag | lists => cases h2
    | bin b =>
      have h2 : nvSockaddr b = some e := h2
      simp only [Option.bind_some, Nv.bin?, Option.getD_some]
      rw [nvSockaddr] at h2
      by_cases c : b.length = 16 ∧ number b 0 1 = 16 ∧ number b 1 1 = 2
      · rw [if_pos c] at h2
        obtain ⟨c1, -, c3⟩ := c
        match b, c1 with
        | [b0, b1, b2, b3, b4, b5, b6, b7, b8, b9, b10, b11, b12, b13, b14, b15], _ =>
          have hb1 : b1 = 2 := toNat_eq_of (x := b1) c3
          subst hb1
          rw [if_pos ⟨by simp, by simp, .inl rfl⟩]
          obtain ⟨w, hw, rfl⟩ := Option.map_eq_some_iff.1 h2
          have hw' : [b4, b5, b6, b7] = w.toList := bytes?_some hw
          have : vecAt (n := 4) ([b4, b5, b6, b7] ++ ([b8, b9, b10, b11, b12, b13, b14, b15] ++ List.replicate 12 0)) = w := by rw [hw', vecAt_toList]
          change Endpoint.in4 (vecAt (n := 4) ([b4, b5, b6, b7] ++ ([b8, b9, b10, b11, b12, b13, b14, b15] ++ List.replicate 12 0))) _ = _
          rw [this]
          simp [bePort, le, leNat, field]
      · rw [if_neg c] at h2
        by_cases c : b.length = 28 ∧ number b 0 1 = 28 ∧ number b 1 1 = 28
        · rw [if_pos c] at h2
          obtain ⟨c1, -, c3⟩ := c
          match b, c1 with
          | [b0, b1, b2, b3, b4, b5, b6, b7, b8, b9, b10, b11, b12, b13, b14, b15, b16, b17, b18, b19, b20, b21, b22, b23, b24, b25, b26, b27], _ =>
            have hb1 : b1 = 28 := toNat_eq_of (x := b1) c3
            subst hb1
            rw [if_pos ⟨by simp, by simp, .inr rfl⟩]
            obtain ⟨w, hw, rfl⟩ := Option.map_eq_some_iff.1 h2
            have hw' : [b8, b9, b10, b11, b12, b13, b14, b15, b16, b17, b18, b19, b20, b21, b22, b23] = w.toList := bytes?_some hw
            have : vecAt (n := 16) ([b8, b9, b10, b11, b12, b13, b14, b15, b16, b17, b18, b19, b20, b21, b22, b23] ++ [b24, b25, b26, b27]) = w := by rw [hw', vecAt_toList]
            change Endpoint.in6 (vecAt (n := 16) ([b8, b9, b10, b11, b12, b13, b14, b15, b16, b17, b18, b19, b20, b21, b22, b23] ++ [b24, b25, b26, b27])) _ _ _ = _
            rw [this]
            simp [bePort, le, leNat, field, number]
        · rw [if_neg c] at h2; cases h2

theorem time_spec {l : NvList} (hu : unique l = true) {o : Option (Int × Int)} (h : opt l b!"last-handshake-time" asTime = some o) :
    toInt64 (leNat (((binOf l b!"last-handshake-time" 16).getD []).take 8)) = (o.getD (0, 0)).1 ∧
    toInt64 (leNat (((binOf l b!"last-handshake-time" 16).getD []).drop 8)) = (o.getD (0, 0)).2 := by
  rw [binOf, find_eq _ hu]
  rcases opt_some h with ⟨h1, h2⟩ | ⟨v, e, h1, h2, h3⟩
  · rw [h1, h2]; exact ⟨by decide, by decide⟩
  · rw [h1, h3]
    cases v with
    | num | flag | lists => cases h2
    | bin b =>
      rw [asTime] at h2
      by_cases hb : b.length = 16
      · rw [if_pos hb] at h2
        cases h2
        have e1 : leNat (b.take 8) = number b 0 8 := by rw [number, WG.Obsd.le_eq]; rfl
        have e2 : leNat (b.drop 8) = number b 8 8 := by
          rw [number, WG.Obsd.le_eq, field, List.take_of_length_le (by simp; omega)]
        simp only [Option.bind_some, Nv.bin?, Option.getD_some]
        rw [if_pos hb, Option.getD_some, e1, e2, WG.Obsd.toInt64_signed (WG.Obsd.number_lt _ _ _), WG.Obsd.toInt64_signed (WG.Obsd.number_lt _ _ _)]
        exact ⟨rfl, rfl⟩
      · rw [if_neg hb] at h2; cases h2

theorem keyOf (o : Option Key) : vecAt ((o.map (·.toList)).getD []) = o.getD zeroKey := by
  cases o with
  | none => exact WG.Obsd.vecAt_nil
  | some k => exact vecAt_toList' k

theorem pskFlag (o : Option Key) : (o.map (·.toList)).any (¬ allZero ·) = o.any (· ≠ zeroKey) := by
  cases o with
  | none => rfl
  | some k => simp [allZero_key]

theorem numGet16 (o : Option Nat) : UInt16.ofNat (o.getD 0) = (o.map UInt16.ofNat).getD 0 := by cases o <;> rfl
theorem numGet32 (o : Option Nat) : UInt32.ofNat (o.getD 0) = (o.map UInt32.ofNat).getD 0 := by cases o <;> rfl

theorem getPeer_spec {l : NvList} {p : IoPeer} (h : nvPeer l = some p) : getPeer l = .ok (some p.shown) := by
  rw [nvPeer] at h
  by_cases hu : unique l = true
  · rw [if_neg (by simp [hu])] at h
    obtain ⟨key, h1, h⟩ := Option.bind_eq_some_iff.1 h
    obtain ⟨psk, h2, h⟩ := Option.bind_eq_some_iff.1 h
    obtain ⟨ka, h3, h⟩ := Option.bind_eq_some_iff.1 h
    obtain ⟨ep, h4, h⟩ := Option.bind_eq_some_iff.1 h
    obtain ⟨rep, -, h⟩ := Option.bind_eq_some_iff.1 h
    obtain ⟨rem, -, h⟩ := Option.bind_eq_some_iff.1 h
    obtain ⟨rx, h5, h⟩ := Option.bind_eq_some_iff.1 h
    obtain ⟨tx, h6, h⟩ := Option.bind_eq_some_iff.1 h
    obtain ⟨hs, h7, h⟩ := Option.bind_eq_some_iff.1 h
    obtain ⟨ls, h8, h⟩ := Option.bind_eq_some_iff.1 h
    obtain ⟨ips, h9, rfl⟩ := Option.map_eq_some_iff.1 h
    have t := time_spec hu h7
    rw [getPeer, binOf_eq hu h1, binOf_eq hu h2, numUpTo_eq hu h3, getEndpoint_spec hu h4, (find_num hu h5).1, (find_num hu h6).1, find_lists hu h8, getAips_spec _ _ h9, okb]
    simp only [Option.map_some]
    rw [t.1, t.2, keyOf, keyOf, pskFlag, numGet16]
    simp only [IoPeer.shown, Option.isSome_map]
  · rw [if_pos (by simpa using hu)] at h; cases h

theorem getPeers_spec : ∀ (ls : List NvList) (ps : List IoPeer), ls.mapM nvPeer = some ps → getPeers ls = .ok (some (ps.map IoPeer.shown))
  | [], ps, h => by cases h; rfl
  | l :: ls, ps, h => by
    rw [List.mapM_cons] at h
    obtain ⟨p, hp, h⟩ := Option.bind_eq_some_iff.1 h
    obtain ⟨r, hr, h⟩ := Option.bind_eq_some_iff.1 h
    cases h
    rw [getPeers, getPeer_spec hp, okb, getPeers_spec ls r hr]
    rfl

end WG.Fbsd
