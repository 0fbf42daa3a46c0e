import Verif.Proof.NetlinkSet
/-! Reading the messages of set operations back (C29, C30). -/
namespace WG
open Spec

/-! ### Finding attributes -/

theorem attr?_append (a b : List (Nat × List UInt8)) (t : Nat) : attr? (a ++ b) t = (attr? b t).or (attr? a t) := by
  simp only [attr?, List.filter_append, List.getLast?_append]
  cases (b.filter (·.1 = t)).getLast? <;> simp

theorem attr?_nil (t : Nat) : attr? [] t = none := rfl

theorem attr?_single (u : Nat) (d : List UInt8) (t : Nat) : attr? [(u, d)] t = if u = t then some d else none := by
  simp only [attr?, List.filter_cons, List.filter_nil]
  split <;> rename_i h <;> simp at h <;> simp [h]

/-- The attributes as read. -/
def dec (l : List (Nat × List UInt8)) : List (Nat × List UInt8) := l.map fun a => (a.1 % 0x4000, a.2)

theorem attrs_dec (l : List (Nat × List UInt8)) (h : ∀ a ∈ l, a.2.length + 4 < 65536 ∧ a.1 < 65536) : attrs (encAttrs l) = some (dec l) := attrs_enc l h

theorem dec_append (a b : List (Nat × List UInt8)) : dec (a ++ b) = dec a ++ dec b := by simp [dec]

theorem dec_opt (b : Prop) [Decidable b] (u : Nat) (d : List UInt8) : dec (if b then [(u, d)] else []) = if b then [(u % 0x4000, d)] else [] := by
  split <;> rfl

theorem attr?_opt (b : Prop) [Decidable b] (u : Nat) (d : List UInt8) (t : Nat) :
    attr? (if b then [(u, d)] else []) t = if b ∧ u = t then some d else none := by
  split <;> simp [attr?_single, attr?_nil, *]

theorem bytes?_toList {n : Nat} (v : Vector UInt8 n) : bytes? n v.toList = some v := by
  rw [bytes?, dif_pos (by simp)]
  congr 1

theorem num?_u16b (n : Nat) (h : n < 65536) : num? 2 (u16b n) = some n := by rw [num?, if_pos (u16b_length n), le_u16b n h]
theorem num?_u32b (n : Nat) (h : n < 2 ^ 32) : num? 4 (u32b n) = some n := by rw [num?, if_pos (u32b_length n), le_u32b n h]

/-- The prefix length is in the range of the family. -/
def IPok (a : AllowedIP) : Prop := a.cidr.toNat ≤ addrBits a.addr

theorem readIP_enc (a : AllowedIP) (h : IPok a) : readIP (encAttrs (ipList a)) = some a := by
  obtain ⟨ad, cidr⟩ := a
  simp only [IPok] at h
  have hc : num? 1 [cidr] = some cidr.toNat := by simp [num?, le]
  rw [readIP, attrs_enc _ (by cases ad <;> simp [ipList])]
  cases ad with
  | v4 ip =>
    simp only [addrBits] at h
    simp only [ipList, List.map_cons, List.map_nil, Option.bind_some]
    simp only [attr?, List.filter_cons, List.filter_nil]
    simp [num?_u16b, hc, h, bytes?_toList]
  | v6 ip =>
    simp only [addrBits] at h
    simp only [ipList, List.map_cons, List.map_nil, Option.bind_some]
    simp only [attr?, List.filter_cons, List.filter_nil]
    simp [num?_u16b, hc, h, bytes?_toList]

theorem u16_split (p : UInt16) : bePort [UInt8.ofNat (p.toNat / 256), UInt8.ofNat p.toNat] = p := by
  have := p.toNat_lt
  apply UInt16.toNat_inj.1
  simp only [bePort, List.reverse_cons, List.reverse_nil, List.nil_append, List.cons_append, le, UInt8.toNat_ofNat', UInt16.toNat_ofNat']
  omega

theorem readSockaddr_enc (e : Endpoint) (h : e ≠ .unset) : readSockaddr (sockaddrBytes e) = some e := by
  cases e with
  | unset => exact absurd rfl h
  | in4 a p =>
    have e1 : (sockaddrBytes (.in4 a p)).take 2 = u16b 2 := rfl
    have e2 : ((sockaddrBytes (.in4 a p)).drop 2).take 2 = [UInt8.ofNat (p.toNat / 256), UInt8.ofNat p.toNat] := rfl
    have e3 : ((sockaddrBytes (.in4 a p)).drop 4).take 4 = a.toList := by
      show (a.toList ++ List.replicate 8 0).take 4 = _
      rw [List.take_append_of_le_length (by simp), List.take_of_length_le (by simp)]
    have e4 : (sockaddrBytes (.in4 a p)).length = 16 := by simp [sockaddrBytes]
    rw [readSockaddr, e1, e2, e3, e4, if_pos ⟨rfl, rfl⟩, bytes?_toList, u16_split]; rfl
  | in6 a p fl sc =>
    have e1 : (sockaddrBytes (.in6 a p fl sc)).take 2 = u16b 10 := rfl
    have e2 : ((sockaddrBytes (.in6 a p fl sc)).drop 2).take 2 = [UInt8.ofNat (p.toNat / 256), UInt8.ofNat p.toNat] := rfl
    have e3 : ((sockaddrBytes (.in6 a p fl sc)).drop 4).take 4 = u32b fl.toNat := rfl
    have e5 : ((sockaddrBytes (.in6 a p fl sc)).drop 8).take 16 = a.toList := by
      show (a.toList ++ u32b sc.toNat).take 16 = _
      rw [List.take_append_of_le_length (by simp), List.take_of_length_le (by simp)]
    have e6 : (sockaddrBytes (.in6 a p fl sc)).drop 24 = u32b sc.toNat := by
      show (a.toList ++ u32b sc.toNat).drop 16 = _
      rw [List.drop_append, List.drop_of_length_le (by simp)]; simp
    have e4 : (sockaddrBytes (.in6 a p fl sc)).length = 28 := by simp [sockaddrBytes]
    rw [readSockaddr, e1, e2, e3, e4, e5, e6, if_neg (by simp), if_pos ⟨rfl, rfl⟩, bytes?_toList, u16_split, le_u32b _ fl.toNat_lt, le_u32b _ sc.toNat_lt]
    simp

theorem elements_enc {α β : Type} (read : List UInt8 → Option β) (enc : α → Nat × List UInt8) (val : α → β) (l : List α)
    (h1 : ∀ a ∈ l, (enc a).1 % 0x4000 = 0 ∧ (enc a).1 < 65536 ∧ (enc a).2.length + 4 < 65536) (h2 : ∀ a ∈ l, read (enc a).2 = some (val a)) :
    elements read (encAttrs (l.map enc)) = some (l.map val) := by
  rw [elements, attrs_enc _ (by
    intro x hx
    obtain ⟨a, ha, rfl⟩ := List.mem_map.1 hx
    exact ⟨(h1 a ha).2.2, (h1 a ha).2.1⟩)]
  simp only [Option.bind_some, List.map_map]
  induction l with
  | nil => rfl
  | cons a l ih =>
    have ih' := ih (fun x hx => h1 x (by simp [hx])) (fun x hx => h2 x (by simp [hx]))
    rw [List.map_cons, List.mapM_cons, ih']
    simp [(h1 a (by simp)).1, h2 a (by simp)]

/-- The bits of the flags of a peer. -/
theorem peerFlagBits_bits (p : Peer) (first : Bool) : peerFlagBits p first < 4 ∧ (peerFlagBits p first).testBit 0 = p.flags.removeMe ∧
    (peerFlagBits p first).testBit 1 = (first && p.flags.replaceAllowedIPs) := by
  simp only [peerFlagBits]
  cases p.flags.removeMe <;> cases first <;> cases p.flags.replaceAllowedIPs <;> decide

theorem member_length (l : List (Nat × List UInt8)) (a : Nat × List UInt8) (h : a ∈ l) : a.2.length + 4 ≤ (encAttrs l).length := by
  induction l with
  | nil => simp at h
  | cons b l ih =>
    rw [encAttrs_cons, List.length_append, encAttr_length]
    have := align4_ge b.2.length
    rcases List.mem_cons.1 h with rfl | h
    · omega
    · have := ih h; omega

theorem Frag.attrs_types (f : Frag) : ∀ a ∈ f.attrs, a.1 < 65536 := by
  intro a ha
  simp only [Frag.attrs, peerList, List.mem_append] at ha
  have opt : ∀ (b : Prop) [Decidable b] (t : Nat) (d : List UInt8), t < 65536 → a ∈ (if b then [(t, d)] else []) → a.1 < 65536 := by
    intro b _ t d ht h
    split at h <;> simp at h
    subst h; exact ht
  rcases ha with ((((ha | ha) | ha) | ha) | ha) | ha
  · simp at ha; subst ha; simp
  · exact opt _ _ _ (by decide) ha
  · exact opt _ _ _ (by decide) ha
  · exact opt _ _ _ (by decide) ha
  · exact opt _ _ _ (by decide) ha
  · split at ha <;> simp at ha
    subst ha; simp

theorem optional_ite {α : Type} (b : Bool) (d : List UInt8) (read : List UInt8 → Option α) (v : α) (h : b = true → read d = some v) :
    optional (if b = true then some d else none) read = some (if b = true then some v else none) := by
  cases b
  · rfl
  · simp [Spec.optional, h rfl]

theorem readPeerReq_enc (f : Frag) (hl : (encAttrs f.attrs).length < 65536) (hip : ∀ a ∈ f.ips.getD [], IPok a) :
    readPeerReq (encAttrs f.attrs) = some f.req := by
  rw [readPeerReq, attrs_dec _ (fun a ha => ⟨Nat.lt_of_le_of_lt (member_length _ a ha) hl, f.attrs_types a ha⟩)]
  simp only [Option.bind_some]
  have key : ∀ t, attr? (dec f.attrs) t =
      (if t = 9 then f.ips.map fun l => encAttrs (l.map ipAttr) else none).or
      ((if peerFlagBits f.peer f.first ≠ 0 ∧ 3 = t then some (u32b (peerFlagBits f.peer f.first)) else none).or
      ((if (f.first && f.peer.flags.hasKeepalive) = true ∧ 5 = t then some (u16b f.peer.keepalive.toNat) else none).or
      ((if (f.first && decide (f.peer.endpoint ≠ .unset)) = true ∧ 4 = t then some (sockaddrBytes f.peer.endpoint) else none).or
      ((if (f.first && f.peer.flags.hasPresharedKey) = true ∧ 2 = t then some f.peer.presharedKey.toList else none).or
      (if 1 = t then some f.peer.publicKey.toList else none))))) := by
    intro t
    simp only [Frag.attrs, peerList, dec_append, attr?_append, dec_opt, attr?_opt]
    congr 1
    · cases f.ips with
      | none => simp [dec, attr?_nil]
      | some l =>
        simp only [dec, List.map_cons, List.map_nil, attr?_single, Option.map_some]
        by_cases h : t = 9
        · subst h; rfl
        · rw [if_neg h, if_neg (by omega)]
    · simp only [dec, List.map_cons, List.map_nil, attr?_single, Nat.reduceMod]
  have a1 : attr? (dec f.attrs) 1 = some f.peer.publicKey.toList := by rw [key]; simp
  have a2 : attr? (dec f.attrs) 2 = if (f.first && f.peer.flags.hasPresharedKey) = true then some f.peer.presharedKey.toList else none := by
    rw [key]; simp
  have a3 : attr? (dec f.attrs) 3 = if decide (peerFlagBits f.peer f.first ≠ 0) = true then some (u32b (peerFlagBits f.peer f.first)) else none := by
    rw [key]; simp
  have a4 : attr? (dec f.attrs) 4 = if (f.first && decide (f.peer.endpoint ≠ .unset)) = true then some (sockaddrBytes f.peer.endpoint) else none := by
    rw [key]; simp
  have a5 : attr? (dec f.attrs) 5 = if (f.first && f.peer.flags.hasKeepalive) = true then some (u16b f.peer.keepalive.toNat) else none := by
    rw [key]; simp
  have a9 : attr? (dec f.attrs) 9 = f.ips.map fun l => encAttrs (l.map ipAttr) := by
    rw [key]; simp
  have hb := peerFlagBits_bits f.peer f.first
  rw [a1, a2, a3, a4, a5, a9]
  rw [optional_ite _ _ _ f.peer.presharedKey (fun _ => bytes?_toList _), optional_ite _ _ _ (peerFlagBits f.peer f.first) (fun _ => num?_u32b _ (by omega)),
    optional_ite _ _ _ f.peer.endpoint (fun h => readSockaddr_enc _ (by simp at h; exact h.2)),
    optional_ite _ _ _ f.peer.keepalive.toNat (fun _ => num?_u16b _ f.peer.keepalive.toNat_lt)]
  have hips : optional (f.ips.map fun l => encAttrs (l.map ipAttr)) (elements readIP) = some f.ips := by
    cases hf : f.ips with
    | none => rfl
    | some l =>
      simp only [Option.map_some, Spec.optional]
      rw [elements_enc readIP ipAttr id l (fun a _ => ⟨by simp [ipAttr], by simp [ipAttr], by have := ipList_length a; simp only [ipAttr]; omega⟩)
        (fun a ha => readIP_enc a (hip a (by simp [hf, ha])))]
      simp
  rw [hips]
  simp only [Option.bind_some, bytes?_toList, Option.map_some, Frag.req]
  congr 1
  have hfl : (if decide (peerFlagBits f.peer f.first ≠ 0) = true then some (peerFlagBits f.peer f.first) else none).getD 0 = peerFlagBits f.peer f.first := by
    by_cases h : peerFlagBits f.peer f.first = 0
    · simp [h]
    · simp [h]
  rw [hfl, hb.2.1, hb.2.2]
  congr 1
  · simp only [Bool.and_eq_true]
    split <;> simp
end WG
