import Verif.Model.IpcLinux
import Verif.Spec.Netlink
/-! Netlink messages of set operations (C29, C30). -/
namespace WG
open Spec

/-! ### Numbers and attributes -/

theorem align4_eq (n : Nat) : align4 n = pad4 n := rfl
theorem align4_ge (n : Nat) : n ≤ align4 n := by simp only [align4]; omega
theorem align4_lt (n : Nat) : align4 n < n + 4 := by simp only [align4]; omega
theorem align4_add4 (n : Nat) : align4 (4 + n) = 4 + align4 n := by simp only [align4]; omega
theorem align4_of_dvd {n : Nat} (h : 4 ∣ n) : align4 n = n := by simp only [align4]; omega
theorem align4_dvd (n : Nat) : 4 ∣ align4 n := by simp only [align4]; omega

theorem le_u16b (n : Nat) (h : n < 65536) : le (u16b n) = n := by
  simp only [u16b, le, UInt8.toNat_ofNat']; omega
theorem le_u32b (n : Nat) (h : n < 2 ^ 32) : le (u32b n) = n := by
  simp only [u32b, le, UInt8.toNat_ofNat']; omega
@[simp] theorem u16b_length (n : Nat) : (u16b n).length = 2 := rfl
@[simp] theorem u32b_length (n : Nat) : (u32b n).length = 4 := rfl

/-- One attribute. -/
def encAttr (t : Nat) (d : List UInt8) : List UInt8 :=
  u16b (4 + d.length) ++ u16b t ++ d ++ List.replicate (align4 d.length - d.length) 0

/-- Attributes one after another. -/
def encAttrs (l : List (Nat × List UInt8)) : List UInt8 := l.flatMap fun a => encAttr a.1 a.2

theorem encAttr_length (t : Nat) (d : List UInt8) : (encAttr t d).length = 4 + align4 d.length := by
  have := align4_ge d.length
  simp only [encAttr, List.length_append, u16b_length, List.length_replicate]; omega

theorem encAttrs_cons (a : Nat × List UInt8) (l : List (Nat × List UInt8)) : encAttrs (a :: l) = encAttr a.1 a.2 ++ encAttrs l := rfl
theorem encAttrs_append (a b : List (Nat × List UInt8)) : encAttrs (a ++ b) = encAttrs a ++ encAttrs b := by simp [encAttrs]
@[simp] theorem encAttrs_nil : encAttrs [] = [] := rfl
theorem encAttrs_one (t : Nat) (d : List UInt8) : encAttrs [(t, d)] = encAttr t d := by simp [encAttrs]

theorem encAttrs_single (a : Nat × List UInt8) : encAttrs [a] = encAttr a.1 a.2 := by simp [encAttrs]

theorem encAttrs_dvd (l : List (Nat × List UInt8)) : 4 ∣ (encAttrs l).length := by
  induction l with
  | nil => simp
  | cons a l ih =>
    rw [encAttrs_cons, List.length_append, encAttr_length]
    have := align4_dvd a.2.length
    omega

theorem putAttr_eq (m : List UInt8) (t : Nat) (d : List UInt8) : putAttr m t d = m ++ encAttr t d := by simp [putAttr, encAttr]

theorem nestEnd_eq (c : NlCtx) (m : List UInt8) (t : Nat) (body : List UInt8) (h : 4 ∣ body.length) :
    nestEnd (nestStart c m t ++ body) m.length = m ++ encAttr (0x8000 + t) body := by
  simp only [nestEnd, nestStart, encAttr, align4_of_dvd h, Nat.sub_self, List.replicate_zero, List.append_nil]
  rw [show m ++ [c.junk.1, c.junk.2] ++ u16b (0x8000 + t) ++ body = m ++ ([c.junk.1, c.junk.2] ++ (u16b (0x8000 + t) ++ body)) from by simp]
  rw [List.take_append_of_le_length (by simp), List.take_length, List.drop_append, List.drop_of_length_le (by omega)]
  simp only [List.length_append, u16b_length]
  rw [show m.length + 2 - m.length = 2 from by omega,
    show m.length + ([c.junk.1, c.junk.2].length + (2 + body.length)) - m.length = 4 + body.length from by simp only [List.length_cons, List.length_nil]; omega]
  simp

theorem attrsAux_enc (l : List (Nat × List UInt8)) (h : ∀ a ∈ l, a.2.length + 4 < 65536 ∧ a.1 < 65536) :
    ∀ fuel, (encAttrs l).length < fuel → attrsAux fuel (encAttrs l) = some (l.map fun a => (a.1 % 0x4000, a.2)) := by
  induction l with
  | nil => intro fuel hf; cases fuel with
    | zero => omega
    | succ f => simp [attrsAux]
  | cons a l ih =>
    intro fuel hf
    obtain ⟨t, d⟩ := a
    have ha := h (t, d) (by simp)
    simp only at ha
    have hge := align4_ge d.length
    cases fuel with
    | zero => omega
    | succ f =>
      have hlen : (encAttrs ((t, d) :: l)).length = 4 + align4 d.length + (encAttrs l).length := by
        rw [encAttrs_cons, List.length_append, encAttr_length]
      have e : encAttrs ((t, d) :: l) = u16b (4 + d.length) ++ (u16b t ++ (d ++ (List.replicate (align4 d.length - d.length) 0 ++ encAttrs l))) := by
        simp [encAttrs_cons, encAttr]
      have h1 : (encAttrs ((t, d) :: l)).take 2 = u16b (4 + d.length) := by rw [e]; rfl
      have h2 : ((encAttrs ((t, d) :: l)).drop 2).take 2 = u16b t := by rw [e]; rfl
      have h3 : ((encAttrs ((t, d) :: l)).drop 4).take d.length = d := by
        have hd : ∀ X : List UInt8, (u16b (4 + d.length) ++ (u16b t ++ X)).drop 4 = X := fun _ => rfl
        rw [e, hd, List.take_append_of_le_length (by omega), List.take_length]
      have h4 : (encAttrs ((t, d) :: l)).drop (4 + align4 d.length) = encAttrs l := by
        rw [encAttrs_cons, List.drop_append, List.drop_of_length_le (by rw [encAttr_length]; exact Nat.le_refl _), encAttr_length]
        simp
      rw [attrsAux, if_neg (by rw [← List.length_eq_zero_iff, hlen]; omega)]
      simp only [h1, h2, le_u16b _ (show 4 + d.length < 65536 by omega), le_u16b t ha.2, hlen]
      rw [if_neg (by omega), show 4 + d.length - 4 = d.length from by omega, h3, ← align4_eq, align4_add4, h4,
        ih (fun x hx => h x (by simp [hx])) f (by omega)]
      rfl

/-- Reading what was written. -/
theorem attrs_enc (l : List (Nat × List UInt8)) (h : ∀ a ∈ l, a.2.length + 4 < 65536 ∧ a.1 < 65536) :
    attrs (encAttrs l) = some (l.map fun a => (a.1 % 0x4000, a.2)) := attrsAux_enc l h _ (by omega)

/-! ### Putting attributes -/

/-- Put all or stop at the first that does not fit. -/
def putAll (c : NlCtx) (m : List UInt8) : List (Nat × List UInt8) → List UInt8 × Bool
  | [] => (m, true)
  | a :: l => andThen (putCheck c m a.1 a.2) fun m => putAll c m l

theorem andThen_assoc (r : List UInt8 × Bool) (f g : List UInt8 → List UInt8 × Bool) : andThen (andThen r f) g = andThen r fun m => andThen (f m) g := by
  unfold andThen
  by_cases h : r.2 = true
  · simp only [h, if_true]
  · simp only [h, if_false, Bool.false_eq_true]

theorem putAll_append (c : NlCtx) (m : List UInt8) (a b : List (Nat × List UInt8)) :
    putAll c m (a ++ b) = andThen (putAll c m a) fun m => putAll c m b := by
  induction a generalizing m with
  | nil => simp [putAll, andThen]
  | cons x a ih => simp only [List.cons_append, putAll, andThen_assoc, ih]

theorem andThen_id (r : List UInt8 × Bool) : andThen r (fun m => (m, true)) = r := by
  obtain ⟨a, b⟩ := r
  cases b <;> rfl

theorem putAll_one (c : NlCtx) (m : List UInt8) (t : Nat) (d : List UInt8) : putAll c m [(t, d)] = putCheck c m t d := by
  exact andThen_id _

theorem putIf_eq (c : NlCtx) (b : Bool) (m : List UInt8) (t : Nat) (d : List UInt8) : putIf b c m t d = putAll c m (if b then [(t, d)] else []) := by
  cases b
  · rfl
  · simp only [putIf, if_true, putAll_one]

theorem putAll_spec (c : NlCtx) (l : List (Nat × List UInt8)) : ∀ m : List UInt8, 20 + m.length ≤ c.size →
    (20 + m.length + (encAttrs l).length ≤ c.size → putAll c m l = (m ++ encAttrs l, true)) ∧
    (c.size < 20 + m.length + (encAttrs l).length → (putAll c m l).2 = false ∧ ∃ t, (putAll c m l).1 = m ++ t) := by
  induction l with
  | nil => intro m hm; simp only [putAll, encAttrs_nil, List.append_nil, List.length_nil]; exact ⟨fun _ => trivial, fun h => by omega⟩
  | cons a l ih =>
    intro m hm
    have hlen : (encAttrs (a :: l)).length = 4 + align4 a.2.length + (encAttrs l).length := by rw [encAttrs_cons, List.length_append, encAttr_length]
    by_cases hf : 20 + m.length + 4 + align4 a.2.length > c.size
    · have e : putCheck c m a.1 a.2 = (m, false) := by rw [putCheck, if_pos hf]
      simp only [putAll, e, andThen, Bool.false_eq_true, if_false]
      exact ⟨fun h => by omega, fun _ => ⟨trivial, [], by simp⟩⟩
    · have e : putCheck c m a.1 a.2 = (m ++ encAttr a.1 a.2, true) := by rw [putCheck, if_neg hf, putAttr_eq]
      have hl : (m ++ encAttr a.1 a.2).length = m.length + 4 + align4 a.2.length := by rw [List.length_append, encAttr_length]; omega
      have := ih (m ++ encAttr a.1 a.2) (by omega)
      simp only [putAll, e, andThen, if_true]
      refine ⟨fun h => ?_, fun h => ?_⟩
      · rw [this.1 (by omega)]; simp [encAttrs_cons]
      · obtain ⟨h1, t, h2⟩ := this.2 (by omega)
        exact ⟨h1, encAttr a.1 a.2 ++ t, by rw [h2]; simp⟩

/-- The attributes of an allowed IP. -/
def ipList (a : AllowedIP) : List (Nat × List UInt8) :=
  [(1, u16b (match a.addr with | .v4 _ => 2 | .v6 _ => 10)), (2, match a.addr with | .v4 ip => ip.toList | .v6 ip => ip.toList), (3, [a.cidr])]

theorem ipAttrs_eq (c : NlCtx) (m : List UInt8) (a : AllowedIP) : ipAttrs c m a = putAll c m (ipList a) := by
  simp only [ipAttrs, ipList, putAll]
  congr 1; funext m; congr 1; funext m
  exact (andThen_id _).symm

theorem ipList_length (a : AllowedIP) : (encAttrs (ipList a)).length ≤ 36 := by
  cases h : a.addr <;>
    simp [ipList, h, encAttrs_cons, encAttr_length, align4]

/-- An allowed IP as an attribute. -/
def ipAttr (a : AllowedIP) : Nat × List UInt8 := (0x8000, encAttrs (ipList a))

theorem nestStart_length (c : NlCtx) (m : List UInt8) (t : Nat) : (nestStart c m t).length = m.length + 4 := by
  simp [nestStart]

theorem nestCancel_eq (c : NlCtx) (m : List UInt8) (t : Nat) (x : List UInt8) : nestCancel (nestStart c m t ++ x) m.length = m := by
  simp only [nestCancel, nestStart]
  rw [show m ++ [c.junk.1, c.junk.2] ++ u16b (0x8000 + t) ++ x = m ++ ([c.junk.1, c.junk.2] ++ (u16b (0x8000 + t) ++ x)) from by simp]
  rw [List.take_append_of_le_length (by omega), List.take_length]

theorem nestFits_iff (c : NlCtx) (m : List UInt8) : nestFits c m = true ↔ 20 + m.length + 4 ≤ c.size := by
  simp [nestFits]

theorem ipAttr_length (a : AllowedIP) : (encAttr (ipAttr a).1 (ipAttr a).2).length = 4 + (encAttrs (ipList a)).length := by
  rw [encAttr_length]; simp only [ipAttr]; rw [align4_of_dvd (encAttrs_dvd _)]

theorem putIP_spec (c : NlCtx) (m : List UInt8) (a : AllowedIP) (_hm : 20 + m.length ≤ c.size) :
    putIP c m a = if 20 + m.length + (encAttrs [ipAttr a]).length ≤ c.size then (m ++ encAttrs [ipAttr a], true) else (m, false) := by
  have hl : (encAttrs [ipAttr a]).length = 4 + (encAttrs (ipList a)).length := by
    rw [← ipAttr_length]; simp [encAttrs]
  simp only [putIP]
  by_cases hn : nestFits c m = true
  · have h20 := (nestFits_iff c m).1 hn
    have hs := putAll_spec c (ipList a) (nestStart c m 0) (by rw [nestStart_length]; omega)
    rw [nestStart_length] at hs
    simp only [hn, Bool.not_true, Bool.false_eq_true, if_false, ipAttrs_eq]
    by_cases hf : 20 + m.length + (encAttrs [ipAttr a]).length ≤ c.size
    · rw [hs.1 (by omega), if_pos hf]
      simp only [if_true]
      rw [nestEnd_eq _ _ _ _ (encAttrs_dvd _)]
      simp [encAttrs_cons, ipAttr]
    · obtain ⟨h1, t, h2⟩ := hs.2 (by omega)
      rw [if_neg hf, h1, h2]
      simp only [Bool.false_eq_true, if_false, nestCancel_eq]
  · have : ¬ 20 + m.length + 4 ≤ c.size := fun h => hn ((nestFits_iff c m).2 h)
    simp only [hn, Bool.not_false, if_true]
    rw [if_neg (by omega)]

theorem ipsLoop_spec (c : NlCtx) (l : List AllowedIP) : ∀ m : List UInt8, 20 + m.length ≤ c.size →
    ∃ taken rest, l = taken ++ rest ∧ ipsLoop c m l = (m ++ encAttrs (taken.map ipAttr), rest) ∧
      20 + m.length + (encAttrs (taken.map ipAttr)).length ≤ c.size ∧ (l ≠ [] → 20 + m.length + 40 ≤ c.size → taken ≠ []) := by
  induction l with
  | nil => intro m hm; exact ⟨[], [], rfl, by simp [ipsLoop], by simpa using hm, by simp⟩
  | cons a l ih =>
    intro m hm
    simp only [ipsLoop, putIP_spec c m a hm]
    by_cases hf : 20 + m.length + (encAttrs [ipAttr a]).length ≤ c.size
    · simp only [if_pos hf, if_true]
      obtain ⟨taken, rest, h1, h2, h3, -⟩ := ih (m ++ encAttrs [ipAttr a]) (by rw [List.length_append]; omega)
      refine ⟨a :: taken, rest, by rw [h1]; rfl, ?_, ?_, by simp⟩
      · rw [h2]; simp [encAttrs]
      · rw [List.map_cons, encAttrs_cons, List.length_append]
        rw [List.length_append, encAttrs_single] at h3
        simp only [ipAttr] at h3 ⊢; omega
    · simp only [if_neg hf, Bool.false_eq_true, if_false]
      refine ⟨[], a :: l, rfl, by simp, by simpa using hm, fun _ h => absurd ?_ hf⟩
      have := ipList_length a
      have hl := ipAttr_length a
      rw [encAttrs_cons, encAttrs_nil, List.append_nil, hl]; omega

/-! ### Peers -/

/-- The attributes of a peer before its allowed IPs. -/
def peerList (p : Peer) (first : Bool) : List (Nat × List UInt8) :=
  [(1, p.publicKey.toList)] ++ (if first && p.flags.hasPresharedKey then [(2, p.presharedKey.toList)] else []) ++
  (if first && p.endpoint ≠ .unset then [(4, sockaddrBytes p.endpoint)] else []) ++
  (if first && p.flags.hasKeepalive then [(5, u16b p.keepalive.toNat)] else []) ++
  (if peerFlagBits p first ≠ 0 then [(3, u32b (peerFlagBits p first))] else [])

theorem peerAttrs_eq (c : NlCtx) (m : List UInt8) (p : Peer) (first : Bool) : peerAttrs c m p first = putAll c m (peerList p first) := by
  simp only [peerAttrs, peerList, putAll_append, putIf_eq, andThen_assoc, putAll_one, decide_eq_true_eq]

theorem sockaddr_length (e : Endpoint) : (sockaddrBytes e).length ≤ 28 := by cases e <;> simp [sockaddrBytes]

theorem peerList_length (p : Peer) (first : Bool) : (encAttrs (peerList p first)).length ≤ 120 ∧
    (first = false → (encAttrs (peerList p first)).length ≤ 44) := by
  have opt : ∀ (b : Prop) [Decidable b] (t : Nat) (d : List UInt8) (n : Nat), 4 + align4 d.length ≤ n → (encAttrs (if b then [(t, d)] else [])).length ≤ n := by
    intro b _ t d n h
    split
    · rw [encAttrs_one, encAttr_length]; exact h
    · simp
  have off : ∀ (t : Nat) (d : List UInt8), (encAttrs (if (false : Bool) = true then [(t, d)] else [])).length = 0 := by intros; rfl
  have h1 : (encAttrs [(1, p.publicKey.toList)]).length = 36 := by rw [encAttrs_one, encAttr_length]; simp [align4]
  have h2 := opt (first && p.flags.hasPresharedKey) 2 p.presharedKey.toList 36 (by simp [align4])
  have h3 := opt (first && decide (p.endpoint ≠ .unset)) 4 (sockaddrBytes p.endpoint) 32 (by
    have := sockaddr_length p.endpoint; simp only [align4]; omega)
  have h4 := opt (first && p.flags.hasKeepalive) 5 (u16b p.keepalive.toNat) 8 (by simp [align4])
  have h5 := opt (peerFlagBits p first ≠ 0) 3 (u32b (peerFlagBits p first)) 8 (by simp [align4])
  simp only [peerList, encAttrs_append, List.length_append]
  refine ⟨by omega, ?_⟩
  rintro rfl
  simp only [Bool.false_and, off] at h2 h3 h4 ⊢
  omega

/-- What is written of a peer in one message: the peer, whether its settings are included, and the allowed IPs (`none`: no list
at all). -/
structure Frag where
  peer : Peer
  first : Bool
  ips : Option (List AllowedIP)

/-- Its attributes. -/
def Frag.attrs (f : Frag) : List (Nat × List UInt8) :=
  peerList f.peer f.first ++ (match f.ips with | none => [] | some l => [(0x8009, encAttrs (l.map ipAttr))])

/-- It as one attribute. -/
def Frag.attr (f : Frag) : Nat × List UInt8 := (0x8000, encAttrs f.attrs)

/-- What it asks for. -/
def Frag.req (f : Frag) : PeerReq where
  key := f.peer.publicKey
  remove := f.peer.flags.removeMe
  replaceIPs := f.first && f.peer.flags.replaceAllowedIPs
  psk := if f.first && f.peer.flags.hasPresharedKey then some f.peer.presharedKey else none
  endpoint := if f.first && f.peer.endpoint ≠ .unset then some f.peer.endpoint else none
  keepalive := if f.first && f.peer.flags.hasKeepalive then some f.peer.keepalive else none
  ips := f.ips.getD []

/-- What remains to be asked for. -/
def remaining : List Peer → Option (List AllowedIP) → List PeerReq
  | [], _ => []
  | p :: ps, none => Frag.req ⟨p, true, some p.allowedIPs⟩ :: ps.map fun p => Frag.req ⟨p, true, some p.allowedIPs⟩
  | p :: ps, some r => Frag.req ⟨p, false, some r⟩ :: ps.map fun p => Frag.req ⟨p, true, some p.allowedIPs⟩

theorem remaining_none (ps : List Peer) : remaining ps none = ps.map fun p => Frag.req ⟨p, true, some p.allowedIPs⟩ := by cases ps <;> rfl

/-- How much remains. -/
def todo : List Peer → Option (List AllowedIP) → Nat
  | [], _ => 0
  | p :: ps, none => 2 + p.allowedIPs.length + (ps.map fun p => 2 + p.allowedIPs.length).sum
  | _ :: ps, some r => 1 + r.length + (ps.map fun p => 2 + p.allowedIPs.length).sum

theorem todo_none (ps : List Peer) : todo ps none = (ps.map fun p => 2 + p.allowedIPs.length).sum := by cases ps <;> simp [todo]

theorem todo_cons_none (p : Peer) (ps : List Peer) : todo (p :: ps) none = 2 + p.allowedIPs.length + todo ps none := by rw [todo_none ps]; rfl
theorem todo_cons_some (p : Peer) (ps : List Peer) (r : List AllowedIP) : todo (p :: ps) (some r) = 1 + r.length + todo ps none := by rw [todo_none ps]; rfl
theorem remaining_cons_none (p : Peer) (ps : List Peer) : remaining (p :: ps) none = Frag.req ⟨p, true, some p.allowedIPs⟩ :: remaining ps none := by
  rw [remaining_none ps]; rfl
theorem remaining_cons_some (p : Peer) (ps : List Peer) (r : List AllowedIP) :
    remaining (p :: ps) (some r) = Frag.req ⟨p, false, some r⟩ :: remaining ps none := by rw [remaining_none ps]; rfl

/-- The place of the pointers is sensible. -/
def Sensible : List Peer → Option (List AllowedIP) → Prop
  | [], ip => ip = none
  | _, none => True
  | p :: _, some r => r ≠ [] ∧ p.allowedIPs ≠ [] ∧ ∀ a ∈ r, a ∈ p.allowedIPs

theorem foldl_giveIP_append (k : Key) (o : AllowedIP → Option Key) (a b : List AllowedIP) :
    (a ++ b).foldl (giveIP k) o = b.foldl (giveIP k) (a.foldl (giveIP k) o) := List.foldl_append ..

/-- Sending the rest of the allowed IPs of a peer after a first part. -/
theorem frag_merge (s : Iface) (p : Peer) (first : Bool) (io : Option (List AllowedIP)) (b : List AllowedIP) :
    applyPeerReq (applyPeerReq s (Frag.req ⟨p, first, io⟩)) (Frag.req ⟨p, false, some b⟩) = applyPeerReq s (Frag.req ⟨p, first, some (io.getD [] ++ b)⟩) := by
  by_cases hr : p.flags.removeMe = true
  · simp only [applyPeerReq, Frag.req, hr, if_true]
    congr 1
    · funext k; split <;> rfl
    · funext n
      simp only [dropOwner]
      by_cases h : s.owner n = some p.publicKey
      · simp [h]
      · simp only [if_neg h]
  · simp only [applyPeerReq, Frag.req, hr, Bool.false_eq_true, if_false, Bool.false_and, if_true, Option.getD_some, Option.getD_none]
    congr 1
    · funext k
      by_cases hk : k = p.publicKey
      · simp only [if_pos hk]
      · simp only [if_neg hk]
    · rw [foldl_giveIP_append]

/-- The pairs of key and allowed IP of requests. -/
def pairs (l : List PeerReq) : List (Key × AllowedIP) := l.flatMap fun r => r.ips.map fun a => (r.key, a)

/-- Facts about the fragments written from a place. -/
structure Wrote (ps : List Peer) (ip : Option (List AllowedIP)) (fs : List Frag) (ps' : List Peer) (ip' : Option (List AllowedIP)) : Prop where
  meaning : ∀ s, (remaining ps' ip').foldl applyPeerReq ((fs.map Frag.req).foldl applyPeerReq s) = (remaining ps ip).foldl applyPeerReq s
  splits : ∀ rest, Splits (remaining ps' ip') rest → Splits (remaining ps ip) (fs.map Frag.req ++ rest)
  pairs : pairs (fs.map Frag.req) ++ pairs (remaining ps' ip') = pairs (remaining ps ip)
  sensible : Sensible ps' ip'
  todo : todo ps' ip' ≤ todo ps ip
  suffix : ∀ p ∈ ps', p ∈ ps
  source : ∀ f ∈ fs, f.peer ∈ ps ∧ ∀ a ∈ f.ips.getD [], a ∈ f.peer.allowedIPs

theorem peersLoop_spec (c : NlCtx) (ps : List Peer) : ∀ (m : List UInt8) (ip : Option (List AllowedIP)), 20 + m.length ≤ c.size → Sensible ps ip →
    ∃ fs ps' ip', peersLoop c m ps ip = (m ++ encAttrs (fs.map Frag.attr), ps', ip') ∧ 20 + m.length + (encAttrs (fs.map Frag.attr)).length ≤ c.size ∧
      Wrote ps ip fs ps' ip' ∧ (ps ≠ [] → 20 + m.length + 168 ≤ c.size → todo ps' ip' < todo ps ip) := by
  induction ps with
  | nil =>
    intro m ip hm hs
    simp only [Sensible] at hs; subst hs
    exact ⟨[], [], none, by simp [peersLoop], by simpa using hm, ⟨fun _ => rfl, fun _ h => h, rfl, rfl, Nat.le_refl _, by simp, by simp⟩, by simp⟩
  | cons p ps ih =>
    intro m ip hm hs
    have nothing : Wrote (p :: ps) ip [] (p :: ps) ip := ⟨fun _ => rfl, fun _ h => h, rfl, hs, Nat.le_refl _, by simp, by simp⟩
    have hpl := peerList_length p ip.isNone
    simp only [peersLoop]
    by_cases hn : nestFits c m = true
    · have h20 := (nestFits_iff c m).1 hn
      have hsp := putAll_spec c (peerList p ip.isNone) (nestStart c m 0) (by rw [nestStart_length]; omega)
      rw [nestStart_length] at hsp
      simp only [hn, Bool.not_true, Bool.false_eq_true, if_false, peerAttrs_eq]
      by_cases hf : 20 + (m.length + 4) + (encAttrs (peerList p ip.isNone)).length ≤ c.size
      · rw [hsp.1 hf]
        simp only [Bool.not_true, Bool.false_eq_true, if_false]
        have hml : ∀ f : Frag, (m ++ encAttrs [f.attr]).length = m.length + 4 + (encAttrs f.attrs).length := by
          intro f; rw [encAttrs_single, List.length_append]; simp only [Frag.attr]; rw [encAttr_length, align4_of_dvd (encAttrs_dvd _)]; omega
        by_cases hp : p.allowedIPs = []
        · -- no allowed IPs: on to the next peer
          rw [if_pos hp]
          have hipn : ip = none := by
            cases ip with
            | none => rfl
            | some r => exact absurd hp hs.2.1
          subst hipn
          let f : Frag := ⟨p, true, none⟩
          have hfa : f.attrs = peerList p true := by simp [f, Frag.attrs]
          have hE : nestEnd (nestStart c m 0 ++ encAttrs (peerList p true)) m.length = m ++ encAttrs [f.attr] := by
            rw [nestEnd_eq _ _ _ _ (encAttrs_dvd _), encAttrs_single]
            simp [Frag.attr, hfa]
          simp only [Option.isNone_none] at hf ⊢
          rw [hE]
          obtain ⟨fs, ps', ip', h1, h2, w, -⟩ := ih (m ++ encAttrs [f.attr]) none (by rw [hml, hfa]; omega) (by cases ps <;> simp [Sensible])
          have hreq : f.req = Frag.req ⟨p, true, some p.allowedIPs⟩ := by simp [f, Frag.req, hp]
          have hrem : remaining (p :: ps) none = Frag.req ⟨p, true, some p.allowedIPs⟩ :: remaining ps none := by rw [remaining_none, remaining_none]; rfl
          have htodo : todo (p :: ps) none = 2 + todo ps none := by rw [todo_none, todo_none]; simp [hp]
          refine ⟨f :: fs, ps', ip', ?_, ?_, ⟨fun s => ?_, ?_, ?_, w.sensible, by have := w.todo; omega, fun x hx => by simp [w.suffix x hx], ?_⟩, fun _ _ => by have := w.todo; omega⟩
          · rw [h1]; simp [encAttrs]
          · rw [List.map_cons, encAttrs_cons, List.length_append, ← encAttrs_single]
            rw [List.length_append] at h2; exact Nat.le_trans (by omega) h2
          · rw [List.map_cons, List.foldl_cons, hrem, List.foldl_cons, hreq]; exact w.meaning _
          · intro rest h; rw [hrem, List.map_cons, hreq]; exact .whole _ (w.splits rest h)
          · have := w.pairs
            simp only [WG.pairs, List.map_cons, List.flatMap_cons, hrem, hreq, List.append_assoc] at this ⊢
            rw [this]
          · intro g hg
            rcases List.mem_cons.1 hg with rfl | hg
            · exact ⟨by simp [f], by simp [f]⟩
            · exact ⟨by simp [(w.source g hg).1], (w.source g hg).2⟩
        · rw [if_neg hp]
          -- the allowed IPs to write
          generalize hrest : ip.getD p.allowedIPs = rest
          have hrne : rest ≠ [] := by
            subst hrest
            cases ip with
            | none => exact hp
            | some r => exact hs.1
          have hrsub : ∀ a ∈ rest, a ∈ p.allowedIPs := by
            subst hrest
            cases ip with
            | none => exact fun _ h => h
            | some r => exact hs.2.2
          have hrem : remaining (p :: ps) ip = Frag.req ⟨p, ip.isNone, some rest⟩ :: remaining ps none := by
            subst hrest
            cases ip <;> simp only [remaining_cons_none, remaining_cons_some, Option.isNone_none, Option.isNone_some, Option.getD_none, Option.getD_some]
          have htodo : todo (p :: ps) ip = (if ip.isNone then 2 else 1) + rest.length + todo ps none := by
            subst hrest
            cases ip <;> simp [todo_cons_none, todo_cons_some]
          -- stopping inside this peer after `taken`
          have stop : ∀ (io : Option (List AllowedIP)) (r : List AllowedIP), r ≠ [] → rest = io.getD [] ++ r →
              Wrote (p :: ps) ip [⟨p, ip.isNone, io⟩] (p :: ps) (some r) := by
            intro io r hr he
            have hrem' : remaining (p :: ps) (some r) = Frag.req ⟨p, false, some r⟩ :: remaining ps none := by rw [remaining_none]; rfl
            refine ⟨fun s => ?_, ?_, ?_, ⟨hr, hp, fun a ha => hrsub a (by rw [he]; simp [ha])⟩, ?_, by simp, ?_⟩
            · rw [hrem, hrem']
              simp only [List.map_cons, List.map_nil, List.foldl_cons, List.foldl_nil]
              rw [frag_merge, he]
            · intro rest' h
              rw [hrem, he]
              rw [hrem'] at h
              exact .cut (Frag.req ⟨p, ip.isNone, some (io.getD [] ++ r)⟩) (io.getD []) r rfl h
            · rw [hrem, hrem', he]
              simp [WG.pairs, Frag.req]
            · rw [htodo, he, List.length_append]
              simp only [todo_cons_some]
              split <;> omega
            · intro f hf
              simp only [List.mem_singleton] at hf; subst hf
              exact ⟨by simp, fun a ha => hrsub a (by rw [he]; simp only [List.mem_append]; exact .inl ha)⟩
          by_cases hn2 : nestFits c (nestStart c m 0 ++ encAttrs (peerList p ip.isNone)) = true
          · have h20' := (nestFits_iff c _).1 hn2
            simp only [hn2, Bool.not_true, Bool.false_eq_true, if_false]
            have hlen1 : (nestStart c m 0 ++ encAttrs (peerList p ip.isNone)).length = m.length + 4 + (encAttrs (peerList p ip.isNone)).length := by
              rw [List.length_append, nestStart_length]
            rw [hlen1] at h20'
            obtain ⟨taken, left, t1, t2, t3, t4⟩ := ipsLoop_spec c rest (nestStart c (nestStart c m 0 ++ encAttrs (peerList p ip.isNone)) 9) (by
              rw [nestStart_length, hlen1]; omega)
            rw [nestStart_length, hlen1] at t3 t4
            have hE1 : nestEnd (nestStart c (nestStart c m 0 ++ encAttrs (peerList p ip.isNone)) 9 ++ encAttrs (taken.map ipAttr))
                (nestStart c m 0 ++ encAttrs (peerList p ip.isNone)).length = nestStart c m 0 ++ encAttrs (Frag.attrs ⟨p, ip.isNone, some taken⟩) := by
              rw [nestEnd_eq _ _ _ _ (encAttrs_dvd _)]
              simp only [Frag.attrs, encAttrs_append, encAttrs_one, List.append_assoc]
            have hE : nestEnd (nestStart c m 0 ++ encAttrs (Frag.attrs ⟨p, ip.isNone, some taken⟩)) m.length = m ++ encAttrs [Frag.attr ⟨p, ip.isNone, some taken⟩] := by
              rw [nestEnd_eq _ _ _ _ (encAttrs_dvd _), encAttrs_single]; rfl
            have hfl : (encAttrs (Frag.attrs ⟨p, ip.isNone, some taken⟩)).length = (encAttrs (peerList p ip.isNone)).length + 4 + (encAttrs (taken.map ipAttr)).length := by
              simp only [Frag.attrs, encAttrs_append, encAttrs_one, List.length_append, encAttr_length, align4_of_dvd (encAttrs_dvd _)]; omega
            have hml' := hml ⟨p, ip.isNone, some taken⟩
            rw [hfl, List.length_append] at hml'
            rw [t2]
            simp only [hE1, hE]
            cases left with
            | nil =>
              simp only [List.append_nil] at t1
              subst t1
              simp only
              obtain ⟨fs, ps', ip', h1, h2, w, -⟩ := ih (m ++ encAttrs [Frag.attr ⟨p, ip.isNone, some rest⟩]) none (by rw [List.length_append]; omega)
                (by cases ps <;> simp [Sensible])
              refine ⟨⟨p, ip.isNone, some rest⟩ :: fs, ps', ip', ?_, ?_, ⟨fun s => ?_, ?_, ?_, w.sensible, ?_, fun x hx => by simp [w.suffix x hx], ?_⟩, fun _ _ => ?_⟩
              · rw [h1]; simp [encAttrs]
              · rw [List.map_cons, encAttrs_cons, List.length_append, ← encAttrs_single]
                rw [List.length_append] at h2; exact Nat.le_trans (by omega) h2
              · rw [List.map_cons, List.foldl_cons, hrem, List.foldl_cons]; exact w.meaning _
              · intro rest h; rw [hrem, List.map_cons]; exact .whole _ (w.splits rest h)
              · have := w.pairs
                simp only [WG.pairs, List.map_cons, List.flatMap_cons, hrem, List.append_assoc] at this ⊢
                rw [this]
              · have := w.todo; rw [htodo]; omega
              · intro g hg
                rcases List.mem_cons.1 hg with rfl | hg
                · exact ⟨by simp, hrsub⟩
                · exact ⟨by simp [(w.source g hg).1], (w.source g hg).2⟩
              · have := w.todo
                rw [htodo]
                split <;> omega
            | cons x xs =>
              simp only
              have w := stop (some taken) (x :: xs) (by simp) t1
              refine ⟨_, _, _, rfl, ?_, w, fun _ h168 => ?_⟩
              · simp only [List.map_cons, List.map_nil]; omega
              · have ht : taken ≠ [] := t4 hrne (by omega)
                have htl : 0 < taken.length := List.length_pos_iff.2 ht
                rw [htodo, t1, List.length_append]
                simp only [todo_cons_some]
                split <;> omega
          · have hbig : ¬ 20 + (m.length + 4 + (encAttrs (peerList p ip.isNone)).length) + 4 ≤ c.size := by
              intro h; exact hn2 ((nestFits_iff c _).2 (by rw [List.length_append, nestStart_length]; omega))
            simp only [hn2, Bool.not_false, if_true]
            have hfa : Frag.attrs ⟨p, ip.isNone, none⟩ = peerList p ip.isNone := by simp [Frag.attrs]
            have hE : nestEnd (nestStart c m 0 ++ encAttrs (peerList p ip.isNone)) m.length = m ++ encAttrs [Frag.attr ⟨p, ip.isNone, none⟩] := by
              rw [nestEnd_eq _ _ _ _ (encAttrs_dvd _), encAttrs_single]; simp only [Frag.attr, hfa]
            have hml' := hml ⟨p, ip.isNone, none⟩
            rw [hfa, List.length_append] at hml'
            have w := stop none rest hrne rfl
            refine ⟨_, _, _, by rw [hE]; rfl, ?_, w, fun _ h168 => by omega⟩
            simp only [List.map_cons, List.map_nil]; omega
      · obtain ⟨h1, t, h2⟩ := hsp.2 (by omega)
        rw [h1, h2]
        simp only [Bool.not_false, if_true, nestCancel_eq]
        exact ⟨[], p :: ps, ip, by simp, by simpa using hm, nothing, fun _ h => by omega⟩
    · have : ¬ 20 + m.length + 4 ≤ c.size := fun h => hn ((nestFits_iff c m).2 h)
      simp only [hn, Bool.not_false, if_true]
      exact ⟨[], p :: ps, ip, by simp, by simpa using hm, nothing, fun _ h => by omega⟩

end WG
