import Verif.Proof.NetlinkWalk
import Verif.Proof.NetlinkRead
/-! Reading a dump (C31). -/
namespace WG
open Spec

/-! ### Each type once -/

theorem attr?_cons (a : Nat × List UInt8) (l : List (Nat × List UInt8)) (t : Nat) :
    attr? (a :: l) t = (attr? l t).or (if a.1 = t then some a.2 else none) := by
  rw [show a :: l = [a] ++ l from rfl, attr?_append, ← attr?_single]

theorem attr?_none_of {l : List (Nat × List UInt8)} {t : Nat} (h : t ∉ l.map (·.1)) : attr? l t = none := by
  simp only [attr?, Option.map_eq_none_iff, List.getLast?_eq_none_iff, List.filter_eq_nil_iff, decide_eq_true_eq]
  intro a ha e
  exact h (List.mem_map.2 ⟨a, ha, e⟩)

theorem mem_attr? {l : List (Nat × List UInt8)} (nd : (l.map (·.1)).Nodup) {t : Nat} {d : List UInt8} (h : (t, d) ∈ l) : attr? l t = some d := by
  induction l with
  | nil => simp at h
  | cons a l ih =>
    rw [List.map_cons, List.nodup_cons] at nd
    rw [attr?_cons]
    rcases List.mem_cons.1 h with rfl | h
    · rw [attr?_none_of nd.1]; simp
    · rw [ih nd.2 h]; rfl

theorem foldl_once {σ β : Type} (f : σ → Nat × List UInt8 → σ) (proj : σ → β) (t : Nat) (G : β → List UInt8 → β)
    (h : ∀ st a, proj (f st a) = if a.1 = t then G (proj st) a.2 else proj st) (l : List (Nat × List UInt8)) (nd : (l.map (·.1)).Nodup) (st : σ) :
    proj (l.foldl f st) = match attr? l t with | none => proj st | some d => G (proj st) d := by
  induction l generalizing st with
  | nil => rfl
  | cons a l ih =>
    rw [List.map_cons, List.nodup_cons] at nd
    rw [List.foldl_cons, ih nd.2, attr?_cons, h]
    by_cases e : a.1 = t
    · rw [attr?_none_of (e ▸ nd.1)]; simp [e]
    · simp only [if_neg e, Option.or_none]

theorem attrsOnce_some {bs : List UInt8} {l : List (Nat × List UInt8)} (h : attrsOnce bs = some l) : attrs bs = some l ∧ (l.map (·.1)).Nodup := by
  rw [attrsOnce, Option.bind_eq_some_iff] at h
  obtain ⟨l', h1, h2⟩ := h
  split at h2
  · rename_i hn; cases h2; exact ⟨h1, hn⟩
  · simp at h2

theorem bytes?_some {n : Nat} {d : List UInt8} {v : Vector UInt8 n} (h : bytes? n d = some v) : d = v.toList := by
  rw [bytes?] at h
  split at h
  · cases h; rfl
  · simp at h

theorem num?_some {n : Nat} {d : List UInt8} {v : Nat} (h : num? n d = some v) : d.length = n ∧ v = le d := by
  rw [num?] at h
  split at h
  · cases h; exact ⟨‹_›, rfl⟩
  · simp at h

theorem vecAt_toList {n : Nat} (v : Vector UInt8 n) (r : List UInt8) : vecAt (n := n) (v.toList ++ r) = v := by
  apply Vector.ext
  intro i hi
  simp only [vecAt, Vector.getElem_ofFn]
  rw [List.getD_eq_getElem?_getD, List.getElem?_append_left (by simpa using hi)]
  simp [hi]

theorem vecAt_toList' {n : Nat} (v : Vector UInt8 n) : vecAt (n := n) v.toList = v := by
  have := vecAt_toList v []
  rwa [List.append_nil] at this

/-! ### Allowed IPs -/

/-- What `parse_allowedip` does with a well-formed attribute. -/
def ipStep (a : NlIP) (p : Nat × List UInt8) : NlIP :=
  if p.1 = 1 then { a with family := le p.2 }
  else if p.1 = 2 then { a with ip := if p.2.length = 4 then p.2 ++ a.ip.drop 4 else p.2 }
  else if p.1 = 3 then { a with cidr := le p.2 }
  else a

theorem nlParseAllowedip_step {mem : List UInt8} {x t : Nat} {d : List UInt8} (h : At mem x t d) (e : Nat) (st : NlIP)
    (h1 : t = 1 → d.length = 2) (h2 : t = 2 → d.length = 4 ∨ d.length = 16) (h3 : t = 3 → d.length = 1) :
    nlParseAllowedip mem x (e, st) = .ok (1, e, ipStep st (t, d)) := by
  rw [nlParseAllowedip, h.rdType, okb]
  simp only [ipStep]
  by_cases c1 : t = 1
  · rw [if_pos c1, if_pos c1, h.fixed, okb, if_pos (h1 c1)]; rfl
  rw [if_neg c1, if_neg c1]
  by_cases c2 : t = 2
  · rw [if_pos c2, if_pos c2, h.exact, okb, h.exact]
    rcases h2 c2 with hl | hl
    · rw [if_pos hl, if_pos hl]
    · simp [hl]
  rw [if_neg c2, if_neg c2]
  by_cases c3 : t = 3
  · rw [if_pos c3, if_pos c3, h.fixed, okb, if_pos (h3 c3)]; rfl
  rw [if_neg c3, if_neg c3]

/-- An allowed IP as read. -/
def ipRaw (d : List UInt8) : NlIP := ((attrs d).getD []).foldl ipStep {}

theorem ipRaw_spec {d : List UInt8} {a : AllowedIP} (h : readDumpIP d = some a) : ∃ l, attrs d = some l ∧
    (∀ t b, (t, b) ∈ l → (t = 1 → b.length = 2) ∧ (t = 2 → b.length = 4 ∨ b.length = 16) ∧ (t = 3 → b.length = 1)) ∧ (ipRaw d).see = a ∧
    (((ipRaw d).family = 2 ∧ (ipRaw d).cidr ≤ 32) ∨ ((ipRaw d).family = 10 ∧ (ipRaw d).cidr ≤ 128)) := by
  rw [readDumpIP, Option.bind_eq_some_iff] at h
  obtain ⟨l, hl, h⟩ := h
  obtain ⟨h1, nd⟩ := attrsOnce_some hl
  rw [readIP, h1, Option.bind_some] at h
  obtain ⟨fam, hf, h⟩ := Option.bind_eq_some_iff.1 h
  obtain ⟨fd, hfd, hf⟩ := Option.bind_eq_some_iff.1 hf
  obtain ⟨ip, hip, h⟩ := Option.bind_eq_some_iff.1 h
  obtain ⟨cidr, hc, h⟩ := Option.bind_eq_some_iff.1 h
  obtain ⟨cd, hcd, hc⟩ := Option.bind_eq_some_iff.1 hc
  obtain ⟨fl, rfl⟩ := num?_some hf
  obtain ⟨cl, rfl⟩ := num?_some hc
  have hipl : ip.length = 4 ∨ ip.length = 16 := by
    split at h
    · obtain ⟨v, hv, -⟩ := Option.map_eq_some_iff.1 h
      rw [bytes?_some hv]; simp
    · split at h
      · obtain ⟨v, hv, -⟩ := Option.map_eq_some_iff.1 h
        rw [bytes?_some hv]; simp
      · simp at h
  have p1 : (ipRaw d).family = le fd := by
    have := foldl_once ipStep NlIP.family 1 (fun _ b => le b) (by intro st a; simp only [ipStep]; grind) l nd {}
    rw [hfd] at this
    simpa [ipRaw, h1] using this
  have p2 : (ipRaw d).ip = if ip.length = 4 then ip ++ List.replicate 12 0 else ip := by
    have := foldl_once ipStep NlIP.ip 2 (fun o b => if b.length = 4 then b ++ o.drop 4 else b) (by intro st a; simp only [ipStep]; grind) l nd {}
    rw [hip] at this
    simpa [ipRaw, h1] using this
  have p3 : (ipRaw d).cidr = le cd := by
    have := foldl_once ipStep NlIP.cidr 3 (fun _ b => le b) (by intro st a; simp only [ipStep]; grind) l nd {}
    rw [hcd] at this
    simpa [ipRaw, h1] using this
  refine ⟨l, h1, fun t b hb => ?_, ?_, ?_⟩
  · have := mem_attr? nd hb
    refine ⟨?_, ?_, ?_⟩ <;> rintro rfl
    · rw [hfd] at this; cases this; exact fl
    · rw [hip] at this; cases this; exact hipl
    · rw [hcd] at this; cases this; exact cl
  · simp only [NlIP.see, p1, p2, p3]
    split at h
    · rename_i hc
      obtain ⟨v, hv, rfl⟩ := Option.map_eq_some_iff.1 h
      have := bytes?_some hv; subst this
      rw [if_pos hc.1, if_pos (by simp), vecAt_toList]
    · split at h
      · rename_i hc
        obtain ⟨v, hv, rfl⟩ := Option.map_eq_some_iff.1 h
        have := bytes?_some hv; subst this
        rw [if_neg (by omega), if_neg (by simp), vecAt_toList']
      · simp at h
  · rw [p1, p3]
    split at h
    · rename_i hc; exact .inl hc
    · split at h
      · rename_i hc; exact .inr hc
      · simp at h

/-- What `parse_allowedips` does with a well-formed attribute. -/
def ipsStep (p : NlPeer) (a : Nat × List UInt8) : NlPeer := { p with ips := p.ips ++ [ipRaw a.2], lastSet := true }

theorem parseNested_attrs {σ : Type} {mem : List UInt8} (hm : mem.length < 2 ^ 30) {x t : Nat} {d : List UInt8} (h : At mem x t d) {l : List (Nat × List UInt8)}
    (hl : attrs d = some l) (cb : Nat → σ → Res (Int × σ)) (f : σ → Nat × List UInt8 → σ) (Inv : σ → Prop) (st : σ) (hi : Inv st)
    (hcb : ∀ x t d st, (t, d) ∈ l → At mem x t d → Inv st → cb x st = .ok (1, f st (t, d)) ∧ Inv (f st (t, d))) :
    parseNested mem x cb st = .ok (1, l.foldl f st) := by
  rw [parseNested, h.rdPayloadLen, okb]
  have := h.inside
  exact walk_attrs mem hm cb f Inv l (x + 4) d.length (x + 4 + d.length) (mem.length + 1) st (by rw [h.data]; exact hl) (by omega) (by omega) (by omega)
    (by omega) hi hcb

theorem nlParseAllowedips_step {mem : List UInt8} (hm : mem.length < 2 ^ 30) {x t : Nat} {d : List UInt8} (h : At mem x t d) {a : AllowedIP}
    (ha : readDumpIP d = some a) (e : Nat) (p : NlPeer) : nlParseAllowedips mem x (e, p) = .ok (1, e, ipsStep p (t, d)) := by
  obtain ⟨l, h1, h2, h3, h4⟩ := ipRaw_spec ha
  have hw : parseNested mem x (nlParseAllowedip mem) (e, ({} : NlIP)) = .ok (1, (l.foldl (fun s b => (s.1, ipStep s.2 b)) (e, ({} : NlIP)))) :=
    parseNested_attrs hm h h1 (nlParseAllowedip mem) (fun s b => (s.1, ipStep s.2 b)) (fun _ => True) _ trivial
      (fun x t d st hb hat _ => ⟨nlParseAllowedip_step hat st.1 st.2 (h2 t d hb).1 (h2 t d hb).2.1 (h2 t d hb).2.2, trivial⟩)
  have hf : ∀ (l : List (Nat × List UInt8)) (s : NlIP), l.foldl (fun (s : Nat × NlIP) b => (s.1, ipStep s.2 b)) (e, s) = (e, l.foldl ipStep s) := by
    intro l
    induction l with
    | nil => intro s; rfl
    | cons b l ih => intro s; exact ih _
  have hraw : l.foldl ipStep {} = ipRaw d := by rw [ipRaw, h1]; rfl
  rw [nlParseAllowedips, hw, hf, hraw, okb]
  simp only [ipsStep]
  rw [if_neg (by omega), if_pos h4]


/-! ### Peers -/

theorem allZero_key (k : Key) : allZero k.toList = decide (k = zeroKey) := by
  rw [Bool.eq_iff_iff]
  simp only [allZero, List.all_eq_true, decide_eq_true_eq]
  constructor
  · intro h
    apply Vector.ext
    intro i hi
    simp only [zeroKey, Vector.getElem_replicate]
    exact h _ (by simp)
  · rintro rfl b hb
    simp [zeroKey] at hb; exact hb

/-- The endpoint bytes after a well-formed endpoint attribute. -/
def epNew (o d : List UInt8) : List UInt8 := if d.length = 16 then d ++ o.drop 16 else d

/-- The elements of a list as read. -/
def ipsRaw (d : List UInt8) : List NlIP := ((attrs d).getD []).map fun a => ipRaw a.2

/-- What `parse_peer` does with a well-formed attribute. -/
def peerStep (p : NlPeer) (a : Nat × List UInt8) : NlPeer :=
  if a.1 = 1 then { p with pub := a.2, hasPub := true }
  else if a.1 = 2 then { p with psk := a.2, hasPsk := p.hasPsk || !allZero a.2 }
  else if a.1 = 4 then { p with ep := epNew p.ep a.2 }
  else if a.1 = 5 then { p with keepalive := le a.2 }
  else if a.1 = 6 then { p with handshake := a.2 }
  else if a.1 = 7 then { p with rx := le a.2 }
  else if a.1 = 8 then { p with tx := le a.2 }
  else if a.1 = 9 then { p with ips := p.ips ++ ipsRaw a.2, lastSet := p.lastSet || !(ipsRaw a.2).isEmpty }
  else p

/-- A well-formed attribute of a peer. -/
def PeerAttrOk (t : Nat) (d : List UInt8) : Prop :=
  (t = 1 → d.length = 32) ∧ (t = 2 → d.length = 32) ∧ (t = 4 → ∃ e, readSockaddr d = some e) ∧ (t = 5 → d.length = 2) ∧ (t = 6 → d.length = 16) ∧
  (t = 7 → d.length = 8) ∧ (t = 8 → d.length = 8) ∧ (t = 9 → ∃ l, elements readDumpIP d = some l)

theorem mapM_elements {α : Type} (read : List UInt8 → Option α) : ∀ (l : List (Nat × List UInt8)) (r : List α),
    (l.mapM fun (a : Nat × List UInt8) => if a.1 = 0 then read a.2 else none) = some r → List.Forall₂ (fun a x => read a.2 = some x) l r := by
  intro l
  induction l with
  | nil => intro r h; simp at h; subst h; exact .nil
  | cons a l ih =>
    intro r h
    rw [List.mapM_cons] at h
    obtain ⟨x, h1, h⟩ := Option.bind_eq_some_iff.1 h
    obtain ⟨xs, h2, h⟩ := Option.bind_eq_some_iff.1 h
    cases h
    split at h1
    · exact .cons h1 (ih xs h2)
    · simp at h1

theorem elements_some {α : Type} {read : List UInt8 → Option α} {d : List UInt8} {r : List α} (h : elements read d = some r) :
    ∃ l, attrs d = some l ∧ List.Forall₂ (fun a x => read a.2 = some x) l r := by
  obtain ⟨l, h1, h2⟩ := Option.bind_eq_some_iff.1 h
  exact ⟨l, h1, mapM_elements read l r h2⟩

theorem forall₂_mem_left {α β : Type} {R : α → β → Prop} {l : List α} {r : List β} (h : List.Forall₂ R l r) : ∀ a ∈ l, ∃ b ∈ r, R a b := by
  induction h with
  | nil => simp
  | cons hab _ ih =>
    intro x hx
    rcases List.mem_cons.1 hx with rfl | hx
    · exact ⟨_, by simp, hab⟩
    · obtain ⟨b, hb, hr⟩ := ih x hx; exact ⟨b, by simp [hb], hr⟩

theorem ipsRaw_see {d : List UInt8} {r : List AllowedIP} (h : elements readDumpIP d = some r) : (ipsRaw d).map NlIP.see = r := by
  obtain ⟨l, h1, h2⟩ := elements_some h
  rw [ipsRaw, h1, Option.getD_some, List.map_map]
  clear h1 h
  induction h2 with
  | nil => rfl
  | cons ha _ ih =>
    rw [List.map_cons, ih]
    congr 1
    exact (ipRaw_spec ha).choose_spec.2.2.1

theorem nlParseEp_step {mem : List UInt8} {x t : Nat} {d : List UInt8} (h : At mem x t d) {ep : Endpoint} (hep : readSockaddr d = some ep) (o : List UInt8) :
    nlParseEp mem x o = .ok (epNew o d) := by
  rw [nlParseEp, h.rdPayloadLen, okb]
  have hr2 : rdNum mem (x + 4) 2 = .ok (le (d.take 2)) ∨ d.length < 2 := by
    by_cases hd : d.length < 2
    · exact .inr hd
    · left
      have := h.sub 0 2 (by omega)
      rw [Nat.add_zero, List.drop_zero] at this
      rw [rdNum, this, ← leNat_eq]
  rw [readSockaddr] at hep
  split at hep
  · rename_i hc
    rw [if_neg (by omega), hr2.resolve_right (by omega), okb, if_pos hc, h.rdPayload 16 hc.2, epNew, if_pos hc.2]
  · rename_i hc
    split at hep
    · rename_i hc2
      rw [if_neg (by omega), hr2.resolve_right (by omega), okb, if_neg hc, if_pos hc2, h.rdPayload 28 hc2.2, epNew, if_neg (by omega)]
    · simp at hep

theorem nlParsePeer_step {mem : List UInt8} (hm : mem.length < 2 ^ 30) {x t : Nat} {d : List UInt8} (h : At mem x t d) (ok : PeerAttrOk t d) (e : Nat) (p : NlPeer) :
    nlParsePeer mem x (e, p) = .ok (1, e, peerStep p (t, d)) := by
  obtain ⟨o1, o2, o4, o5, o6, o7, o8, o9⟩ := ok
  rw [nlParsePeer, h.rdType, okb]
  simp only [peerStep]
  by_cases c1 : t = 1
  · rw [if_pos c1, if_pos c1, h.exact, okb, if_pos (o1 c1)]
  rw [if_neg c1, if_neg c1]
  by_cases c2 : t = 2
  · rw [if_pos c2, if_pos c2, h.exact, okb, if_pos (o2 c2)]
  rw [if_neg c2, if_neg c2]
  by_cases c4 : t = 4
  · rw [if_pos c4, if_pos c4]
    obtain ⟨ep, hep⟩ := o4 c4
    rw [nlParseEp_step h hep, okb]
  rw [if_neg c4, if_neg c4]
  by_cases c5 : t = 5
  · rw [if_pos c5, if_pos c5, h.fixed, okb, if_pos (o5 c5)]; rfl
  rw [if_neg c5, if_neg c5]
  by_cases c6 : t = 6
  · rw [if_pos c6, if_pos c6, h.exact, okb, if_pos (o6 c6)]
  rw [if_neg c6, if_neg c6]
  by_cases c7 : t = 7
  · rw [if_pos c7, if_pos c7, h.fixed, okb, if_pos (o7 c7)]; rfl
  rw [if_neg c7, if_neg c7]
  by_cases c8 : t = 8
  · rw [if_pos c8, if_pos c8, h.fixed, okb, if_pos (o8 c8)]; rfl
  rw [if_neg c8, if_neg c8]
  by_cases c9 : t = 9
  · rw [if_pos c9, if_pos c9]
    obtain ⟨r, hr⟩ := o9 c9
    obtain ⟨l, h1, h2⟩ := elements_some hr
    rw [parseNested_attrs hm h h1 (nlParseAllowedips mem) (fun s b => (s.1, ipsStep s.2 b)) (fun _ => True) _ trivial
      (fun x t d st hb hat _ => by
        obtain ⟨a, -, ha⟩ := forall₂_mem_left h2 (t, d) hb
        exact ⟨nlParseAllowedips_step hm hat ha st.1 st.2, trivial⟩)]
    have hf : ∀ (l : List (Nat × List UInt8)) (q : NlPeer), l.foldl (fun (s : Nat × NlPeer) b => (s.1, ipsStep s.2 b)) (e, q) =
        (e, { q with ips := q.ips ++ l.map (fun a => ipRaw a.2), lastSet := q.lastSet || !(l.map fun a => ipRaw a.2).isEmpty }) := by
      intro l
      induction l with
      | nil => intro q; simp
      | cons b l ih => intro q; rw [List.foldl_cons, ih]; simp [ipsStep]
    rw [hf, ipsRaw, h1]
    rfl
  rw [if_neg c9, if_neg c9]

/-- A peer as read. -/
def peerRaw (d : List UInt8) : NlPeer := ((attrs d).getD []).foldl peerStep {}

/-- A peer that was read is the peer described. -/
structure PeerReads (p : NlPeer) (q : PeerDump) : Prop where
  see : p.see = q.peer
  pub : p.pub = q.key.toList
  last : p.lastSet = !p.ips.isEmpty
  hasPub : p.hasPub = true

theorem optional_some {α : Type} {b : Option (List UInt8)} {read : List UInt8 → Option α} {r : Option α} (h : Spec.optional b read = some r) :
    (b = none ∧ r = none) ∨ ∃ d v, b = some d ∧ read d = some v ∧ r = some v := by
  cases b with
  | none => left; simp [Spec.optional] at h; exact ⟨rfl, h.symm⟩
  | some d =>
    right
    simp only [Spec.optional, Option.map_eq_some_iff] at h
    obtain ⟨v, h1, h2⟩ := h
    exact ⟨d, v, rfl, h1, h2.symm⟩

theorem seeEndpoint_new {d : List UInt8} {e : Endpoint} (h : readSockaddr d = some e) : seeEndpoint (epNew (List.replicate 28 0) d) = e := by
  rw [readSockaddr] at h
  have take_app : ∀ (i n : Nat) (r : List UInt8), i + n ≤ d.length → ((d ++ r).drop i).take n = (d.drop i).take n := by
    intro i n r hi
    rw [List.drop_append_of_le_length (by omega), List.take_append_of_le_length (by rw [List.length_drop]; omega)]
  split at h
  · rename_i hc
    obtain ⟨v, hv, rfl⟩ := Option.map_eq_some_iff.1 h
    have hv' := bytes?_some hv
    have h1 : (d ++ (List.replicate 28 (0 : UInt8)).drop 16).take 2 = d.take 2 := by rw [List.take_append_of_le_length (by omega)]
    have h3 : (d ++ (List.replicate 28 (0 : UInt8)).drop 16).drop 4 = v.toList ++ (d.drop 8 ++ (List.replicate 28 (0 : UInt8)).drop 16) := by
      rw [List.drop_append_of_le_length (by omega), ← hv', ← List.append_assoc]
      congr 1
      rw [show d.drop 8 = (d.drop 4).drop 4 from by rw [List.drop_drop], List.take_append_drop]
    simp only [seeEndpoint, epNew, if_pos hc.2, h1, leNat_eq]
    rw [if_pos hc.1, h3, vecAt_toList, take_app _ _ _ (by omega)]
    rfl
  · rename_i hc
    split at h
    · rename_i hc2
      obtain ⟨v, hv, rfl⟩ := Option.map_eq_some_iff.1 h
      have hv' := bytes?_some hv
      have h3 : d.drop 8 = v.toList ++ d.drop 24 := by
        rw [← hv', show d.drop 24 = (d.drop 8).drop 16 from by rw [List.drop_drop], List.take_append_drop]
      have h4 : (d.drop 24).take 4 = d.drop 24 := by rw [List.take_of_length_le (by rw [List.length_drop]; omega)]
      simp only [seeEndpoint, epNew, leNat_eq]
      rw [if_neg (show ¬ d.length = 16 by omega), if_neg (show ¬ le (d.take 2) = 2 by omega), if_pos hc2.1, h3, vecAt_toList, h4]
      rfl
    · simp at h

theorem seeTime {d : List UInt8} {v : Int × Int} (h : readTimespec d = some v) :
    d.length = 16 ∧ toInt64 (leNat (d.take 8)) = v.1 ∧ toInt64 (leNat (d.drop 8)) = v.2 := by
  rw [readTimespec] at h
  split at h
  · rename_i hl
    cases h
    have key : ∀ b : List UInt8, b.length = 8 → toInt64 (leNat b) = le64 b := by
      intro b hb
      have := le_lt b
      rw [hb] at this
      rw [leNat_eq, toInt64, le64]
      split <;> omega
    exact ⟨hl, key _ (by rw [List.length_take]; omega), key _ (by rw [List.length_drop]; omega)⟩
  · simp at h

set_option maxHeartbeats 1000000 in
theorem peerRaw_spec {d : List UInt8} {q : PeerDump} (h : readPeerDump d = some q) :
    ∃ l, attrs d = some l ∧ (∀ t b, (t, b) ∈ l → PeerAttrOk t b) ∧ PeerReads (peerRaw d) q := by
  rw [readPeerDump] at h
  obtain ⟨l, hl, h⟩ := Option.bind_eq_some_iff.1 h
  obtain ⟨h1, nd⟩ := attrsOnce_some hl
  obtain ⟨key, hk, h⟩ := Option.bind_eq_some_iff.1 h
  obtain ⟨kd, hkd, hk⟩ := Option.bind_eq_some_iff.1 hk
  obtain ⟨psk, hpsk, h⟩ := Option.bind_eq_some_iff.1 h
  obtain ⟨ep, hep, h⟩ := Option.bind_eq_some_iff.1 h
  obtain ⟨ka, hka, h⟩ := Option.bind_eq_some_iff.1 h
  obtain ⟨hs, hhs, h⟩ := Option.bind_eq_some_iff.1 h
  obtain ⟨rx, hrx, h⟩ := Option.bind_eq_some_iff.1 h
  obtain ⟨tx, htx, h⟩ := Option.bind_eq_some_iff.1 h
  obtain ⟨ips, hips, rfl⟩ := Option.map_eq_some_iff.1 h
  clear h
  have hraw : peerRaw d = l.foldl peerStep {} := by rw [peerRaw, h1]; rfl
  refine ⟨l, h1, fun t b hb => ?_, ?_⟩
  · have hm := mem_attr? nd hb
    refine ⟨?_, ?_, ?_, ?_, ?_, ?_, ?_, ?_⟩ <;> rintro rfl
    · rw [hkd] at hm; cases hm; rw [bytes?_some hk]; simp
    · rw [hm] at hpsk
      rcases optional_some hpsk with ⟨h, -⟩ | ⟨d, v, h, hv, -⟩ <;> cases h
      rw [bytes?_some hv]; simp
    · rw [hm] at hep
      rcases optional_some hep with ⟨h, -⟩ | ⟨d, v, h, hv, -⟩ <;> cases h
      exact ⟨v, hv⟩
    · rw [hm] at hka
      rcases optional_some hka with ⟨h, -⟩ | ⟨d, v, h, hv, -⟩ <;> cases h
      exact (num?_some hv).1
    · rw [hm] at hhs
      rcases optional_some hhs with ⟨h, -⟩ | ⟨d, v, h, hv, -⟩ <;> cases h
      exact (seeTime hv).1
    · rw [hm] at hrx
      rcases optional_some hrx with ⟨h, -⟩ | ⟨d, v, h, hv, -⟩ <;> cases h
      exact (num?_some hv).1
    · rw [hm] at htx
      rcases optional_some htx with ⟨h, -⟩ | ⟨d, v, h, hv, -⟩ <;> cases h
      exact (num?_some hv).1
    · rw [hm] at hips
      rcases optional_some hips with ⟨h, -⟩ | ⟨d, v, h, hv, -⟩ <;> cases h
      exact ⟨v, hv⟩
  · have q1 := foldl_once peerStep NlPeer.pub 1 (fun _ b => b) (by intro st a; simp only [peerStep]; grind) l nd {}
    have q1' := foldl_once peerStep NlPeer.hasPub 1 (fun _ _ => true) (by intro st a; simp only [peerStep]; grind) l nd {}
    have q2 := foldl_once peerStep NlPeer.psk 2 (fun _ b => b) (by intro st a; simp only [peerStep]; grind) l nd {}
    have q2' := foldl_once peerStep NlPeer.hasPsk 2 (fun o b => o || !allZero b) (by intro st a; simp only [peerStep]; grind) l nd {}
    have q4 := foldl_once peerStep NlPeer.ep 4 epNew (by intro st a; simp only [peerStep]; grind) l nd {}
    have q5 := foldl_once peerStep NlPeer.keepalive 5 (fun _ b => le b) (by intro st a; simp only [peerStep]; grind) l nd {}
    have q6 := foldl_once peerStep NlPeer.handshake 6 (fun _ b => b) (by intro st a; simp only [peerStep]; grind) l nd {}
    have q7 := foldl_once peerStep NlPeer.rx 7 (fun _ b => le b) (by intro st a; simp only [peerStep]; grind) l nd {}
    have q8 := foldl_once peerStep NlPeer.tx 8 (fun _ b => le b) (by intro st a; simp only [peerStep]; grind) l nd {}
    have q9 := foldl_once peerStep NlPeer.ips 9 (fun o b => o ++ ipsRaw b) (by intro st a; simp only [peerStep]; grind) l nd {}
    have q9' := foldl_once peerStep NlPeer.lastSet 9 (fun o b => o || !(ipsRaw b).isEmpty) (by intro st a; simp only [peerStep]; grind) l nd {}
    rw [← hraw] at q1 q1' q2 q2' q4 q5 q6 q7 q8 q9 q9'
    rw [hkd] at q1 q1'
    simp only at q1 q1'
    have hkd' := bytes?_some hk
    refine ⟨?_, by rw [q1, hkd'], ?_, q1'⟩
    · simp only [NlPeer.see, PeerDump.peer, q1, q1', Peer.mk.injEq, PeerFlags.mk.injEq, true_and, and_true]
      refine ⟨?_, ?_, ?_, ?_, ?_, ?_, ?_, ?_, ?_, ?_⟩
      · rw [q2']
        rcases optional_some hpsk with ⟨ha, rfl⟩ | ⟨b, v, ha, hv, rfl⟩
        · rw [ha]; simp
        · rw [ha]; simp only [bytes?_some hv, allZero_key]; simp
      · rw [hkd', vecAt_toList']
      · rw [q2]
        rcases optional_some hpsk with ⟨ha, rfl⟩ | ⟨b, v, ha, hv, rfl⟩
        · rw [ha]; rfl
        · rw [ha]; simp only [bytes?_some hv, vecAt_toList']; rfl
      · rw [q4]
        rcases optional_some hep with ⟨ha, rfl⟩ | ⟨b, v, ha, hv, rfl⟩
        · rw [ha]; rfl
        · rw [ha]; exact seeEndpoint_new hv
      · rw [q6]
        rcases optional_some hhs with ⟨ha, rfl⟩ | ⟨b, v, ha, hv, rfl⟩
        · rw [ha]; decide +kernel
        · rw [ha]; exact (seeTime hv).2.1
      · rw [q6]
        rcases optional_some hhs with ⟨ha, rfl⟩ | ⟨b, v, ha, hv, rfl⟩
        · rw [ha]; decide +kernel
        · rw [ha]; exact (seeTime hv).2.2
      · rw [q7]
        rcases optional_some hrx with ⟨ha, rfl⟩ | ⟨b, v, ha, hv, rfl⟩
        · rw [ha]; rfl
        · rw [ha]; exact (num?_some hv).2.symm
      · rw [q8]
        rcases optional_some htx with ⟨ha, rfl⟩ | ⟨b, v, ha, hv, rfl⟩
        · rw [ha]; rfl
        · rw [ha]; exact (num?_some hv).2.symm
      · rw [q5]
        rcases optional_some hka with ⟨ha, rfl⟩ | ⟨b, v, ha, hv, rfl⟩
        · rw [ha]; rfl
        · rw [ha]; simp [(num?_some hv).2]
      · rw [q9]
        rcases optional_some hips with ⟨ha, rfl⟩ | ⟨b, v, ha, hv, rfl⟩
        · rw [ha]; rfl
        · rw [ha]; simp [ipsRaw_see hv]
    · rw [q9, q9']
      cases attr? l 9 <;> simp

end WG
