import Verif.Proof.NetlinkDump
/-! Devices, messages and coalescing (C31). -/
namespace WG
open Spec

/-! ### Devices -/

theorem nlParsePeers_step {mem : List UInt8} (hm : mem.length < 2 ^ 30) {x t : Nat} {d : List UInt8} (h : At mem x t d) {q : PeerDump}
    (hq : readPeerDump d = some q) (e : Nat) (dv : NlDevice) : nlParsePeers mem x (e, dv) = .ok (1, e, { dv with peers := dv.peers ++ [peerRaw d] }) := by
  obtain ⟨l, h1, h2, h3⟩ := peerRaw_spec hq
  have hw : parseNested mem x (nlParsePeer mem) (e, ({} : NlPeer)) = .ok (1, (l.foldl (fun s b => (s.1, peerStep s.2 b)) (e, ({} : NlPeer)))) :=
    parseNested_attrs hm h h1 (nlParsePeer mem) (fun s b => (s.1, peerStep s.2 b)) (fun _ => True) _ trivial
      (fun x t d st hb hat _ => ⟨nlParsePeer_step hm hat (h2 t d hb) st.1 st.2, trivial⟩)
  have hf : ∀ (l : List (Nat × List UInt8)) (s : NlPeer), l.foldl (fun (s : Nat × NlPeer) b => (s.1, peerStep s.2 b)) (e, s) = (e, l.foldl peerStep s) := by
    intro l
    induction l with
    | nil => intro s; rfl
    | cons b l ih => intro s; exact ih _
  have hraw : l.foldl peerStep {} = peerRaw d := by rw [peerRaw, h1]; rfl
  rw [nlParsePeers, hw, hf, hraw, okb]
  simp only
  rw [if_neg (by omega), if_pos h3.hasPub]

/-- The peers of a list as read. -/
def peersRaw (d : List UInt8) : List NlPeer := ((attrs d).getD []).map fun a => peerRaw a.2

/-- What `parse_device` does with a well-formed attribute. -/
def devStep (dv : NlDevice) (a : Nat × List UInt8) : NlDevice :=
  if a.1 = 1 then { dv with ifindex := le a.2 }
  else if a.1 = 2 then { dv with name := a.2.dropLast }
  else if a.1 = 3 then { dv with priv := a.2, hasPriv := true }
  else if a.1 = 4 then { dv with pub := a.2, hasPub := true }
  else if a.1 = 6 then { dv with port := le a.2 }
  else if a.1 = 7 then { dv with mark := le a.2 }
  else if a.1 = 8 then { dv with peers := dv.peers ++ peersRaw a.2 }
  else dv

/-- A well-formed attribute of a device. -/
def DevAttrOk (t : Nat) (d : List UInt8) : Prop :=
  (t = 1 → d.length = 4) ∧ (t = 2 → ∃ n, readName d = some n) ∧ (t = 3 → d.length = 32) ∧ (t = 4 → d.length = 32) ∧ (t = 6 → d.length = 2) ∧
  (t = 7 → d.length = 4) ∧ (t = 8 → ∃ l, elements readPeerDump d = some l)

theorem readName_some {d n : List UInt8} (h : readName d = some n) : d = n ++ [0] ∧ n.length ≤ 15 ∧ (0 : UInt8) ∉ n := by
  rw [readName] at h
  split at h
  · rename_i hc
    cases h
    have hd : d = d.dropLast ++ [0] := by
      have := List.dropLast_append_getLast? 0 hc.1
      exact this.symm
    refine ⟨hd, ?_, hc.2.1⟩
    rw [List.length_dropLast]; omega
  · simp at h

theorem strncpyAt_name (mem : List UInt8) : ∀ (n : List UInt8) (k i : Nat), (mem.drop i).take (n.length + 1) = n ++ [0] → n.length ≤ k → (0 : UInt8) ∉ n →
    strncpyAt mem k i = .ok n := by
  intro n
  induction n with
  | nil =>
    intro k i h _ _
    cases k with
    | zero => rfl
    | succ k =>
      have hl : i + 1 ≤ mem.length := by
        have := congrArg List.length h
        simp [List.length_take, List.length_drop] at this; omega
      rw [strncpyAt, rdNum_ok hl]
      simp only [List.length_nil, Nat.zero_add] at h
      rw [h]
      simp [le]
  | cons c n ih =>
    intro k i h hk hn
    cases k with
    | zero => simp at hk
    | succ k =>
      have hl : i + (n.length + 2) ≤ mem.length := by
        have := congrArg List.length h
        simp [List.length_take, List.length_drop] at this; omega
      have h1 : (mem.drop i).take 1 = [c] := by
        have := congrArg (List.take 1) h
        rw [List.take_take, Nat.min_eq_left (by omega)] at this
        simpa using this
      have h2 : (mem.drop (i + 1)).take (n.length + 1) = n ++ [0] := by
        have := congrArg (List.drop 1) h
        rw [List.drop_take, List.drop_drop] at this
        simpa using this
      have hc : c ≠ 0 := by intro e; exact hn (by simp [e])
      have hc' : c.toNat ≠ 0 := by intro e; exact hc (UInt8.toNat_inj.1 (by simpa using e))
      rw [strncpyAt, rdNum_ok (by omega), h1, okb]
      simp only [le, Nat.mul_zero, Nat.add_zero]
      rw [ih k (i + 1) h2 (by simp at hk; omega) (fun hm => hn (by simp [hm])), okb]
      simp [hc']

theorem nlParseDevice_step {mem : List UInt8} (hm : mem.length < 2 ^ 30) {x t : Nat} {d : List UInt8} (h : At mem x t d) (ok : DevAttrOk t d) (e : Nat) (dv : NlDevice) :
    nlParseDevice mem x (e, dv) = .ok (1, e, devStep dv (t, d)) := by
  obtain ⟨o1, o2, o3, o4, o6, o7, o8⟩ := ok
  rw [nlParseDevice, h.rdType, okb]
  simp only [devStep]
  by_cases c1 : t = 1
  · rw [if_pos c1, if_pos c1, h.fixed, okb, if_pos (o1 c1)]; rfl
  rw [if_neg c1, if_neg c1]
  by_cases c2 : t = 2
  · rw [if_pos c2, if_pos c2]
    obtain ⟨n, hn⟩ := o2 c2
    obtain ⟨rfl, h1, h2⟩ := readName_some hn
    rw [validString, h.rdPayloadLen, okb, okb, if_pos (by simp)]
    rw [strncpyAt_name mem n 15 (x + 4) (by have := h.data; rw [List.length_append] at this; exact this) h1 h2]
    simp
  rw [if_neg c2, if_neg c2]
  by_cases c3 : t = 3
  · rw [if_pos c3, if_pos c3, h.exact, okb, if_pos (o3 c3)]
  rw [if_neg c3, if_neg c3]
  by_cases c4 : t = 4
  · rw [if_pos c4, if_pos c4, h.exact, okb, if_pos (o4 c4)]
  rw [if_neg c4, if_neg c4]
  by_cases c6 : t = 6
  · rw [if_pos c6, if_pos c6, h.fixed, okb, if_pos (o6 c6)]; rfl
  rw [if_neg c6, if_neg c6]
  by_cases c7 : t = 7
  · rw [if_pos c7, if_pos c7, h.fixed, okb, if_pos (o7 c7)]; rfl
  rw [if_neg c7, if_neg c7]
  by_cases c8 : t = 8
  · rw [if_pos c8, if_pos c8]
    obtain ⟨r, hr⟩ := o8 c8
    obtain ⟨l, h1, h2⟩ := elements_some hr
    rw [parseNested_attrs hm h h1 (nlParsePeers mem) (fun s b => (s.1, { s.2 with peers := s.2.peers ++ [peerRaw b.2] })) (fun _ => True) _ trivial
      (fun x t d st hb hat _ => by
        obtain ⟨a, -, ha⟩ := forall₂_mem_left h2 (t, d) hb
        exact ⟨nlParsePeers_step hm hat ha st.1 st.2, trivial⟩)]
    have hf : ∀ (l : List (Nat × List UInt8)) (q : NlDevice), l.foldl (fun (s : Nat × NlDevice) b => (s.1, { s.2 with peers := s.2.peers ++ [peerRaw b.2] })) (e, q) =
        (e, { q with peers := q.peers ++ l.map (fun a => peerRaw a.2) }) := by
      intro l
      induction l with
      | nil => intro q; simp
      | cons b l ih => intro q; rw [List.foldl_cons, ih]; simp
    rw [hf, peersRaw, h1]
    rfl
  rw [if_neg c8, if_neg c8]

/-- The device after the attributes of one message. -/
def devApply (dv : NlDevice) (d : List UInt8) : NlDevice := ((attrs d).getD []).foldl devStep dv

/-- What one message changes. -/
structure DevReads (dv dv' : NlDevice) (f : DevDump) : Prop where
  ifindex : dv'.ifindex = (f.ifindex.map UInt32.toNat).getD dv.ifindex
  name : dv'.name = f.name.getD dv.name
  priv : dv'.priv = (f.privateKey.map Vector.toList).getD dv.priv
  hasPriv : dv'.hasPriv = (dv.hasPriv || f.privateKey.isSome)
  pub : dv'.pub = (f.publicKey.map Vector.toList).getD dv.pub
  hasPub : dv'.hasPub = (dv.hasPub || f.publicKey.isSome)
  port : dv'.port = (f.listenPort.map UInt16.toNat).getD dv.port
  mark : dv'.mark = (f.fwmark.map UInt32.toNat).getD dv.mark
  peers : ∃ ps, dv'.peers = dv.peers ++ ps ∧ List.Forall₂ PeerReads ps f.peers

theorem peersRaw_reads {d : List UInt8} {r : List PeerDump} (h : elements readPeerDump d = some r) : List.Forall₂ PeerReads (peersRaw d) r := by
  obtain ⟨l, h1, h2⟩ := elements_some h
  rw [peersRaw, h1, Option.getD_some]
  clear h1 h
  induction h2 with
  | nil => exact .nil
  | cons ha _ ih =>
    rw [List.map_cons]
    exact .cons (peerRaw_spec ha).choose_spec.2.2 ih

set_option maxHeartbeats 1000000 in
theorem devApply_spec {d : List UInt8} {f : DevDump} (h : readDevDump d = some f) :
    ∃ l, attrs d = some l ∧ (∀ t b, (t, b) ∈ l → DevAttrOk t b) ∧ ∀ dv, DevReads dv (devApply dv d) f := by
  rw [readDevDump] at h
  obtain ⟨l, hl, h⟩ := Option.bind_eq_some_iff.1 h
  obtain ⟨h1, nd⟩ := attrsOnce_some hl
  obtain ⟨ix, hix, h⟩ := Option.bind_eq_some_iff.1 h
  obtain ⟨nm, hnm, h⟩ := Option.bind_eq_some_iff.1 h
  obtain ⟨pr, hpr, h⟩ := Option.bind_eq_some_iff.1 h
  obtain ⟨pu, hpu, h⟩ := Option.bind_eq_some_iff.1 h
  obtain ⟨po, hpo, h⟩ := Option.bind_eq_some_iff.1 h
  obtain ⟨mk, hmk, h⟩ := Option.bind_eq_some_iff.1 h
  obtain ⟨ps, hps, rfl⟩ := Option.map_eq_some_iff.1 h
  clear h
  refine ⟨l, h1, fun t b hb => ?_, fun dv => ?_⟩
  · have hm := mem_attr? nd hb
    refine ⟨?_, ?_, ?_, ?_, ?_, ?_, ?_⟩ <;> rintro rfl
    · rw [hm] at hix
      rcases optional_some hix with ⟨h, -⟩ | ⟨d, v, h, hv, -⟩ <;> cases h
      exact (num?_some hv).1
    · rw [hm] at hnm
      rcases optional_some hnm with ⟨h, -⟩ | ⟨d, v, h, hv, -⟩ <;> cases h
      exact ⟨v, hv⟩
    · rw [hm] at hpr
      rcases optional_some hpr with ⟨h, -⟩ | ⟨d, v, h, hv, -⟩ <;> cases h
      rw [bytes?_some hv]; simp
    · rw [hm] at hpu
      rcases optional_some hpu with ⟨h, -⟩ | ⟨d, v, h, hv, -⟩ <;> cases h
      rw [bytes?_some hv]; simp
    · rw [hm] at hpo
      rcases optional_some hpo with ⟨h, -⟩ | ⟨d, v, h, hv, -⟩ <;> cases h
      exact (num?_some hv).1
    · rw [hm] at hmk
      rcases optional_some hmk with ⟨h, -⟩ | ⟨d, v, h, hv, -⟩ <;> cases h
      exact (num?_some hv).1
    · rw [hm] at hps
      rcases optional_some hps with ⟨h, -⟩ | ⟨d, v, h, hv, -⟩ <;> cases h
      exact ⟨v, hv⟩
  · have hraw : devApply dv d = l.foldl devStep dv := by rw [devApply, h1]; rfl
    have q1 := foldl_once devStep NlDevice.ifindex 1 (fun _ b => le b) (by intro st a; simp only [devStep]; grind) l nd dv
    have q2 := foldl_once devStep NlDevice.name 2 (fun _ b => b.dropLast) (by intro st a; simp only [devStep]; grind) l nd dv
    have q3 := foldl_once devStep NlDevice.priv 3 (fun _ b => b) (by intro st a; simp only [devStep]; grind) l nd dv
    have q3' := foldl_once devStep NlDevice.hasPriv 3 (fun _ _ => true) (by intro st a; simp only [devStep]; grind) l nd dv
    have q4 := foldl_once devStep NlDevice.pub 4 (fun _ b => b) (by intro st a; simp only [devStep]; grind) l nd dv
    have q4' := foldl_once devStep NlDevice.hasPub 4 (fun _ _ => true) (by intro st a; simp only [devStep]; grind) l nd dv
    have q6 := foldl_once devStep NlDevice.port 6 (fun _ b => le b) (by intro st a; simp only [devStep]; grind) l nd dv
    have q7 := foldl_once devStep NlDevice.mark 7 (fun _ b => le b) (by intro st a; simp only [devStep]; grind) l nd dv
    have q8 := foldl_once devStep NlDevice.peers 8 (fun o b => o ++ peersRaw b) (by intro st a; simp only [devStep]; grind) l nd dv
    rw [← hraw] at q1 q2 q3 q3' q4 q4' q6 q7 q8
    have small : ∀ (b : List UInt8) (n : Nat), b.length = n → le b < 256 ^ n := fun b n hb => hb ▸ le_lt b
    refine ⟨?_, ?_, ?_, ?_, ?_, ?_, ?_, ?_, ?_⟩
    · rw [q1]
      rcases optional_some hix with ⟨ha, rfl⟩ | ⟨b, v, ha, hv, rfl⟩
      · rw [ha]; rfl
      · rw [ha]
        obtain ⟨hb, rfl⟩ := num?_some hv
        have := small b 4 hb
        simp only [Option.map_some, Option.getD_some, UInt32.toNat_ofNat']
        omega
    · rw [q2]
      rcases optional_some hnm with ⟨ha, rfl⟩ | ⟨b, v, ha, hv, rfl⟩
      · rw [ha]; rfl
      · rw [ha]; simp [(readName_some hv).1]
    · rw [q3]
      rcases optional_some hpr with ⟨ha, rfl⟩ | ⟨b, v, ha, hv, rfl⟩
      · rw [ha]; rfl
      · rw [ha]; exact bytes?_some hv
    · rw [q3']
      rcases optional_some hpr with ⟨ha, rfl⟩ | ⟨b, v, ha, hv, rfl⟩
      · rw [ha]; simp
      · rw [ha]; simp
    · rw [q4]
      rcases optional_some hpu with ⟨ha, rfl⟩ | ⟨b, v, ha, hv, rfl⟩
      · rw [ha]; rfl
      · rw [ha]; exact bytes?_some hv
    · rw [q4']
      rcases optional_some hpu with ⟨ha, rfl⟩ | ⟨b, v, ha, hv, rfl⟩
      · rw [ha]; simp
      · rw [ha]; simp
    · rw [q6]
      rcases optional_some hpo with ⟨ha, rfl⟩ | ⟨b, v, ha, hv, rfl⟩
      · rw [ha]; rfl
      · rw [ha]
        obtain ⟨hb, rfl⟩ := num?_some hv
        have := small b 2 hb
        simp only [Option.map_some, Option.getD_some, UInt16.toNat_ofNat']
        omega
    · rw [q7]
      rcases optional_some hmk with ⟨ha, rfl⟩ | ⟨b, v, ha, hv, rfl⟩
      · rw [ha]; rfl
      · rw [ha]
        obtain ⟨hb, rfl⟩ := num?_some hv
        have := small b 4 hb
        simp only [Option.map_some, Option.getD_some, UInt32.toNat_ofNat']
        omega
    · rw [q8]
      rcases optional_some hps with ⟨ha, rfl⟩ | ⟨b, v, ha, hv, rfl⟩
      · rw [ha]; exact ⟨[], by simp, .nil⟩
      · rw [ha]; exact ⟨_, rfl, peersRaw_reads hv⟩

/-! ### Coalescing -/

theorem see_add {p q : NlPeer} {s : PeerDump} (hq : q.see = s.peer) (l : Bool) : ({ p with ips := p.ips ++ q.ips, lastSet := l } : NlPeer).see =
    { p.see with allowedIPs := p.see.allowedIPs ++ s.ips } := by
  have : q.ips.map NlIP.see = s.ips := by
    have := congrArg Peer.allowedIPs hq
    exact this
  simp [NlPeer.see, this]

theorem toList_inj {k k' : Key} (h : k.toList = k'.toList) : k = k' := by
  have h1 := vecAt_toList' k
  rw [← h1, h, vecAt_toList']

theorem coalesce_go (ss : List PeerDump) :
    (∀ (acc : NlPeer) (rs : List PeerDump) (ps : List NlPeer), DumpSplits false rs ss → List.Forall₂ PeerReads ps ss → (∀ r ∈ rs.head?, acc.pub ≠ r.key.toList) →
      (rs.map PeerDump.key).Nodup → ∃ outs, coalesce.go acc ps = some (acc :: outs) ∧ outs.map NlPeer.see = rs.map PeerDump.peer) ∧
    (∀ (acc : NlPeer) (r : PeerDump) (rs : List PeerDump) (ps : List NlPeer), DumpSplits true (r :: rs) ss →
      List.Forall₂ PeerReads ps ss → acc.pub = r.key.toList → (acc.ips = [] ∨ acc.lastSet = true) → ((r :: rs).map PeerDump.key).Nodup →
      ∃ acc' outs, coalesce.go acc ps = some (acc' :: outs) ∧ acc'.see = { acc.see with allowedIPs := acc.see.allowedIPs ++ r.ips } ∧
        outs.map NlPeer.see = rs.map PeerDump.peer) := by
  induction ss with
  | nil =>
    refine ⟨?_, ?_⟩
    · intro acc rs ps h hp _ _
      cases h
      cases hp
      exact ⟨[], rfl, rfl⟩
    · intro acc r rs ps h
      cases h
  | cons s ss ih =>
    obtain ⟨ihB, ihA⟩ := ih
    refine ⟨?_, ?_⟩
    · intro acc rs ps h hp hne nd
      cases hp with
      | cons hq hqs =>
        rename_i q qs
        have hkey : ∀ r, rs.head? = some r → s.key = r.key := by
          intro r hr
          cases h with
          | whole _ _ _ => cases hr; rfl
          | cut _ _ _ _ _ _ _ => cases hr; rfl
        have hdiff : acc.pub ≠ q.pub := by
          rw [hq.pub]
          cases rs with
          | nil => cases h
          | cons r rs => rw [hkey r rfl]; exact hne r rfl
        rw [coalesce.go, if_pos hdiff]
        cases h with
        | whole _ _ h' =>
          rename_i rs
          rw [List.map_cons, List.nodup_cons] at nd
          obtain ⟨outs, h1, h2⟩ := ihB q rs qs h' hqs (by
            intro r hr e
            rw [hq.pub] at e
            exact nd.1 (List.mem_map.2 ⟨r, List.mem_of_mem_head? hr, (toList_inj e).symm⟩)) nd.2
          exact ⟨q :: outs, by rw [h1]; rfl, by rw [List.map_cons, h2, hq.see]; rfl⟩
        | cut _ r a b he _ h' =>
          obtain ⟨acc', outs, h1, h2, h3⟩ := ihA q _ _ qs h' hqs hq.pub (by
            rw [hq.last]; cases q.ips <;> simp) nd
          refine ⟨acc' :: outs, by rw [h1]; rfl, ?_⟩
          rw [List.map_cons, h2, h3, hq.see]
          simp only [List.map_cons, PeerDump.peer, he]
    · intro acc r rs ps h hp hpub hlast nd
      cases hp with
      | cons hq hqs =>
        rename_i q qs
        have hsame : acc.pub = q.pub := by
          rw [hq.pub, hpub]
          cases h <;> rfl
        have hmerge : coalesce.go acc (q :: qs) = coalesce.go { acc with ips := acc.ips ++ q.ips, lastSet := q.lastSet } qs := by
          rw [coalesce.go, if_neg (by simp [hsame])]
          by_cases hi : acc.ips = []
          · rw [if_pos hi]; simp [hi]
          · rw [if_neg hi, if_pos (hlast.resolve_left hi)]
        rw [hmerge]
        cases h with
        | whole _ _ h' =>
          rw [List.map_cons, List.nodup_cons] at nd
          obtain ⟨outs, h1, h2⟩ := ihB { acc with ips := acc.ips ++ q.ips, lastSet := q.lastSet } rs qs h' hqs (by
            intro r' hr e
            have e' : acc.pub = r'.key.toList := e
            rw [hpub] at e'
            exact nd.1 (List.mem_map.2 ⟨r', List.mem_of_mem_head? hr, (toList_inj e').symm⟩)) nd.2
          exact ⟨_, outs, h1, see_add hq.see _, h2⟩
        | cut _ _ a b he hne h' =>
          have hqi : q.ips ≠ [] := by
            intro e
            have := congrArg Peer.allowedIPs hq.see
            simp only [NlPeer.see, PeerDump.peer, e, List.map_nil] at this
            exact hne rfl this.symm
          obtain ⟨acc', outs, h1, h2, h3⟩ := ihA { acc with ips := acc.ips ++ q.ips, lastSet := q.lastSet } _ rs qs h' hqs hpub
            (.inr (by show q.lastSet = true; rw [hq.last]; cases hqq : q.ips with | nil => exact absurd hqq hqi | cons => rfl)) nd
          refine ⟨acc', outs, h1, ?_, h3⟩
          rw [h2, see_add hq.see]
          simp only [he, List.append_assoc]

theorem coalesce_spec (rs ss : List PeerDump) (ps : List NlPeer) (h : DumpSplits false rs ss) (hp : List.Forall₂ PeerReads ps ss) (nd : (rs.map PeerDump.key).Nodup) :
    ∃ outs, coalesce ps = some outs ∧ outs.map NlPeer.see = rs.map PeerDump.peer := by
  cases hp with
  | nil => cases h; exact ⟨[], rfl, rfl⟩
  | cons hq hqs =>
    rename_i q s qs ss
    cases h with
    | whole _ _ h' =>
      rename_i rs
      rw [List.map_cons, List.nodup_cons] at nd
      obtain ⟨outs, h1, h2⟩ := (coalesce_go ss).1 q rs qs h' hqs (by
        intro r hr e
        rw [hq.pub] at e
        exact nd.1 (List.mem_map.2 ⟨r, List.mem_of_mem_head? hr, (toList_inj e).symm⟩)) nd.2
      exact ⟨q :: outs, h1, by rw [List.map_cons, h2, hq.see]; rfl⟩
    | cut _ r a b he _ h' =>
      obtain ⟨acc', outs, h1, h2, h3⟩ := (coalesce_go ss).2 q _ _ qs h' hqs hq.pub (by rw [hq.last]; cases q.ips <;> simp) nd
      refine ⟨acc' :: outs, h1, ?_⟩
      rw [List.map_cons, h2, h3, hq.see]
      simp only [List.map_cons, PeerDump.peer, he]

end WG
