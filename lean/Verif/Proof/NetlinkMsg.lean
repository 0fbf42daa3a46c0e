import Verif.Proof.NetlinkRead
/-! Whole messages of set operations and the loop sending them (C29, C30). -/
namespace WG
open Spec

/-- The attributes of the device. -/
def devList (d : Device) (first : Bool) : List (Nat × List UInt8) :=
  [(2, d.name ++ [0])] ++ (if first && d.flags.hasPrivateKey then [(3, d.privateKey.toList)] else []) ++
  (if first && d.flags.hasListenPort then [(6, u16b d.listenPort.toNat)] else []) ++
  (if first && d.flags.hasFwmark then [(7, u32b d.fwmark.toNat)] else []) ++
  (if first && d.flags.replacePeers then [(5, u32b 1)] else [])

theorem devAttrs_eq (d : Device) (first : Bool) : devAttrs [] d first = encAttrs (devList d first) := by
  cases first
  · simp [devAttrs, devList, putAttr_eq, encAttrs_single]
  · simp only [devAttrs, devList, putAttr_eq, Bool.true_and, List.nil_append, if_true]
    cases d.flags.hasPrivateKey <;> cases d.flags.hasListenPort <;> cases d.flags.hasFwmark <;> cases d.flags.replacePeers <;>
      simp [encAttrs]

theorem devList_length (d : Device) (first : Bool) (hn : d.name.length ≤ 15) : (encAttrs (devList d first)).length ≤ 80 := by
  have opt : ∀ (b : Prop) [Decidable b] (t : Nat) (x : List UInt8) (n : Nat), 4 + align4 x.length ≤ n → (encAttrs (if b then [(t, x)] else [])).length ≤ n := by
    intro b _ t x n h
    split
    · rw [encAttrs_one, encAttr_length]; exact h
    · simp
  have h1 : (encAttrs [(2, d.name ++ [0])]).length ≤ 20 := by
    rw [encAttrs_one, encAttr_length, List.length_append]; simp only [List.length_cons, List.length_nil, align4]; omega
  have h2 := opt (first && d.flags.hasPrivateKey) 3 d.privateKey.toList 36 (by simp [align4])
  have h3 := opt (first && d.flags.hasListenPort) 6 (u16b d.listenPort.toNat) 8 (by simp [align4])
  have h4 := opt (first && d.flags.hasFwmark) 7 (u32b d.fwmark.toNat) 8 (by simp [align4])
  have h5 := opt (first && d.flags.replacePeers) 5 (u32b 1) 8 (by simp [align4])
  simp only [devList, encAttrs_append, List.length_append]
  omega

/-- The attributes of a message. -/
def msgList (d : Device) (first : Bool) (fs : Option (List Frag)) : List (Nat × List UInt8) :=
  devList d first ++ (match fs with | none => [] | some fs => [(0x8008, encAttrs (fs.map Frag.attr))])

/-- What it asks for. -/
def msgReq (d : Device) (first : Bool) (fs : List Frag) : SetReq where
  privateKey := if first && d.flags.hasPrivateKey then some d.privateKey else none
  listenPort := if first && d.flags.hasListenPort then some d.listenPort else none
  fwmark := if first && d.flags.hasFwmark then some d.fwmark else none
  replacePeers := first && d.flags.replacePeers
  peers := fs.map Frag.req

theorem msgList_types (d : Device) (first : Bool) (fs : Option (List Frag)) : ∀ a ∈ msgList d first fs, a.1 < 65536 := by
  intro a ha
  simp only [msgList, devList, List.mem_append] at ha
  have opt : ∀ (b : Prop) [Decidable b] (t : Nat) (d : List UInt8), t < 65536 → a ∈ (if b then [(t, d)] else []) → a.1 < 65536 := by
    intro b _ t d ht h
    split at h <;> simp at h
    subst h; exact ht
  rcases ha with ((((ha | ha) | ha) | ha) | ha) | ha
  · simp at ha; subst ha; simp
  · exact opt _ _ _ (by decide) ha
  · exact opt _ _ _ (by decide) ha
  · exact opt _ _ _ (by decide) ha
  · exact opt _ _ _ (by decide) ha
  · split at ha <;> simp at ha
    subst ha; simp

theorem readSetReq_enc (d : Device) (first : Bool) (fs : Option (List Frag)) (hl : (encAttrs (msgList d first fs)).length < 65536)
    (hip : ∀ f ∈ fs.getD [], ∀ a ∈ f.ips.getD [], IPok a) :
    readSetReq (encAttrs (msgList d first fs)) = some (d.name, msgReq d first (fs.getD [])) := by
  rw [readSetReq, attrs_dec _ (fun a ha => ⟨Nat.lt_of_le_of_lt (member_length _ a ha) hl, msgList_types d first fs a ha⟩)]
  simp only [Option.bind_some]
  have key : ∀ t, attr? (dec (msgList d first fs)) t =
      (if t = 8 then fs.map fun l => encAttrs (l.map Frag.attr) else none).or
      ((if (first && d.flags.replacePeers) = true ∧ 5 = t then some (u32b 1) else none).or
      ((if (first && d.flags.hasFwmark) = true ∧ 7 = t then some (u32b d.fwmark.toNat) else none).or
      ((if (first && d.flags.hasListenPort) = true ∧ 6 = t then some (u16b d.listenPort.toNat) else none).or
      ((if (first && d.flags.hasPrivateKey) = true ∧ 3 = t then some d.privateKey.toList else none).or
      (if 2 = t then some (d.name ++ [0]) else none))))) := by
    intro t
    simp only [msgList, devList, dec_append, attr?_append, dec_opt, attr?_opt]
    congr 1
    · cases fs with
      | none => simp [dec, attr?_nil]
      | some l =>
        simp only [dec, List.map_cons, List.map_nil, attr?_single, Option.map_some]
        by_cases h : t = 8
        · subst h; rfl
        · rw [if_neg h, if_neg (by omega)]
    · simp only [dec, List.map_cons, List.map_nil, attr?_single, Nat.reduceMod]
  have a2 : attr? (dec (msgList d first fs)) 2 = some (d.name ++ [0]) := by rw [key]; simp
  have a3 : attr? (dec (msgList d first fs)) 3 = if (first && d.flags.hasPrivateKey) = true then some d.privateKey.toList else none := by
    rw [key]; simp
  have a5 : attr? (dec (msgList d first fs)) 5 = if (first && d.flags.replacePeers) = true then some (u32b 1) else none := by
    rw [key]; simp
  have a6 : attr? (dec (msgList d first fs)) 6 = if (first && d.flags.hasListenPort) = true then some (u16b d.listenPort.toNat) else none := by
    rw [key]; simp
  have a7 : attr? (dec (msgList d first fs)) 7 = if (first && d.flags.hasFwmark) = true then some (u32b d.fwmark.toNat) else none := by
    rw [key]; simp
  have a8 : attr? (dec (msgList d first fs)) 8 = fs.map fun l => encAttrs (l.map Frag.attr) := by
    rw [key]; simp
  rw [a2, a3, a5, a6, a7, a8]
  rw [optional_ite _ _ _ d.privateKey (fun _ => bytes?_toList _), optional_ite _ _ _ 1 (fun _ => num?_u32b _ (by omega)),
    optional_ite _ _ _ d.listenPort.toNat (fun _ => num?_u16b _ d.listenPort.toNat_lt),
    optional_ite _ _ _ d.fwmark.toNat (fun _ => num?_u32b _ d.fwmark.toNat_lt)]
  have hfs : Spec.optional (fs.map fun l => encAttrs (l.map Frag.attr)) (elements readPeerReq) = some (fs.map fun l => l.map Frag.req) := by
    cases hf : fs with
    | none => rfl
    | some l =>
      simp only [Option.map_some, Spec.optional]
      have hlen : ∀ f ∈ l, (encAttrs f.attrs).length + 4 < 65536 := by
        intro f hfm
        have h1 := member_length (l.map Frag.attr) f.attr (List.mem_map_of_mem hfm)
        have h2 := member_length (msgList d first fs) (0x8008, encAttrs (l.map Frag.attr)) (by simp [msgList, hf])
        simp only [Frag.attr] at h1 h2
        omega
      rw [elements_enc readPeerReq Frag.attr Frag.req l (fun f hfm => ⟨by simp [Frag.attr], by simp [Frag.attr], hlen f hfm⟩)
        (fun f hfm => readPeerReq_enc f (by have := hlen f hfm; omega) (hip f (by simp [hf, hfm])))]
      simp
  rw [hfs]
  simp only [Option.bind_some, List.getLast?_append, List.getLast?_singleton, Option.some_or, ne_eq, not_true, if_false,
    List.dropLast_concat, Option.map_some]
  congr 2
  simp only [msgReq]
  congr 1
  · cases (first && d.flags.hasListenPort) <;> simp
  · cases (first && d.flags.hasFwmark) <;> simp
  · cases (first && d.flags.replacePeers) <;> simp
  · cases fs <;> rfl

theorem readSetMessage_enc (c : NlCtx) (seq : UInt32) (body : List UInt8) (h : 20 + body.length < 2 ^ 32) :
    readSetMessage c.id c.version (wholeMsg c seq body) = readSetReq body := by
  have hl : (wholeMsg c seq body).length = 20 + body.length := by simp [wholeMsg, nlHeader]; omega
  have h1 : (wholeMsg c seq body).take 4 = u32b (20 + body.length) := rfl
  have h2 : ((wholeMsg c seq body).drop 4).take 2 = u16b c.id.toNat := rfl
  have h3 : ((wholeMsg c seq body).drop 6).take 2 = u16b 5 := rfl
  have h4 : ((wholeMsg c seq body).drop 16).take 2 = [1, c.version] := rfl
  have h5 : (wholeMsg c seq body).drop 20 = body := rfl
  rw [readSetMessage, h1, h2, h3, h4, h5, hl, le_u32b _ h, le_u16b _ c.id.toNat_lt, le_u16b _ (by omega), if_pos ⟨by omega, rfl, rfl, rfl, rfl⟩]

/-! ### States of the loop -/

/-- What is left to ask for. -/
def leftReq (d : Device) : SetState → SetReq
  | .start => requestOf d
  | .at ps ip => { peers := remaining ps ip }

/-- Sensible states. -/
def StOk (d : Device) : SetState → Prop
  | .start => True
  | .at ps ip => ps ≠ [] ∧ Sensible ps ip ∧ ∀ p ∈ ps, p ∈ d.peers

/-- How much is left. -/
def leftTodo (d : Device) : SetState → Nat
  | .start => todo d.peers none
  | .at ps ip => todo ps ip

/-- All prefix lengths are in range. -/
def DevOk (d : Device) : Prop := d.name.length ≤ 15 ∧ ∀ p ∈ d.peers, ∀ a ∈ p.allowedIPs, IPok a

theorem nl_requestOf_peers (d : Device) : (requestOf d).peers = remaining d.peers none := by
  rw [remaining_none]
  simp only [requestOf]
  apply List.map_congr_left
  intro p _
  simp only [Frag.req, Bool.true_and, Option.getD_some, decide_eq_true_eq, ne_eq, ite_not]

theorem applyDevReq_empty (s : Iface) (ps : List PeerReq) : applyDevReq s { peers := ps } = s := rfl

/-- The first flag. -/
def SetState.isFirst : SetState → Bool
  | .start => true
  | .at .. => false

/-- Where the peers start. -/
def SetState.peers (d : Device) : SetState → List Peer
  | .start => d.peers
  | .at ps _ => ps

/-- Where the allowed IPs of the first peer start. -/
def SetState.ip : SetState → Option (List AllowedIP)
  | .start => none
  | .at _ ip => ip

/-- The next state. -/
def nextState (ps : List Peer) (ip : Option (List AllowedIP)) : Option SetState := if ps = [] then none else some (.at ps ip)

theorem buildMsg_eq (c : NlCtx) (d : Device) (st : SetState) (hp : d.peers ≠ []) :
    buildMsg c d st = (nestEnd (peersLoop c (nestStart c (encAttrs (devList d st.isFirst)) 8) (st.peers d) st.ip).1 (encAttrs (devList d st.isFirst)).length,
      nextState (peersLoop c (nestStart c (encAttrs (devList d st.isFirst)) 8) (st.peers d) st.ip).2.1
        (peersLoop c (nestStart c (encAttrs (devList d st.isFirst)) 8) (st.peers d) st.ip).2.2) := by
  cases st <;> simp only [buildMsg, if_neg hp, devAttrs_eq] <;> rfl

/-- One message. -/
theorem buildMsg_spec (c : NlCtx) (d : Device) (st : SetState) (h1 : 272 ≤ c.size) (h2 : c.size < 65536) (hd : DevOk d) (hst : StOk d st) :
    ∃ fs, readSetReq (buildMsg c d st).1 = some (d.name, msgReq d st.isFirst fs) ∧ 20 + (buildMsg c d st).1.length ≤ c.size ∧
      match (buildMsg c d st).2 with
      | none => (∀ s, applyReq s (msgReq d st.isFirst fs) = applyReq s (leftReq d st)) ∧ Splits (leftReq d st).peers (fs.map Frag.req)
      | some st' => (∀ s, applyReq (applyReq s (msgReq d st.isFirst fs)) (leftReq d st') = applyReq s (leftReq d st)) ∧
          (∀ rest, Splits (leftReq d st').peers rest → Splits (leftReq d st).peers (fs.map Frag.req ++ rest)) ∧
          StOk d st' ∧ st'.isFirst = false ∧ leftTodo d st' < leftTodo d st := by
  have hdl := devList_length d st.isFirst hd.1
  by_cases hp : d.peers = []
  · -- no peers: one message
    have hst' : st = .start := by
      cases st with
      | start => rfl
      | «at» ps ip =>
        obtain ⟨hne, -, hsub⟩ := hst
        cases ps with
        | nil => exact absurd rfl hne
        | cons p ps => have := hsub p (by simp); rw [hp] at this; simp at this
    subst hst'
    have e : buildMsg c d .start = (encAttrs (msgList d true none), none) := by
      simp only [buildMsg, hp, if_true, devAttrs_eq]
      simp [msgList]
    have hl : (encAttrs (msgList d true none)).length = (encAttrs (devList d true)).length := by simp [msgList]
    simp only [SetState.isFirst] at hdl ⊢
    refine ⟨[], ?_, ?_, ?_⟩
    · rw [e]; exact readSetReq_enc d true none (by omega) (by simp)
    · rw [e]; simp only; omega
    · rw [e]
      have hr : msgReq d true [] = requestOf d := by
        simp [msgReq, requestOf, hp]
      exact ⟨fun s => by rw [hr]; rfl, by simp only [leftReq, requestOf, hp]; exact .nil⟩
  · -- the place to start from
    obtain ⟨ps, ip, hps, hsens, hsub, hleft, htodo, hp1, hp2⟩ : ∃ ps ip, ps ≠ [] ∧ Sensible ps ip ∧ (∀ p ∈ ps, p ∈ d.peers) ∧
        (leftReq d st).peers = remaining ps ip ∧ leftTodo d st = todo ps ip ∧ st.peers d = ps ∧ st.ip = ip := by
      cases st with
      | start => exact ⟨d.peers, none, hp, by cases d.peers <;> simp [Sensible], fun _ h => h, nl_requestOf_peers d, rfl, rfl, rfl⟩
      | «at» ps ip => exact ⟨ps, ip, hst.1, hst.2.1, hst.2.2, rfl, rfl, rfl, rfl⟩
    obtain ⟨fs, ps', ip', l1, l2, w, l4⟩ := peersLoop_spec c ps (nestStart c (encAttrs (devList d st.isFirst)) 8) ip (by rw [nestStart_length]; omega) hsens
    rw [nestStart_length] at l2 l4
    have hml : (encAttrs (msgList d st.isFirst (some fs))).length = (encAttrs (devList d st.isFirst)).length + 4 + (encAttrs (fs.map Frag.attr)).length := by
      simp only [msgList, encAttrs_append, encAttrs_one, List.length_append, encAttr_length, align4_of_dvd (encAttrs_dvd _)]; omega
    have e : buildMsg c d st = (encAttrs (msgList d st.isFirst (some fs)), nextState ps' ip') := by
      rw [buildMsg_eq c d st hp, hp1, hp2, l1]
      simp only
      rw [nestEnd_eq _ _ _ _ (encAttrs_dvd _)]
      simp only [msgList, encAttrs_append, encAttrs_one]
    refine ⟨fs, ?_, ?_, ?_⟩
    · rw [e]
      exact readSetReq_enc d _ (some fs) (by omega) (fun f hf a ha => hd.2 f.peer (hsub _ (w.source f hf).1) a ((w.source f hf).2 a ha))
    · rw [e]; simp only; omega
    · rw [e]
      have hdev : ∀ s, applyDevReq s (msgReq d st.isFirst fs) = applyDevReq s (leftReq d st) := by
        intro s
        cases st with
        | start => rfl
        | «at» ps ip => simp [applyDevReq, msgReq, leftReq, SetState.isFirst]
      have hmean : ∀ s, (remaining ps' ip').foldl applyPeerReq (applyReq s (msgReq d st.isFirst fs)) = applyReq s (leftReq d st) := by
        intro s
        have := w.meaning (applyDevReq s (leftReq d st))
        simp only [applyReq, hleft, hdev]
        exact this
      clear e l1
      cases hps' : ps' with
      | nil =>
        simp only [nextState, if_true]
        refine ⟨fun s => ?_, ?_⟩
        · have := hmean s; rw [hps'] at this; exact this
        · have := w.splits [] (by rw [hps']; exact .nil)
          rw [hleft]; simpa using this
      | cons p ps'' =>
        simp only [nextState, reduceCtorEq, if_false]
        refine ⟨fun s => ?_, fun rest hr => ?_, ⟨by simp, by rw [← hps']; exact w.sensible, fun x hx => hsub x (w.suffix x (by rw [hps']; exact hx))⟩, rfl, ?_⟩
        · have := hmean s
          rw [hps'] at this
          exact this
        · rw [hleft]
          exact w.splits rest (by rw [hps']; exact hr)
        · rw [htodo]
          have := l4 hps (by omega)
          rw [hps'] at this
          exact this


/-! ### The loop -/

theorem wholeMsg_length (c : NlCtx) (seq : UInt32) (body : List UInt8) : (wholeMsg c seq body).length = 20 + body.length := by
  simp [wholeMsg, nlHeader]; omega

/-- `reqs` are the requests read from the messages. -/
def AllRead (c : NlCtx) (name : CStr) (msgs : List (List UInt8)) (reqs : List SetReq) : Prop :=
  List.Forall₂ (fun m r => readSetMessage c.id c.version m = some (name, r)) msgs reqs

theorem Splits_refl (rs : List PeerReq) : Splits rs rs := by
  induction rs with
  | nil => exact .nil
  | cons r rs ih => exact .whole r ih

/-- The device part of a request. -/
def devPart (r : SetReq) : SetReq := { r with peers := [] }

theorem devPart_msgReq (d : Device) (st : SetState) (fs : List Frag) : devPart (msgReq d st.isFirst fs) = devPart (leftReq d st) := by
  cases st <;> simp [devPart, msgReq, leftReq, requestOf, SetState.isFirst]

theorem setLoop_spec (c : NlCtx) (portid : Nat) (seq : Nat → UInt32) (send : Nat → Option Nat) (replies : Nat → List Recv) (d : Device)
    (h1 : 272 ≤ c.size) (h2 : c.size < 65536) (hd : DevOk d) (hs : ∀ i, send i ≠ some 0) :
    ∀ fuel i st, StOk d st →
      ∃ reqs, AllRead c d.name (setLoop c portid seq send replies d fuel i st).2 reqs ∧
        (∀ m ∈ (setLoop c portid seq send replies d fuel i st).2, m.length ≤ c.size) ∧
        (∀ r ∈ reqs.head?, devPart r = devPart (leftReq d st)) ∧ (∀ r ∈ reqs.tail, devPart r = {}) ∧
        ((setLoop c portid seq send replies d fuel i st).1 = .ok 0 →
          (∀ s, reqs.foldl applyReq s = applyReq s (leftReq d st)) ∧ Splits (leftReq d st).peers (reqs.flatMap (·.peers))) ∧
        ∃ rest : List SetReq, (∀ s, (reqs ++ rest).foldl applyReq s = applyReq s (leftReq d st)) ∧
          Splits (leftReq d st).peers ((reqs ++ rest).flatMap (·.peers)) := by
  intro fuel
  induction fuel with
  | zero =>
    intro i st _
    exact ⟨[], .nil, by simp [setLoop], by simp, by simp, by simp [setLoop], [leftReq d st], by simp, by simp [Splits_refl]⟩
  | succ fuel ih =>
    intro i st hst
    obtain ⟨fs, b1, b2, b3⟩ := buildMsg_spec c d st h1 h2 hd hst
    have hread : readSetMessage c.id c.version (wholeMsg c (seq i) (buildMsg c d st).1) = some (d.name, msgReq d st.isFirst fs) := by
      rw [readSetMessage_enc _ _ _ (by omega), b1]
    have hlen : (wholeMsg c (seq i) (buildMsg c d st).1).length ≤ c.size := by rw [wholeMsg_length]; exact b2
    -- when this is the last message sent
    have last : ∀ x : Res Int, (x = .ok 0 → (buildMsg c d st).2 = none) →
        ∃ reqs, AllRead c d.name [wholeMsg c (seq i) (buildMsg c d st).1] reqs ∧ (∀ m ∈ [wholeMsg c (seq i) (buildMsg c d st).1], m.length ≤ c.size) ∧
          (∀ r ∈ reqs.head?, devPart r = devPart (leftReq d st)) ∧ (∀ r ∈ reqs.tail, devPart r = {}) ∧
          (x = .ok 0 → (∀ s, reqs.foldl applyReq s = applyReq s (leftReq d st)) ∧ Splits (leftReq d st).peers (reqs.flatMap (·.peers))) ∧
          ∃ rest : List SetReq, (∀ s, (reqs ++ rest).foldl applyReq s = applyReq s (leftReq d st)) ∧
            Splits (leftReq d st).peers ((reqs ++ rest).flatMap (·.peers)) := by
      intro x hx
      refine ⟨[msgReq d st.isFirst fs], .cons hread .nil, by simpa using hlen, by simp [devPart_msgReq], by simp, fun h0 => ?_, ?_⟩
      · rw [hx h0] at b3
        exact ⟨fun s => b3.1 s, by simpa [msgReq] using b3.2⟩
      · cases hn : (buildMsg c d st).2 with
        | none =>
          rw [hn] at b3
          exact ⟨[], fun s => b3.1 s, by simpa [msgReq] using b3.2⟩
        | some st' =>
          rw [hn] at b3
          exact ⟨[leftReq d st'], fun s => b3.1 s, by simpa [msgReq] using b3.2.1 _ (Splits_refl _)⟩
    rw [setLoop]
    cases hse : send i with
    | some e =>
      simp only
      refine last _ fun h => ?_
      simp only [Res.ok.injEq] at h
      exact absurd (show send i = some 0 by rw [hse]; congr 1; omega) (hs i)
    | none =>
      simp only
      cases hr : recvRun (σ := Unit) (seq i).toNat portid none (replies i) (0, ()) with
      | ok v =>
        obtain ⟨ret, errno, u⟩ := v
        simp only
        by_cases hneg : ret < 0
        · simp only [hneg, if_true]
          refine last _ fun h => ?_
          exfalso
          simp only [Res.ok.injEq] at h
          split at h <;> omega
        · simp only [hneg, if_false]
          cases hn : (buildMsg c d st).2 with
          | none => exact last _ fun _ => hn
          | some st' =>
            rw [hn] at b3
            obtain ⟨b4, b5, b6, b7, b8⟩ := b3
            obtain ⟨reqs, i1, i2, i3, i4, i5, rest, i6, i7⟩ := ih (i + 1) st' b6
            have hdv : devPart (leftReq d st') = {} := by
              cases st' with
              | start => simp [SetState.isFirst] at b7
              | «at» => rfl
            simp only
            refine ⟨msgReq d st.isFirst fs :: reqs, .cons hread i1, ?_, by simp [devPart_msgReq], ?_, fun h0 => ?_, rest, fun s => ?_, ?_⟩
            · intro m hm
              rcases List.mem_cons.1 hm with rfl | hm
              · exact hlen
              · exact i2 m hm
            · intro r hr
              simp only [List.tail_cons] at hr
              cases reqs with
              | nil => simp at hr
              | cons q qs =>
                rcases List.mem_cons.1 hr with rfl | hr
                · rw [i3 _ rfl, hdv]
                · exact i4 r hr
            · refine ⟨fun s => ?_, ?_⟩
              · rw [List.foldl_cons, (i5 h0).1, b4]
              · rw [List.flatMap_cons]; exact b5 _ (i5 h0).2
            · rw [List.cons_append, List.foldl_cons, i6, b4]
            · rw [List.cons_append, List.flatMap_cons]; exact b5 _ i7
      | ub => exact last _ (by simp)
      | running => exact last _ (by simp)
      | _ => exact last _ (by simp)

/-- The loop ends. -/
theorem setLoop_ends (c : NlCtx) (portid : Nat) (seq : Nat → UInt32) (send : Nat → Option Nat) (replies : Nat → List Recv) (d : Device)
    (h1 : 272 ≤ c.size) (h2 : c.size < 65536) (hd : DevOk d)
    (hr : ∀ i, ∃ v, recvRun (σ := Unit) (seq i).toNat portid none (replies i) (0, ()) = .ok v) :
    ∀ fuel i st, StOk d st → leftTodo d st < fuel → ∃ x : Int, (setLoop c portid seq send replies d fuel i st).1 = .ok x ∧
      ((∀ i, send i = none) → (∀ i v, recvRun (σ := Unit) (seq i).toNat portid none (replies i) (0, ()) = .ok v → 0 ≤ v.1) → x = 0) ∧
      (setLoop c portid seq send replies d fuel i st).2.length ≤ leftTodo d st + 1 := by
  intro fuel
  induction fuel with
  | zero => intro i st _ h; omega
  | succ fuel ih =>
    intro i st hst hf
    obtain ⟨fs, b1, b2, b3⟩ := buildMsg_spec c d st h1 h2 hd hst
    rw [setLoop]
    cases hse : send i with
    | some e => exact ⟨_, rfl, fun h => by rw [h i] at hse; simp at hse, by simp⟩
    | none =>
      simp only
      obtain ⟨⟨ret, errno, u⟩, hv⟩ := hr i
      rw [hv]
      simp only
      by_cases hneg : ret < 0
      · simp only [hneg, if_true]
        exact ⟨_, rfl, fun _ h => by have := h i _ hv; simp only at this; omega, by simp⟩
      · simp only [hneg, if_false]
        cases hn : (buildMsg c d st).2 with
        | none => exact ⟨0, rfl, fun _ _ => rfl, by simp⟩
        | some st' =>
          rw [hn] at b3
          obtain ⟨b4, b5, b6, b7, b8⟩ := b3
          obtain ⟨x, i1, i2, i3⟩ := ih (i + 1) st' b6 (by omega)
          exact ⟨x, i1, i2, by simp only [List.length_cons]; omega⟩

end WG
