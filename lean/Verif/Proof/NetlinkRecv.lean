import Verif.Proof.NetlinkGet
/-! Receiving a dump (C31). -/
namespace WG
open Spec

theorem messages_cases {bs : List UInt8} {l : List NlMsg} (h : messages bs = some l) :
    (bs = [] ∧ l = []) ∨ ∃ m l', l = m :: l' ∧ 16 + m.body.length ≤ bs.length ∧ le (bs.take 4) = 16 + m.body.length ∧
      le ((bs.drop 4).take 2) = m.type ∧ le ((bs.drop 6).take 2) = m.flags ∧ le ((bs.drop 8).take 4) = m.seq ∧ le ((bs.drop 12).take 4) = m.portid ∧
      (bs.drop 16).take m.body.length = m.body ∧ messages (bs.drop (pad4 (16 + m.body.length))) = some l' := by
  rw [messages, messagesAux] at h
  by_cases hb : bs = []
  · rw [if_pos hb] at h
    left; exact ⟨hb, by simpa using h.symm⟩
  · rw [if_neg hb] at h
    simp only at h
    by_cases hc : bs.length < 16 ∨ le (bs.take 4) < 16 ∨ bs.length < le (bs.take 4)
    · rw [if_pos hc] at h; simp at h
    · rw [if_neg hc] at h
      right
      cases hr : messagesAux bs.length (bs.drop (pad4 (le (bs.take 4)))) with
      | none => rw [hr] at h; simp at h
      | some r =>
        rw [hr] at h
        simp only [Option.map_some, Option.some.injEq] at h
        have hdl : ((bs.drop 16).take (le (bs.take 4) - 16)).length = le (bs.take 4) - 16 := by
          rw [List.length_take, List.length_drop]; omega
        refine ⟨_, r, h.symm, ?_, ?_, rfl, rfl, rfl, rfl, ?_, ?_⟩
        · simp only [hdl]; omega
        · simp only [hdl]; omega
        · simp only [hdl]
        · simp only [hdl]
          rw [show 16 + (le (bs.take 4) - 16) = le (bs.take 4) from by omega]
          have hlen : (bs.drop (pad4 (le (bs.take 4)))).length < bs.length := by
            rw [List.length_drop]; have := pad4_ge (le (bs.take 4)); omega
          have key : ∀ (n f : Nat) (cs : List UInt8) (l), cs.length < n → messagesAux f cs = some l → messagesAux n cs = some l := by
            intro n
            induction n with
            | zero => intro f cs l hn; omega
            | succ n ihn =>
              intro f cs l hn hf
              cases f with
              | zero => simp [messagesAux] at hf
              | succ f =>
                rw [messagesAux] at hf ⊢
                split
                · rename_i hb; rw [if_pos hb] at hf; exact hf
                · rename_i hb
                  rw [if_neg hb] at hf
                  simp only at hf ⊢
                  split
                  · rename_i hc; rw [if_pos hc] at hf; exact hf
                  · rename_i hc
                    rw [if_neg hc] at hf
                    cases hr : messagesAux f (cs.drop (pad4 (le (cs.take 4)))) with
                    | none => rw [hr] at hf; simp at hf
                    | some r => rw [ihn f _ r (by
                        rw [List.length_drop]; have := pad4_ge (le (cs.take 4)); omega) hr, ← hf, hr]
          exact key _ _ _ _ (by omega) hr

/-- There is a message at `h`. -/
structure MsgAt (mem : List UInt8) (h : Nat) (m : NlMsg) : Prop where
  inside : h + (16 + m.body.length) ≤ mem.length
  len : le ((mem.drop h).take 4) = 16 + m.body.length
  type : le ((mem.drop (h + 4)).take 2) = m.type
  flags : le ((mem.drop (h + 6)).take 2) = m.flags
  seq : le ((mem.drop (h + 8)).take 4) = m.seq
  portid : le ((mem.drop (h + 12)).take 4) = m.portid
  body : (mem.drop (h + 16)).take m.body.length = m.body

theorem take_drop_append (data stale : List UInt8) (h n : Nat) (hn : h + n ≤ data.length) : ((data ++ stale).drop h).take n = (data.drop h).take n := by
  rw [List.drop_append_of_le_length (by omega), List.take_append_of_le_length (by rw [List.length_drop]; omega)]

/-- The first message of a region. -/
theorem msgAt_of {data stale : List UInt8} {h : Nat} {m : NlMsg} {l : List NlMsg} (hm : messages (data.drop h) = some (m :: l)) :
    MsgAt (data ++ stale) h m ∧ h + (16 + m.body.length) ≤ data.length ∧ messages (data.drop (h + pad4 (16 + m.body.length))) = some l := by
  rcases messages_cases hm with ⟨-, h0⟩ | ⟨m', l', hl, h1, h2, h3, h4, h5, h6, h7, h8⟩
  · simp at h0
  · cases hl
    rw [List.length_drop] at h1
    have hin : h + (16 + m.body.length) ≤ data.length := by omega
    simp only [List.drop_drop] at h3 h4 h5 h6 h7 h8
    refine ⟨⟨?_, ?_, ?_, ?_, ?_, ?_, ?_⟩, hin, h8⟩
    · rw [List.length_append]; omega
    all_goals rw [take_drop_append _ _ _ _ (by omega)]; assumption

theorem readDeviceCb_step {mem : List UInt8} (hm : mem.length < 2 ^ 30) {h : Nat} {m : NlMsg} (hat : MsgAt mem h m) (h4 : 4 ≤ m.body.length) {f : DevDump}
    (hf : readDevDump (m.body.drop 4) = some f) (e : Nat) (dv : NlDevice) :
    readDeviceCb mem h (e, dv) = .ok (1, e, devApply dv (m.body.drop 4)) := by
  obtain ⟨l, h1, h2, h3⟩ := devApply_spec hf
  have hin := hat.inside
  have hreg : (mem.drop (h + 16 + align4 4)).take (m.body.length - 4) = m.body.drop 4 := by
    conv_rhs => rw [← hat.body]
    rw [List.drop_take, List.drop_drop]; rfl
  have p1 := pad4_ge (16 + m.body.length)
  have p2 := pad4_lt (16 + m.body.length)
  have a4 : align4 4 = 4 := rfl
  have hw := walk_attrs mem hm (nlParseDevice mem) (fun s b => (s.1, devStep s.2 b)) (fun _ => True) l (h + 16 + align4 4) (m.body.length - 4)
    (h + align4 (16 + m.body.length)) (mem.length + 1) (e, dv) (by rw [hreg]; exact h1) (by omega) (by rw [align4_pad4 (16 + _)]; omega)
    (by rw [align4_pad4 (16 + _)]; omega) (by omega) trivial (fun x t d st hb hx _ => ⟨nlParseDevice_step hm hx (h2 t d hb) st.1 st.2, trivial⟩)
  have hfold : ∀ (l : List (Nat × List UInt8)) (s : NlDevice), l.foldl (fun (s : Nat × NlDevice) b => (s.1, devStep s.2 b)) (e, s) = (e, l.foldl devStep s) := by
    intro l
    induction l with
    | nil => intro s; rfl
    | cons b l ih => intro s; exact ih _
  rw [readDeviceCb, parseMsg, rdNum_ok (by omega), hat.len, okb, hw, hfold, devApply, h1]
  rfl

/-- The device after the messages `ms`. -/
def devMsgs (dv : NlDevice) (ms : List NlMsg) : NlDevice := ms.foldl (fun dv m => devApply dv (m.body.drop 4)) dv

/-- Data messages are passed to the callback one after the other. -/
theorem cbRun_data (data stale : List UInt8) (hm : (data ++ stale).length < 2 ^ 30) (seq portid : Nat) (rest : List NlMsg) :
    ∀ (ms : List NlMsg) (fuel h : Nat) (ret : Int) (e : Nat) (dv : NlDevice), messages (data.drop h) = some (ms ++ rest) → (∀ m ∈ ms, m.IsData seq portid) →
      (∀ m ∈ ms, ∃ f, readDevDump (m.body.drop 4) = some f) → data.length - h < fuel → h < data.length + 4 → 
      ∃ h' fuel', cbRun (data ++ stale) seq portid (some (readDeviceCb (data ++ stale))) fuel h (data.length - h) ret (e, dv) =
        cbRun (data ++ stale) seq portid (some (readDeviceCb (data ++ stale))) fuel' h' (data.length - h') (if ms = [] then ret else 1) (e, devMsgs dv ms) ∧
        messages (data.drop h') = some rest ∧ data.length - h' < fuel' ∧ h' < data.length + 4 := by
  intro ms
  induction ms with
  | nil => intro fuel h ret e dv h1 _ _ h2 h3; exact ⟨h, fuel, rfl, h1, h2, h3⟩
  | cons m ms ih =>
    intro fuel h ret e dv h1 hd hr hf hh
    obtain ⟨hat, hin, hnext⟩ := msgAt_of (stale := stale) (by exact h1)
    obtain ⟨d1, d2, d3, d4, d5⟩ := hd m (by simp)
    obtain ⟨f, hf'⟩ := hr m (by simp)
    have hin' := hat.inside
    have p1 := pad4_ge (16 + m.body.length)
    have p2 := pad4_lt (16 + m.body.length)
    have hlen : data.length < 2 ^ 30 := by rw [List.length_append] at hm; omega
    cases fuel with
    | zero => omega
    | succ fuel =>
      obtain ⟨h', fuel', e1, e2, e3, e4⟩ := ih fuel (h + pad4 (16 + m.body.length)) 1 e (devApply dv (m.body.drop 4)) hnext (fun m hm => hd m (by simp [hm]))
        (fun m hm => hr m (by simp [hm])) (by omega) (by omega)
      refine ⟨h', fuel', ?_, e2, e3, e4⟩
      rw [cbRun_succ, if_neg (by omega), rdNum_ok (by omega), hat.len, okb, toInt32_of (by omega) (by omega), if_neg (by omega), rdNum_ok (by omega), hat.portid, okb, d4,
        if_neg (by simp [idOk]), rdNum_ok (by omega), hat.seq, okb, d3, if_neg (by simp [idOk]), rdNum_ok (by omega), hat.flags, okb]
      have hfl : ¬ m.flags / 16 % 2 = 1 := by
        have h4 := d2
        rw [Nat.testBit_eq_decide_div_mod_eq] at h4
        simpa using h4
      rw [if_neg hfl, rdNum_ok (by omega), hat.type, okb, if_pos d1]
      simp only
      rw [readDeviceCb_step hm hat d5 hf', okb]
      simp only
      rw [if_neg (by omega), align4_pad4, toInt32_of (by omega) (by omega)]
      have : ((data.length : Int) - h - (pad4 (16 + m.body.length) : Nat)) = (data.length : Int) - ((h + pad4 (16 + m.body.length) : Nat) : Int) := by omega
      rw [this, e1]
      simp [devMsgs]

theorem cbRun_done (data stale : List UInt8) (hm : (data ++ stale).length < 2 ^ 30) (seq portid : Nat) {h' : Nat} {done : NlMsg} (hat : MsgAt (data ++ stale) h' done)
    (hin : h' + (16 + done.body.length) ≤ data.length) (hd : done.IsDone seq portid) (fuel' : Nat) (hf : data.length - h' < fuel') (ret : Int) (e : Nat) (dv : NlDevice) :
    cbRun (data ++ stale) seq portid (some (readDeviceCb (data ++ stale))) fuel' h' (data.length - h') ret (e, dv) = .ok (0, 0, dv) := by
  have hin' := hat.inside
  obtain ⟨d1, d2, d3, d4, d5, d6⟩ := hd
  have hb : done.body.length = 4 := by rw [d6]; rfl
  have hlen : data.length < 2 ^ 30 := by rw [List.length_append] at hm; omega
  cases fuel' with
  | zero => omega
  | succ fuel' =>
    have hfl : ¬ done.flags / 16 % 2 = 1 := by
      rw [Nat.testBit_eq_decide_div_mod_eq] at d2
      simpa using d2
    have hfm : done.flags % 4 ≥ 2 := by
      rw [Nat.testBit_eq_decide_div_mod_eq] at d3
      simp at d3; omega
    have hcode : ((data ++ stale).drop (h' + 16)).take 4 = [0, 0, 0, 0] := by
      have := hat.body
      rw [d6] at this; exact this
    rw [cbRun_succ, if_neg (by omega), rdNum_ok (by omega), hat.len, okb, toInt32_of (by omega) (by omega), if_neg (by omega), rdNum_ok (by omega), hat.portid, okb, d5,
      if_neg (by simp [idOk]), rdNum_ok (by omega), hat.seq, okb, d4, if_neg (by simp [idOk]), rdNum_ok (by omega), hat.flags, okb,
      if_neg hfl, rdNum_ok (by omega), hat.type, okb, d1, if_neg (by omega), if_neg (by omega)]
    rw [ctlCb, if_neg (by omega), if_pos rfl, if_pos ⟨hfm, by omega⟩, rdNum_ok (by omega), hcode]
    rw [show le [0, 0, 0, 0] = 0 from rfl, okb]
    simp [toInt32]

theorem recvRun_dump (seq portid : Nat) : ∀ (ds : List (List UInt8 × List UInt8)) (ms : List NlMsg), Dump seq portid (ds.map (·.1)) ms →
    (∀ d ∈ ds, (d.1 ++ d.2).length < 2 ^ 30) → (∀ m ∈ ms, ∃ f, readDevDump (m.body.drop 4) = some f) → ∀ (e : Nat) (dv : NlDevice),
    recvRun seq portid (some readDeviceCb) (ds.map fun d => .msg d.1 d.2) (e, dv) = .ok (0, 0, devMsgs dv ms) := by
  intro ds
  induction ds with
  | nil => intro ms h; cases h
  | cons d ds ih =>
    intro ms h hl hr e dv
    obtain ⟨data, stale⟩ := d
    have hm := hl (data, stale) (by simp)
    simp only at hm
    rw [List.map_cons] at h ⊢
    cases h with
    | last _ _ _ rest done h1 h2 h3 =>
      have hne : data.length ≠ 0 := by
        intro e0
        rw [List.length_eq_zero_iff.1 e0] at h1
        simp [messages, messagesAux] at h1
      obtain ⟨h', fuel', e1, e2, e3, e4⟩ := cbRun_data data stale hm seq portid _ ms (data.length + 1) 0 1 e dv (by rw [List.drop_zero]; exact h1) h2 hr (by omega) (by omega)
      obtain ⟨hat, hin, -⟩ := msgAt_of (stale := stale) e2
      have hin' := hat.inside
      obtain ⟨d1, d2, d3, d4, d5, d6⟩ := h3
      have hb : done.body.length = 4 := by rw [d6]; rfl
      rw [recvRun, if_neg hne, Option.map_some]
      rw [show ((data.length : Int) - ((0 : Nat) : Int)) = data.length from by omega] at e1
      rw [e1]
      rw [cbRun_done data stale hm seq portid hat hin ⟨d1, d2, d3, d4, d5, d6⟩ _ e3]
      rfl
    | more _ _ ms1 ms2 h1 h2 h3 h4 =>
      have hne : data.length ≠ 0 := by
        intro e0
        rw [List.length_eq_zero_iff.1 e0] at h1
        simp [messages, messagesAux] at h1
        exact h2 h1
      obtain ⟨h', fuel', e1, e2, e3, e4⟩ := cbRun_data data stale hm seq portid [] ms1 (data.length + 1) 0 1 e dv (by rw [List.drop_zero, List.append_nil]; exact h1) h3
        (fun m hm => hr m (by simp [hm])) (by omega) (by omega)
      rw [recvRun, if_neg hne, Option.map_some]
      rw [show ((data.length : Int) - ((0 : Nat) : Int)) = data.length from by omega] at e1
      rw [e1]
      cases fuel' with
      | zero => omega
      | succ fuel' =>
        have hz : data.length ≤ h' := by
          rcases messages_cases e2 with ⟨hb, -⟩ | ⟨m, l, hl, -⟩
          · have := congrArg List.length hb
            rw [List.length_drop] at this; simp at this; omega
          · simp at hl
        rw [cbRun_succ, if_pos (by omega), okb]
        simp only [if_neg h2]
        rw [if_pos (by omega), ih ms2 h4 (fun d hd => hl d (by simp [hd])) (fun m hm => hr m (by simp [hm]))]
        simp [devMsgs]

theorem cbRun_intr (data stale : List UInt8) (hm : (data ++ stale).length < 2 ^ 30) (seq portid : Nat) {h' : Nat} {m : NlMsg} (hat : MsgAt (data ++ stale) h' m)
    (hin : h' + (16 + m.body.length) ≤ data.length) (d2 : m.flags.testBit 4 = true) (d4 : m.seq = seq) (d5 : m.portid = portid) (fuel' : Nat)
    (hf : data.length - h' < fuel') (ret : Int) (e : Nat) (dv : NlDevice) :
    cbRun (data ++ stale) seq portid (some (readDeviceCb (data ++ stale))) fuel' h' (data.length - h') ret (e, dv) = .ok (-1, 4, dv) := by
  have hin' := hat.inside
  have hlen : data.length < 2 ^ 30 := by rw [List.length_append] at hm; omega
  cases fuel' with
  | zero => omega
  | succ fuel' =>
    have hfl : m.flags / 16 % 2 = 1 := by
      rw [Nat.testBit_eq_decide_div_mod_eq] at d2
      simpa using d2
    rw [cbRun_succ, if_neg (by omega), rdNum_ok (by omega), hat.len, okb, toInt32_of (by omega) (by omega), if_neg (by omega), rdNum_ok (by omega), hat.portid, okb, d5,
      if_neg (by simp [idOk]), rdNum_ok (by omega), hat.seq, okb, d4, if_neg (by simp [idOk]), rdNum_ok (by omega), hat.flags, okb,
      if_pos hfl]

theorem recvRun_intr (seq portid : Nat) : ∀ (ds : List (List UInt8 × List UInt8)) (ms : List NlMsg), Interrupted seq portid (ds.map (·.1)) ms →
    (∀ d ∈ ds, (d.1 ++ d.2).length < 2 ^ 30) → (∀ m ∈ ms, ∃ f, readDevDump (m.body.drop 4) = some f) → ∀ (e : Nat) (dv : NlDevice),
    recvRun seq portid (some readDeviceCb) (ds.map fun d => .msg d.1 d.2) (e, dv) = .ok (-1, 4, devMsgs dv ms) := by
  intro ds
  induction ds with
  | nil => intro ms h; cases h
  | cons d ds ih =>
    intro ms h hl hr e dv
    obtain ⟨data, stale⟩ := d
    have hm := hl (data, stale) (by simp)
    simp only at hm
    rw [List.map_cons] at h ⊢
    cases h with
    | last _ _ _ rest m h1 h2 d2 d4 d5 =>
      have hne : data.length ≠ 0 := by
        intro e0
        rw [List.length_eq_zero_iff.1 e0] at h1
        simp [messages, messagesAux] at h1
      obtain ⟨h', fuel', e1, e2, e3, e4⟩ := cbRun_data data stale hm seq portid _ ms (data.length + 1) 0 1 e dv (by rw [List.drop_zero]; exact h1) h2 hr (by omega) (by omega)
      obtain ⟨hat, hin, -⟩ := msgAt_of (stale := stale) e2
      rw [recvRun, if_neg hne, Option.map_some]
      rw [show ((data.length : Int) - ((0 : Nat) : Int)) = data.length from by omega] at e1
      rw [e1, cbRun_intr data stale hm seq portid hat hin d2 d4 d5 _ e3]
      rfl
    | more _ _ ms1 ms2 h1 h2 h3 h4 =>
      have hne : data.length ≠ 0 := by
        intro e0
        rw [List.length_eq_zero_iff.1 e0] at h1
        simp [messages, messagesAux] at h1
        exact h2 h1
      obtain ⟨h', fuel', e1, e2, e3, e4⟩ := cbRun_data data stale hm seq portid [] ms1 (data.length + 1) 0 1 e dv (by rw [List.drop_zero, List.append_nil]; exact h1) h3
        (fun m hm => hr m (by simp [hm])) (by omega) (by omega)
      rw [recvRun, if_neg hne, Option.map_some]
      rw [show ((data.length : Int) - ((0 : Nat) : Int)) = data.length from by omega] at e1
      rw [e1]
      cases fuel' with
      | zero => omega
      | succ fuel' =>
        have hz : data.length ≤ h' := by
          rcases messages_cases e2 with ⟨hb, -⟩ | ⟨m, l, hl, -⟩
          · have := congrArg List.length hb
            rw [List.length_drop] at this; simp at this; omega
          · simp at hl
        rw [cbRun_succ, if_pos (by omega), okb]
        simp only [if_neg h2]
        rw [if_pos (by omega), ih ms2 h4 (fun d hd => hl d (by simp [hd])) (fun m hm => hr m (by simp [hm]))]
        simp [devMsgs]

/-! ### The whole dump -/

theorem devReads_fields {dv dv' : NlDevice} {f : DevDump} (h : DevReads dv dv' f) {n : Option (List UInt8)} (hf : { f with peers := [] } = ({ name := n } : DevDump))
    (hn : n.getD dv.name = dv.name) : ∃ ps, dv' = { dv with peers := dv.peers ++ ps } ∧ List.Forall₂ PeerReads ps f.peers := by
  obtain ⟨ps, h1, h2⟩ := h.peers
  refine ⟨ps, ?_, h2⟩
  have e1 := congrArg DevDump.ifindex hf
  have e2 := congrArg DevDump.name hf
  have e3 := congrArg DevDump.privateKey hf
  have e4 := congrArg DevDump.publicKey hf
  have e5 := congrArg DevDump.listenPort hf
  have e6 := congrArg DevDump.fwmark hf
  simp only at e1 e2 e3 e4 e5 e6
  have q1 := h.ifindex; have q2 := h.name; have q3 := h.priv; have q4 := h.hasPriv; have q5 := h.pub; have q6 := h.hasPub; have q7 := h.port; have q8 := h.mark
  rw [e1] at q1; rw [e2, hn] at q2; rw [e3] at q3 q4; rw [e4] at q5 q6; rw [e5] at q7; rw [e6] at q8
  cases dv; cases dv'
  simp_all

/-- Later messages only add peers. -/
theorem devMsgs_tail (n : Option (List UInt8)) : ∀ (ms : List NlMsg) (fs : List DevDump) (dv : NlDevice), List.Forall₂ (fun m f => readDevDump (m.body.drop 4) = some f) ms fs →
    (∀ f ∈ fs, { f with peers := [] } = ({ name := n } : DevDump)) → n.getD dv.name = dv.name →
    ∃ ps, devMsgs dv ms = { dv with peers := dv.peers ++ ps } ∧ List.Forall₂ PeerReads ps (fs.flatMap (·.peers)) := by
  intro ms fs dv h
  induction h generalizing dv with
  | nil => intro _ _; exact ⟨[], by simp [devMsgs], .nil⟩
  | cons hr hrs ih =>
    rename_i m f ms fs
    intro hf hn
    obtain ⟨l, -, -, h3⟩ := devApply_spec hr
    obtain ⟨ps, e1, e2⟩ := devReads_fields (h3 dv) (hf f (by simp)) hn
    obtain ⟨qs, q1, q2⟩ := ih { dv with peers := dv.peers ++ ps } (fun f hf' => hf f (by simp [hf'])) hn
    refine ⟨ps ++ qs, ?_, ?_⟩
    · have : devMsgs dv (m :: ms) = devMsgs (devApply dv (m.body.drop 4)) ms := rfl
      rw [this, e1, q1]; simp
    · rw [List.flatMap_cons]
      exact List.rel_append e2 q2

theorem vecAt_key (k : Key) : vecAt k.toList = k := vecAt_toList' k

theorem dump_device {whole : DevDump} {fs : List DevDump} {ms : List NlMsg} (hfr : FragmentsOf whole fs)
    (h : List.Forall₂ (fun m f => readDevDump (m.body.drop 4) = some f) ms fs) (nd : (whole.peers.map PeerDump.key).Nodup) :
    ∃ ps, coalesce (devMsgs {} ms).peers = some ps ∧ ({ devMsgs {} ms with peers := ps } : NlDevice).see = whole.device := by
  obtain ⟨f1, f2, f3, f4⟩ := hfr
  cases h with
  | nil => simp at f3
  | cons hr hrs =>
    rename_i m f ms fs
    obtain ⟨l, -, -, h3⟩ := devApply_spec hr
    have hd := h3 {}
    obtain ⟨ps, p1, p2⟩ := hd.peers
    have hf := f1 f rfl
    have e1 := congrArg DevDump.ifindex hf
    have e2 := congrArg DevDump.name hf
    have e3 := congrArg DevDump.privateKey hf
    have e4 := congrArg DevDump.publicKey hf
    have e5 := congrArg DevDump.listenPort hf
    have e6 := congrArg DevDump.fwmark hf
    simp only at e1 e2 e3 e4 e5 e6
    obtain ⟨qs, q1, q2⟩ := devMsgs_tail whole.name ms fs (devApply {} (m.body.drop 4)) hrs f2 (by
      rw [hd.name, e2]; cases whole.name <;> rfl)
    have hms : devMsgs {} (m :: ms) = devMsgs (devApply {} (m.body.drop 4)) ms := rfl
    have hps : (devMsgs {} (m :: ms)).peers = ps ++ qs := by rw [hms, q1, p1]; rfl
    obtain ⟨outs, o1, o2⟩ := coalesce_spec whole.peers _ (ps ++ qs) f4 (by rw [List.flatMap_cons]; exact List.rel_append p2 q2) nd
    refine ⟨outs, by rw [hps]; exact o1, ?_⟩
    rw [hms, q1]
    have zk : (vecAt (List.replicate 32 0) : Key) = zeroKey := by decide +kernel
    have a1 : UInt32.ofNat ((whole.ifindex.map UInt32.toNat).getD 0) = whole.ifindex.getD 0 := by cases whole.ifindex <;> simp
    have a2 : (vecAt ((whole.publicKey.map Vector.toList).getD (List.replicate 32 0)) : Key) = whole.publicKey.getD zeroKey := by
      cases whole.publicKey
      · exact zk
      · exact vecAt_key _
    have a3 : (vecAt ((whole.privateKey.map Vector.toList).getD (List.replicate 32 0)) : Key) = whole.privateKey.getD zeroKey := by
      cases whole.privateKey
      · exact zk
      · exact vecAt_key _
    have a4 : UInt32.ofNat ((whole.fwmark.map UInt32.toNat).getD 0) = whole.fwmark.getD 0 := by cases whole.fwmark <;> simp
    have a5 : UInt16.ofNat ((whole.listenPort.map UInt16.toNat).getD 0) = whole.listenPort.getD 0 := by cases whole.listenPort <;> simp
    simp only [NlDevice.see, DevDump.device, o2, hd.ifindex, hd.name, hd.priv, hd.hasPriv, hd.pub, hd.hasPub, hd.port, hd.mark, e1, e2, e3, e4, e5, e6, a1, a2, a3, a4, a5,
      Bool.false_or]

end WG
