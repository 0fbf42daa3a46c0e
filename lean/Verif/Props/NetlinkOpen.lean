import Verif.Proof.NetlinkOpen
import Verif.Props.NetlinkGet
import Verif.Props.Netlink
import Verif.Model.Ipc
import Verif.Spec.EndToEnd
/-!
C63: the netlink socket: which family the requests go to, and that everything is released.
-/
namespace WG.Props
open WG.Spec WG

theorem famRequest_eq (seq : UInt32) : famRequest b!"wireguard" seq = familyRequest seq := by
  rfl

theorem linkRequest_eq (seq : UInt32) : linkRequest seq = allLinksRequest seq := by
  rfl

/-- Bytes of a datagram: a multiple of four (as the kernel makes it) below 2^30, with length fields of messages below 2^31. Everything else is arbitrary. -/
def AnyBytes (data : List UInt8) : Prop :=
  4 ∣ data.length ∧ data.length < 2 ^ 30 ∧ ∀ h, HeaderAt data h → h + 16 ≤ data.length → msgLen data h < 2 ^ 31

theorem recvRun_any (max seq portid : Nat) : ∀ (rs : List Recv) (st : Nat × UInt16), (∀ data stale, .msg data stale ∈ rs → AnyBytes data) →
    recvRun seq portid (some (famCb max)) rs st ≠ .ub ∧
    ∀ v, recvRun seq portid (some (famCb max)) rs st = .ok v → v.2.2 = st.2 ∨ v.2.2 = 0 ∨ ∃ data stale, .msg data stale ∈ rs ∧ Tells data seq portid v.2.2 := by
  intro rs
  induction rs with
  | nil => intro st _; simp [recvRun]
  | cons r rs ih =>
    intro st hb
    cases r with
    | err e =>
      refine ⟨by simp [recvRun], ?_⟩
      intro v hv
      simp only [recvRun, Res.ok.injEq] at hv
      subst hv
      exact .inl rfl
    | msg data stale =>
      rw [recvRun]
      by_cases h0 : data.length = 0
      · rw [if_pos h0]
        refine ⟨by simp, ?_⟩
        intro v hv
        cases hv
        exact .inl rfl
      rw [if_neg h0, Option.map_some]
      obtain ⟨h1, h2, h3⟩ := hb data stale (by simp)
      obtain ⟨v, hv, hi⟩ := cbRun_safe_inv (σ := UInt16) (fun id => id = st.2 ∨ id = 0 ∨ Tells data seq portid id) data h2 h1 seq portid (famCb max data)
        (fun h st' hi hh a1 a2 a3 a4 a5 a6 => by
          by_cases hc : st'.2 = 0 ∨ Tells data seq portid st'.2
          · obtain ⟨v, hv, hi'⟩ := famCb_safe max data h2 seq portid h st' hc hh a1 a2 a3 a4 a5 a6
            exact ⟨v, hv, .inr hi'⟩
          · -- the id from before the datagram stays or is replaced
            obtain ⟨v, hv, hi'⟩ := famCb_safe max data h2 seq portid h (st'.1, 0) (.inl rfl) hh a1 a2 a3 a4 a5 a6
            have hst : st'.2 = st.2 := by
              rcases hi with hi | hi
              · exact hi
              · exact absurd hi hc
            rw [famCb] at hv ⊢
            cases hp : parseMsg data h 4 (famAttrCb max data) (st'.1, none) with
            | ok w =>
              obtain ⟨r, e, tb⟩ := w
              rw [hp, okb] at hv
              rw [okb]
              cases tb with
              | none => exact ⟨_, rfl, .inl hst⟩
              | some a => exact ⟨v, hv, .inr hi'⟩
            | fail => rw [hp] at hv; simp at hv
            | exit1 => rw [hp] at hv; simp at hv
            | ub => rw [hp] at hv; simp at hv
            | running => rw [hp] at hv; simp at hv)
        h3 (data.length + 1) 0 1 st (.inl rfl) .first (by omega)
      rw [show ((data.length : Int) - ((0 : Nat) : Int)) = data.length from by omega] at hv
      have hv' := cbRun_mono data stale seq portid (some (famCb max data)) (some (famCb max (data ++ stale)))
        (fun f hf => by cases hf; exact ⟨_, rfl, famCb_mono max data stale⟩) (by simp) _ _ _ _ _ v hv
      obtain ⟨r, e, id⟩ := v
      rw [hv', okb]
      simp only
      by_cases hr : r > 0
      · rw [if_pos hr]
        obtain ⟨i1, i2⟩ := ih (e, id) (fun d s hd => hb d s (by simp [hd]))
        refine ⟨i1, ?_⟩
        intro v hv
        rcases i2 v hv with h | h | ⟨d, s, h, h'⟩
        · rcases hi with hi | hi | hi
          · exact .inl (h.trans hi)
          · exact .inr (.inl (h.trans hi))
          · exact .inr (.inr ⟨data, stale, by simp, by rw [h]; exact hi⟩)
        · exact .inr (.inl h)
        · exact .inr (.inr ⟨d, s, by simp [h], h'⟩)
      · rw [if_neg hr]
        refine ⟨by simp, ?_⟩
        intro v hv
        cases hv
        rcases hi with hi | hi | hi
        · exact .inl hi
        · exact .inr (.inl hi)
        · exact .inr (.inr ⟨data, stale, by simp, hi⟩)

/-- The events of an opening that succeeds. -/
def openEvs (o : OpenEnv) : List NlEv := [.take .nlg, .take .buf, .take .nl, .take .fd, .send (familyRequest o.seq)]

/-- The outcomes of opening. -/
theorem mnlgOpen_cases (o : OpenEnv) : ∀ r evs, mnlgOpen b!"wireguard" o = (r, evs) →
    (∃ e, r = .ok (.error e) ∧ held evs [] = some [] ∧ (sentBytes evs = [] ∨ sentBytes evs = [familyRequest o.seq]) ∧
      (o.sock.socketErr ≠ some 0 → o.sock.bindErr ≠ some 0 → o.sendErr ≠ some 0 → e ≠ 0)) ∨
    evs = openEvs o ∧ (match recvRun o.seq.toNat o.sock.portid (some (famCb o.ctrlMax)) o.recvs (0, 0) with
      | .ok (_, _, id) => r = .ok (.ok id)
      | .ub => r = .ub
      | _ => r = .running) := by
  intro r evs h
  have hz : ∀ e : Nat, (if (if e = 2 then 93 else e) ≠ 0 then (if e = 2 then 93 else e) else 38) ≠ 0 := by
    intro e; repeat' split
    all_goals omega
  simp only [mnlgOpen, mnlOpen, mnlClose, famRequest_eq] at h
  cases h1 : o.mallocNlg with
  | false => simp only [h1, Bool.not_false, if_true, Prod.mk.injEq] at h; obtain ⟨rfl, rfl⟩ := h; exact .inl ⟨12, rfl, rfl, .inl rfl, by simp⟩
  | true =>
    cases h2 : o.mallocBuf with
    | false => simp only [h1, h2, Bool.not_true, Bool.not_false, if_true, Bool.false_eq_true, if_false, Prod.mk.injEq] at h; obtain ⟨rfl, rfl⟩ := h; exact .inl ⟨12, rfl, rfl, .inl rfl, by simp⟩
    | true =>
      cases h3 : o.sock.calloc with
      | false => simp only [h1, h2, h3, Bool.not_true, Bool.not_false, if_true, Bool.false_eq_true, if_false, Prod.mk.injEq] at h; obtain ⟨rfl, rfl⟩ := h; exact .inl ⟨12, rfl, rfl, .inl rfl, by simp⟩
      | true =>
        cases h4 : o.sock.socketErr with
        | some e =>
          simp only [h1, h2, h3, h4, Bool.not_true, Bool.false_eq_true, if_false, Prod.mk.injEq] at h; obtain ⟨rfl, rfl⟩ := h
          exact .inl ⟨e, rfl, rfl, .inl rfl, fun h _ _ he => h (by rw [he])⟩
        | none =>
          cases h5 : o.sock.bindErr with
          | some e =>
            simp only [h1, h2, h3, h4, h5, Bool.not_true, Bool.false_eq_true, if_false, Prod.mk.injEq] at h; obtain ⟨rfl, rfl⟩ := h
            exact .inl ⟨e, rfl, rfl, .inl rfl, fun _ h _ he => h (by rw [he])⟩
          | none =>
            cases h6 : o.sendErr with
            | some e =>
              simp only [h1, h2, h3, h4, h5, h6, Bool.not_true, Bool.false_eq_true, if_false, Prod.mk.injEq] at h; obtain ⟨rfl, rfl⟩ := h
              exact .inl ⟨e, rfl, rfl, .inr rfl, fun _ _ h he => h (by rw [he])⟩
            | none =>
              simp only [h1, h2, h3, h4, h5, h6, Bool.not_true, Bool.false_eq_true, if_false] at h
              cases h7 : recvRun o.seq.toNat o.sock.portid (some (famCb o.ctrlMax)) o.recvs (0, 0) with
              | ok v =>
                obtain ⟨ret, errno, id⟩ := v
                rw [h7] at h
                simp only at h
                by_cases h8 : ret < 0
                · rw [if_pos h8] at h
                  simp only [Prod.mk.injEq] at h; obtain ⟨rfl, rfl⟩ := h
                  exact .inl ⟨_, rfl, rfl, .inr rfl, fun _ _ _ => hz errno⟩
                · rw [if_neg h8] at h
                  simp only [Prod.mk.injEq] at h; obtain ⟨rfl, rfl⟩ := h
                  exact .inr ⟨rfl, rfl⟩
              | ub => rw [h7] at h; simp only [Prod.mk.injEq] at h; obtain ⟨rfl, rfl⟩ := h; exact .inr ⟨rfl, rfl⟩
              | fail => rw [h7] at h; simp only [Prod.mk.injEq] at h; obtain ⟨rfl, rfl⟩ := h; exact .inr ⟨rfl, rfl⟩
              | exit1 => rw [h7] at h; simp only [Prod.mk.injEq] at h; obtain ⟨rfl, rfl⟩ := h; exact .inr ⟨rfl, rfl⟩
              | running => rw [h7] at h; simp only [Prod.mk.injEq] at h; obtain ⟨rfl, rfl⟩ := h; exact .inr ⟨rfl, rfl⟩

/-- C63. Opening sends nothing but the request for the family "wireguard" to the controller. -/
theorem c63_asks_for_the_family (o : OpenEnv) :
    sentBytes (mnlgOpen b!"wireguard" o).2 = [] ∨ sentBytes (mnlgOpen b!"wireguard" o).2 = [familyRequest o.seq] := by
  rcases mnlgOpen_cases o _ _ (Prod.eta _).symm with ⟨e, -, -, h, -⟩ | ⟨h, -⟩
  · exact h
  · right; rw [h]; rfl

/-- C63. If the controller tells the family and acknowledges the request, in one datagram or in two, this family is used. -/
theorem c63_family_found (o : OpenEnv) (h1 : o.mallocNlg = true) (h2 : o.mallocBuf = true) (h3 : o.sock.calloc = true) (h4 : o.sock.socketErr = none) (h5 : o.sock.bindErr = none)
    (h6 : o.sendErr = none) (ds : List (List UInt8 × List UInt8)) (hds : o.recvs = ds.map fun d => .msg d.1 d.2) (hb : ∀ d ∈ ds, (d.1 ++ d.2).length < 2 ^ 30)
    (reply ack : NlMsg) (id : UInt16) (h : ReplyIs (ds.map (·.1)) [reply, ack]) (hr : reply.TellsFamily o.seq.toNat o.sock.portid o.ctrlMax id)
    (ha : ack.IsError o.seq.toNat o.sock.portid 0) : (mnlgOpen b!"wireguard" o).1 = .ok (.ok id) := by
  have := recvRun_family o.ctrlMax o.seq.toNat o.sock.portid ds hb reply ack id h hr ha 0 0
  rw [← hds] at this
  simp [mnlgOpen, mnlOpen, h1, h2, h3, h4, h5, h6, this]

/-- C63. Whatever bytes are received, none outside of them is read; and if opening succeeds, then the family is one of which a message received in answer to the request said that it is
the family id. The exception is 0: an acknowledgement alone suffices for that (see below). -/
theorem c63_family_only_from_the_reply (o : OpenEnv) (hb : ∀ data stale, .msg data stale ∈ o.recvs → AnyBytes data) :
    (mnlgOpen b!"wireguard" o).1 ≠ .ub ∧
    ∀ id, (mnlgOpen b!"wireguard" o).1 = .ok (.ok id) → id = 0 ∨ ∃ data stale, .msg data stale ∈ o.recvs ∧ Tells data o.seq.toNat o.sock.portid id := by
  obtain ⟨a1, a2⟩ := recvRun_any o.ctrlMax o.seq.toNat o.sock.portid o.recvs (0, 0) hb
  rcases mnlgOpen_cases o _ _ (Prod.eta _).symm with ⟨e, h, -⟩ | ⟨-, h⟩
  · rw [h]; simp
  · cases hr : recvRun o.seq.toNat o.sock.portid (some (famCb o.ctrlMax)) o.recvs (0, 0) with
    | ok v =>
      obtain ⟨r, e, id⟩ := v
      rw [hr] at h
      simp only at h
      rw [h]
      refine ⟨by simp, ?_⟩
      intro id' hid
      cases hid
      rcases a2 _ hr with h | h | h
      · exact .inl h
      · exact .inl h
      · exact .inr h
    | ub => exact absurd hr a1
    | fail => rw [hr] at h; simp only at h; rw [h]; simp
    | exit1 => rw [hr] at h; simp only at h; rw [h]; simp
    | running => rw [hr] at h; simp only at h; rw [h]; simp

/-- C63. A refusal is reported; that there is no such family (ENOENT, 2: no WireGuard in the kernel) as EPROTONOSUPPORT (93). -/
theorem c63_refused (o : OpenEnv) (h1 : o.mallocNlg = true) (h2 : o.mallocBuf = true) (h3 : o.sock.calloc = true) (h4 : o.sock.socketErr = none) (h5 : o.sock.bindErr = none)
    (h6 : o.sendErr = none) (data stale : List UInt8) (more : List Recv) (hds : o.recvs = .msg data stale :: more) (hb : (data ++ stale).length < 2 ^ 30)
    (m : NlMsg) (rest : List NlMsg) (hms : messages data = some (m :: rest)) (error : Nat) (he : error ≠ 0) (h : m.IsError o.seq.toNat o.sock.portid error) :
    (mnlgOpen b!"wireguard" o).1 = .ok (.error (if error = 2 then 93 else error)) := by
  have := recvRun_refused (some (famCb o.ctrlMax)) o.seq.toNat o.sock.portid data stale hb more m rest hms error he h (0, 0)
  rw [← hds] at this
  simp only [mnlgOpen, mnlOpen, h1, h2, h3, h4, h5, h6, this, Bool.not_true, Bool.false_eq_true, if_false]
  rw [if_pos (by omega)]
  split
  · rfl
  · simp

theorem held_append (a b : List NlEv) (l : List NlRes) : held (a ++ b) l = (held a l).bind (held b) := by
  induction a generalizing l with
  | nil => rfl
  | cons e a ih =>
    cases e with
    | take r => exact ih _
    | give r =>
      simp only [List.cons_append, held]
      split
      · exact ih _
      · rfl
    | send b' =>
      simp only [List.cons_append, held]
      split
      · exact ih _
      · rfl

theorem held_sends (msgs : List (List UInt8)) (l : List NlRes) (h : .fd ∈ l) : held (msgs.map .send) l = some l := by
  induction msgs with
  | nil => rfl
  | cons m msgs ih => simp only [List.map_cons, held, if_pos h, ih]

theorem sentBytes_append (a b : List NlEv) : sentBytes (a ++ b) = sentBytes a ++ sentBytes b := by simp [sentBytes]

theorem sentBytes_sends (msgs : List (List UInt8)) : sentBytes (msgs.map .send) = msgs := by
  induction msgs with
  | nil => rfl
  | cons m msgs ih => simp [sentBytes]

/-- C63. A set operation: either the family is not found, then nothing was sent but the question for it, and the code is the (negative) errno; or it is, then each
of the messages after the question is a well-formed set request for the interface, to the family found, with version 1. -/
theorem c63_set_requests_go_to_the_family (o : OpenEnv) (size : Nat) (h1 : 272 ≤ size) (h2 : size < 65536) (junk : UInt8 × UInt8) (seq : Nat → UInt32) (send : Nat → Option Nat)
    (hs : ∀ i, send i ≠ some 0) (replies : Nat → List Recv) (d : Device) (hn : d.name.length ≤ 15) (hip : ∀ p ∈ d.peers, ∀ a ∈ p.allowedIPs, a.cidr.toNat ≤ addrBits a.addr) (fuel : Nat) :
    (∀ e, (mnlgOpen b!"wireguard" o).1 = .ok (.error e) → (kernelSetDevice o size junk seq send replies d fuel).1 = .ok (-(e : Int))) ∧
    ((∃ e, (mnlgOpen b!"wireguard" o).1 = .ok (.error e)) ∨ (mnlgOpen b!"wireguard" o).1 = .ub ∨ (mnlgOpen b!"wireguard" o).1 = .running →
      ∀ b ∈ sentBytes (kernelSetDevice o size junk seq send replies d fuel).2, b = familyRequest o.seq) ∧
    ∀ id, (mnlgOpen b!"wireguard" o).1 = .ok (.ok id) → ∃ msgs, sentBytes (kernelSetDevice o size junk seq send replies d fuel).2 = familyRequest o.seq :: msgs ∧
      (∀ m ∈ msgs, ∃ req, readSetMessage id 1 m = some (d.name, req)) ∧
      ((kernelSetDevice o size junk seq send replies d fuel).1, msgs) =
        setLoop { size := size, junk := junk, id := id, version := 1 } o.sock.portid seq send replies d fuel 0 .start := by
  have hall := c63_asks_for_the_family o
  cases hO : mnlgOpen b!"wireguard" o with
  | mk r evs =>
    rw [hO] at hall
    simp only at hall
    have hall' : ∀ b ∈ sentBytes evs, b = familyRequest o.seq := by
      rcases hall with h | h <;> rw [h] <;> simp
    refine ⟨?_, ?_, ?_⟩
    · intro e he
      simp only at he
      subst he
      simp only [kernelSetDevice, hO]
    · intro h
      simp only at h
      rcases h with ⟨e, rfl⟩ | rfl | rfl <;> simpa only [kernelSetDevice, hO] using hall'
    · intro id hid
      simp only at hid
      subst hid
      have hev : evs = openEvs o := by
        rcases mnlgOpen_cases o _ _ hO with ⟨e, h, -⟩ | ⟨h, -⟩
        · simp at h
        · exact h
      subst hev
      cases hL : setLoop { size := size, junk := junk, id := id, version := 1 } o.sock.portid seq send replies d fuel 0 .start with
      | mk r msgs =>
        obtain ⟨reqs, hreq, -⟩ := c29_fragmentation_preserves_meaning { size := size, junk := junk, id := id, version := 1 } h1 h2 o.sock.portid seq send hs replies d hn hip fuel r msgs hL
        have hm : ∀ m ∈ msgs, ∃ req, readSetMessage id 1 m = some (d.name, req) := by
          clear hL
          induction hreq with
          | nil => simp
          | cons h _ ih =>
            intro m hm
            rcases List.mem_cons.1 hm with rfl | hm
            · exact ⟨_, h⟩
            · exact ih m hm
        refine ⟨msgs, ?_, hm, ?_⟩
        · cases r <;> simp only [kernelSetDevice, hO, hL, sentBytes_append, sentBytes_sends] <;> simp [sentBytes, openEvs, mnlgClose, mnlClose]
        · cases r <;> simp only [kernelSetDevice, hO, hL]

/-- C63. However a set operation ends, everything it allocated and opened is released exactly once, and bytes are sent only while the socket is open. While it runs, this holds so far. -/
theorem c63_set_releases (o : OpenEnv) (size : Nat) (junk : UInt8 × UInt8) (seq : Nat → UInt32) (send : Nat → Option Nat) (replies : Nat → List Recv) (d : Device) (fuel : Nat) :
    ((∃ x, (kernelSetDevice o size junk seq send replies d fuel).1 = .ok x) → held (kernelSetDevice o size junk seq send replies d fuel).2 [] = some []) ∧
    held (kernelSetDevice o size junk seq send replies d fuel).2 [] ≠ none := by
  cases hO : mnlgOpen b!"wireguard" o with
  | mk r evs =>
    rcases mnlgOpen_cases o _ _ hO with ⟨e, rfl, h, -⟩ | ⟨rfl, h⟩
    · simp only [kernelSetDevice, hO, h]; simp
    · have ho : held (openEvs o) [] = some [.fd, .nl, .buf, .nlg] := rfl
      cases hR : recvRun o.seq.toNat o.sock.portid (some (famCb o.ctrlMax)) o.recvs (0, 0) with
      | ok v =>
        obtain ⟨_, _, id⟩ := v
        rw [hR] at h
        simp only at h
        subst h
        cases hL : setLoop { size := size, junk := junk, id := id, version := 1 } o.sock.portid seq send replies d fuel 0 .start with
        | mk r msgs =>
          cases r <;> simp only [kernelSetDevice, hO, hL, held_append, ho, Option.bind_some, held_sends msgs [.fd, .nl, .buf, .nlg] (by simp)]
          case ok x => exact ⟨fun _ => rfl, by simp [held, mnlgClose, mnlClose]⟩
          all_goals simp
      | ub => rw [hR] at h; simp only at h; subst h; simp only [kernelSetDevice, hO, ho]; simp
      | fail => rw [hR] at h; simp only at h; subst h; simp only [kernelSetDevice, hO, ho]; simp
      | exit1 => rw [hR] at h; simp only at h; subst h; simp only [kernelSetDevice, hO, ho]; simp
      | running => rw [hR] at h; simp only at h; subst h; simp only [kernelSetDevice, hO, ho]; simp

theorem readGetMessage_enc (id : UInt16) (iface : CStr) (h0 : (0 : UInt8) ∉ iface) (hl : iface.length ≤ 15) (seq : UInt32) :
    readGetMessage id 1 (getRequest id iface seq) = some iface := by
  have hb : (putAttr [] 2 (iface ++ [0])).length ≤ 20 := by
    simp only [putAttr, List.length_append, List.length_replicate, u16b_length, List.length_nil, List.length_cons, align4]; omega
  have hattr : attrs (putAttr [] 2 (iface ++ [0])) = some [(2, iface ++ [0])] := by
    rw [putAttr_eq, List.nil_append, ← encAttrs_one, attrs_enc]
    · rfl
    · intro a ha
      simp only [List.mem_singleton] at ha
      subst ha
      simp only [List.length_append, List.length_singleton]
      omega
  generalize hbody : putAttr [] 2 (iface ++ [0]) = body at *
  have e : getRequest id iface seq = nlHeader { size := 0, junk := (0, 0), id := id, version := 1 } body.length 0x305 seq 0 ++ body := by rw [getRequest, hbody]
  have hlen : (getRequest id iface seq).length = 20 + body.length := by rw [e]; simp [nlHeader]; omega
  have e1 : (getRequest id iface seq).take 4 = u32b (20 + body.length) := by rw [e]; rfl
  have e2 : ((getRequest id iface seq).drop 4).take 2 = u16b id.toNat := by rw [e]; rfl
  have e3 : ((getRequest id iface seq).drop 6).take 2 = u16b 0x305 := by rw [e]; rfl
  have e4 : ((getRequest id iface seq).drop 16).take 2 = [0, 1] := by rw [e]; rfl
  have e5 : (getRequest id iface seq).drop 20 = body := by rw [e]; rfl
  rw [readGetMessage, e1, e2, e3, e4, e5, hlen, le_u32b _ (by omega), le_u16b _ id.toNat_lt, le_u16b _ (by omega), if_pos ⟨by omega, rfl, rfl, rfl, rfl⟩, hattr]
  simp [h0]

/-- C63. A get operation sends, in each of its attempts, the question for the family and then at most one request, for the interface, to the family found in this attempt. -/
theorem c63_get_requests_go_to_the_family (iface : CStr) (h0 : (0 : UInt8) ∉ iface) (env : Nat → GetEnv) : ∀ fuel i,
    ∀ b ∈ sentBytes (kernelGetDevice iface env fuel i).2, ∃ j, b = familyRequest (env j).opening.seq ∨
      ∃ id, (mnlgOpen b!"wireguard" (env j).opening).1 = .ok (.ok id) ∧ readGetMessage id 1 b = some iface := by
  intro fuel
  induction fuel with
  | zero => intro i b hb; simp [kernelGetDevice, sentBytes] at hb
  | succ fuel ih =>
    intro i b hb
    rw [kernelGetDevice] at hb
    by_cases hl : iface.length ≥ 16
    · rw [if_pos hl] at hb; simp [sentBytes] at hb
    rw [if_neg hl] at hb
    cases hc : (env i).calloc with
    | false => simp [hc, sentBytes] at hb
    | true =>
      simp only [hc, Bool.not_true, Bool.false_eq_true, if_false] at hb
      have hall := c63_asks_for_the_family (env i).opening
      cases hO : mnlgOpen b!"wireguard" (env i).opening with
      | mk r evs =>
        rw [hO] at hall hb
        simp only at hall
        have hall' : ∀ b ∈ sentBytes evs, b = familyRequest (env i).opening.seq := by
          rcases hall with h | h <;> rw [h] <;> simp
        have quiet : ∀ pre post : List NlEv, sentBytes pre = [] → sentBytes post = [] → b ∈ sentBytes (pre ++ evs ++ post) → b = familyRequest (env i).opening.seq := by
          intro pre post h1 h2 h
          rw [sentBytes_append, sentBytes_append, h1, h2] at h
          exact hall' b (by simpa using h)
        match r, hO, hb with
        | .ok (.error e), _, hb => exact ⟨i, .inl (quiet _ _ rfl rfl hb)⟩
        | .ub, _, hb => exact ⟨i, .inl (quiet [.take .dev] [] rfl rfl (by rw [List.append_nil]; exact hb))⟩
        | .running, _, hb => exact ⟨i, .inl (quiet [.take .dev] [] rfl rfl (by rw [List.append_nil]; exact hb))⟩
        | .fail, _, hb => exact ⟨i, .inl (quiet [.take .dev] [] rfl rfl (by rw [List.append_nil]; exact hb))⟩
        | .exit1, _, hb => exact ⟨i, .inl (quiet [.take .dev] [] rfl rfl (by rw [List.append_nil]; exact hb))⟩
        | .ok (.ok id), hO, hb =>
          have loud : ∀ post : List NlEv, sentBytes post = [] → b ∈ sentBytes ([.take .dev] ++ evs ++ [.send (getRequest id iface (env i).seq)] ++ post) →
              ∃ j, b = familyRequest (env j).opening.seq ∨ ∃ id, (mnlgOpen b!"wireguard" (env j).opening).1 = .ok (.ok id) ∧ readGetMessage id 1 b = some iface := by
            intro post h2 h
            rw [sentBytes_append, sentBytes_append, sentBytes_append, h2, List.append_nil, List.mem_append, List.mem_append] at h
            rcases h with (h | h) | h
            · simp [sentBytes] at h
            · exact ⟨i, .inl (hall' b h)⟩
            · refine ⟨i, .inr ⟨id, by rw [hO], ?_⟩⟩
              simp only [sentBytes, List.filterMap_cons, List.filterMap_nil, List.mem_singleton] at h
              rw [h]
              exact readGetMessage_enc id iface h0 (by omega) _
          have again : ∀ (e : Nat), b ∈ sentBytes (if e = 4 then ((kernelGetDevice iface env fuel (i + 1)).1,
              [.take .dev] ++ evs ++ [.send (getRequest id iface (env i).seq)] ++ mnlgClose ++ [.give .dev] ++ (kernelGetDevice iface env fuel (i + 1)).2)
              else ((.ok (-(e : Int), none) : Res (Int × Option Device)), [.take .dev] ++ evs ++ [.send (getRequest id iface (env i).seq)] ++ mnlgClose ++ [.give .dev])).2 →
              ∃ j, b = familyRequest (env j).opening.seq ∨ ∃ id, (mnlgOpen b!"wireguard" (env j).opening).1 = .ok (.ok id) ∧ readGetMessage id 1 b = some iface := by
            intro e h
            split at h
            · simp only at h
              rw [sentBytes_append, List.mem_append] at h
              rcases h with h | h
              · exact loud (mnlgClose ++ [.give .dev]) rfl (by rw [← List.append_assoc]; exact h)
              · exact ih (i + 1) b h
            · exact loud (mnlgClose ++ [.give .dev]) rfl (by rw [← List.append_assoc]; exact h)
          simp only at hb
          cases hS : (env i).sendErr with
          | some e => rw [hS] at hb; exact again e hb
          | none =>
            rw [hS] at hb
            simp only at hb
            cases hR : recvRun (env i).seq.toNat (env i).opening.sock.portid (some readDeviceCb) (env i).recvs (0, ({} : NlDevice)) with
            | ok v =>
              obtain ⟨ret, errno, d⟩ := v
              rw [hR] at hb
              simp only at hb
              split at hb
              · exact again _ hb
              · split at hb
                · exact loud [] rfl (by rw [List.append_nil]; exact hb)
                · exact loud mnlgClose rfl hb
            | ub => rw [hR] at hb; exact loud [] rfl (by rw [List.append_nil]; exact hb)
            | fail => rw [hR] at hb; exact loud [] rfl (by rw [List.append_nil]; exact hb)
            | exit1 => rw [hR] at hb; exact loud [] rfl (by rw [List.append_nil]; exact hb)
            | running => rw [hR] at hb; exact loud [] rfl (by rw [List.append_nil]; exact hb)

/-- C63. However a get operation ends, after however many attempts, everything is released exactly once, except the device it returns. While it runs, nothing is released
that is not held. -/
theorem c63_get_releases (iface : CStr) (env : Nat → GetEnv) : ∀ fuel i,
    (∀ code dev, (kernelGetDevice iface env fuel i).1 = .ok (code, dev) → held (kernelGetDevice iface env fuel i).2 [] = some (if dev.isSome then [.dev] else [])) ∧
    held (kernelGetDevice iface env fuel i).2 [] ≠ none := by
  intro fuel
  induction fuel with
  | zero => intro i; simp [kernelGetDevice, held]
  | succ fuel ih =>
    intro i
    rw [kernelGetDevice]
    by_cases hl : iface.length ≥ 16
    · rw [if_pos hl]
      refine ⟨?_, by simp [held]⟩
      intro code dev h
      cases h; rfl
    rw [if_neg hl]
    cases hc : (env i).calloc with
    | false =>
      simp only [Bool.not_false, if_true]
      refine ⟨?_, by simp [held]⟩
      intro code dev h
      cases h; rfl
    | true =>
      simp only [Bool.not_true, Bool.false_eq_true, if_false]
      have shift : ∀ evs : List NlEv, held evs [] = some [] → held evs [.dev] = some [.dev] := by
        intro evs h
        have gen : ∀ (evs : List NlEv) (l l' : List NlRes), held evs l = some l' → held evs (l ++ [.dev]) = some (l' ++ [.dev]) := by
          intro evs
          induction evs with
          | nil => intro l l' h; cases h; rfl
          | cons e evs ih =>
            intro l l' h
            cases e with
            | take r => exact ih _ _ h
            | give r =>
              simp only [held] at h ⊢
              split at h
              · rename_i hr
                rw [if_pos (List.mem_append_left _ hr), List.erase_append_left _ hr]
                exact ih _ _ h
              · simp at h
            | send b =>
              simp only [held] at h ⊢
              split at h
              · rename_i hr
                rw [if_pos (List.mem_append_left _ hr)]
                exact ih _ _ h
              · simp at h
        exact gen evs [] [] h
      cases hO : mnlgOpen b!"wireguard" (env i).opening with
      | mk r evs =>
        rcases mnlgOpen_cases _ _ _ hO with ⟨e, rfl, h, -⟩ | ⟨rfl, h⟩
        · simp only
          have : held ([.take .dev] ++ evs ++ [.give .dev]) [] = some [] := by
            rw [held_append, held_append]
            simp only [held, Option.bind_some, shift evs h]
            simp
          refine ⟨?_, by rw [this]; simp⟩
          intro code dev h
          cases h
          exact this
        · have ho : held ([.take .dev] ++ openEvs (env i).opening) [] = some [.fd, .nl, .buf, .nlg, .dev] := rfl
          have hnot : ∀ r' : Res (Int × Option Device), (∀ v, r' ≠ .ok v) → (∀ code dev, r' = Res.ok (code, dev) → held ([.take .dev] ++ openEvs (env i).opening) [] = some (if Option.isSome (α := Device) dev then [.dev] else [])) ∧
              held ([.take .dev] ++ openEvs (env i).opening) [] ≠ none := by
            intro r' hr'
            refine ⟨?_, by rw [ho]; simp⟩
            intro code dev h
            exact absurd h (hr' _)
          cases hR : recvRun (env i).opening.seq.toNat (env i).opening.sock.portid (some (famCb (env i).opening.ctrlMax)) (env i).opening.recvs (0, 0) with
          | ub => rw [hR] at h; simp only at h; subst h; exact hnot .ub (by simp)
          | fail => rw [hR] at h; simp only at h; subst h; exact hnot .running (by simp)
          | exit1 => rw [hR] at h; simp only at h; subst h; exact hnot .running (by simp)
          | running => rw [hR] at h; simp only at h; subst h; exact hnot .running (by simp)
          | ok v =>
            obtain ⟨_, _, id⟩ := v
            rw [hR] at h
            simp only at h
            subst h
            simp only
            have hs : held ([.take .dev] ++ openEvs (env i).opening ++ [.send (getRequest id iface (env i).seq)]) [] = some [.fd, .nl, .buf, .nlg, .dev] := by
              rw [held_append, ho]; rfl
            have hcl : held ([.take .dev] ++ openEvs (env i).opening ++ [.send (getRequest id iface (env i).seq)] ++ mnlgClose) [] = some [.dev] := by
              rw [held_append, hs]; rfl
            have hcl' : held ([.take .dev] ++ openEvs (env i).opening ++ [.send (getRequest id iface (env i).seq)] ++ mnlgClose ++ [.give .dev]) [] = some [] := by
              rw [held_append, hcl]; rfl
            generalize [NlEv.take .dev] ++ openEvs (env i).opening ++ [.send (getRequest id iface (env i).seq)] = pre at hs hcl hcl' ⊢
            have again : ∀ (e : Nat), let r := (if e = 4 then ((kernelGetDevice iface env fuel (i + 1)).1, pre ++ mnlgClose ++ [.give .dev] ++ (kernelGetDevice iface env fuel (i + 1)).2)
                else ((.ok (-(e : Int), none) : Res (Int × Option Device)), pre ++ mnlgClose ++ [.give .dev]));
                (∀ code dev, r.1 = .ok (code, dev) → held r.2 [] = some (if dev.isSome then [.dev] else [])) ∧ held r.2 [] ≠ none := by
              intro e
              simp only
              split
              · simp only
                rw [held_append, hcl', Option.bind_some]
                exact ih (i + 1)
              · refine ⟨?_, by rw [hcl']; simp⟩
                intro code dev h
                cases h
                exact hcl'
            cases hS : (env i).sendErr with
            | some e => exact again e
            | none =>
              simp only
              have hnot : ∀ r' : Res (Int × Option Device), (∀ v, r' ≠ .ok v) → (∀ code dev, r' = Res.ok (code, dev) → held pre [] = some (if Option.isSome (α := Device) dev then [.dev] else [])) ∧ held pre [] ≠ none := by
                intro r' hr'
                refine ⟨?_, by rw [hs]; simp⟩
                intro code dev h
                exact absurd h (hr' _)
              cases hR : recvRun (env i).seq.toNat (env i).opening.sock.portid (some readDeviceCb) (env i).recvs (0, ({} : NlDevice)) with
              | ok v =>
                obtain ⟨ret, errno, d⟩ := v
                simp only
                split
                · exact again _
                · split
                  · exact hnot .ub (by simp)
                  · refine ⟨?_, by rw [hcl]; simp⟩
                    intro code dev h
                    cases h
                    rw [hcl]; rfl
              | ub => exact hnot .ub (by simp)
              | fail => exact hnot .fail (by simp)
              | exit1 => exact hnot .exit1 (by simp)
              | running => exact hnot .running (by simp)

/-- The attempt that `kernelGet` (C31, C32) is about, once the opening has ended. -/
def _root_.WG.GetEnv.attempt (g : GetEnv) : Attempt where
  openErr := if g.calloc then (match (mnlgOpen b!"wireguard" g.opening).1 with | .ok (.error e) => some e | _ => none) else some 12
  sendErr := g.sendErr
  seq := g.seq.toNat
  portid := g.opening.sock.portid
  recvs := g.recvs

/-- C63. What C31 and C32 say about reading an interface holds for the whole operation, including opening. -/
theorem c63_get_is_the_dump (iface : CStr) (env : Nat → GetEnv) (ho : ∀ i, ∃ r, (mnlgOpen b!"wireguard" (env i).opening).1 = .ok r) : ∀ fuel i,
    (kernelGetDevice iface env fuel i).1 = kernelGet iface (fun i => (env i).attempt) fuel i := by
  intro fuel
  induction fuel with
  | zero => intro i; rfl
  | succ fuel ih =>
    intro i
    rw [kernelGetDevice, kernelGet]
    by_cases hl : iface.length ≥ 16
    · rw [if_pos hl, if_pos hl]
    rw [if_neg hl, if_neg hl]
    cases hc : (env i).calloc with
    | false => simp [GetEnv.attempt, hc]
    | true =>
      obtain ⟨r, hr⟩ := ho i
      cases hO : mnlgOpen b!"wireguard" (env i).opening with
      | mk r' evs =>
        rw [hO] at hr
        simp only at hr
        subst hr
        cases r with
        | error e => simp [GetEnv.attempt, hc, hO]
        | ok id =>
          simp only [GetEnv.attempt, hc, hO, Bool.not_true, Bool.false_eq_true, if_false, if_true]
          have again : ∀ (e : Nat) (x y : List NlEv), (if e = 4 then ((kernelGetDevice iface env fuel (i + 1)).1, x)
              else ((.ok (-(e : Int), none) : Res (Int × Option Device)), y)).1 = (if e = 4 then kernelGet iface (fun i => (env i).attempt) fuel (i + 1) else .ok (-(e : Int), none)) := by
            intro e x y
            split
            · exact ih (i + 1)
            · rfl
          cases hS : (env i).sendErr with
          | some e => exact again e _ _
          | none =>
            simp only
            cases hR : recvRun (env i).seq.toNat (env i).opening.sock.portid (some readDeviceCb) (env i).recvs (0, ({} : NlDevice)) with
            | ok v =>
              obtain ⟨ret, errno, d⟩ := v
              rw [okb]
              simp only
              split
              · exact again _ _ _
              · split <;> simp [*]
            | ub => rfl
            | fail => rfl
            | exit1 => rfl
            | running => rfl

/-- C63. Listing the interfaces: only the request for all links is sent, everything is released however it ends, and the result is that of C53 and C44. -/
theorem c63_links (heap : Heap) (o : LinkOpen) (l : StrList) :
    (∀ b ∈ sentBytes (kernelLinks heap o l).2, b = allLinksRequest o.seq) ∧
    ((∃ v, (kernelLinks heap o l).1 = .ok v) → held (kernelLinks heap o l).2 [] = some []) ∧ held (kernelLinks heap o l).2 [] ≠ none ∧
    ((∀ r, linkRun heap o.seq.toNat o.sock.portid o.recvs (0, l) = r → r ≠ .fail ∧ r ≠ .exit1) →
      (kernelLinks heap o l).1 = kernelList heap
        { err := if !o.calloc || !o.sock.calloc then some 12 else (o.sock.socketErr.or o.sock.bindErr).or o.sendErr
          seq := o.seq.toNat, portid := o.sock.portid, recvs := o.recvs } l) := by
  simp only [kernelLinks, mnlOpen, mnlClose, linkRequest_eq, kernelList]
  cases h1 : o.calloc with
  | false => simp [sentBytes, held]
  | true =>
    cases h2 : o.sock.calloc with
    | false => simp [sentBytes, held]
    | true =>
      cases h3 : o.sock.socketErr with
      | some e => simp [sentBytes, held]
      | none =>
        cases h4 : o.sock.bindErr with
        | some e => simp [sentBytes, held]
        | none =>
          cases h5 : o.sendErr with
          | some e => simp [sentBytes, held]
          | none =>
            simp only [Bool.not_true, Bool.false_eq_true, if_false]
            cases h6 : linkRun heap o.seq.toNat o.sock.portid o.recvs (0, l) with
            | ok v => simp [sentBytes, held]
            | ub => simp [sentBytes, held]
            | fail => simp [sentBytes, held]
            | exit1 => simp [sentBytes, held]
            | running => simp [sentBytes, held]

/-- The system of C62 opens its netlink socket as in `o`. -/
def _root_.WG.System.Opens (sys : System) (o : OpenEnv) : Prop :=
  sys.portid = o.sock.portid ∧
  match (mnlgOpen b!"wireguard" o).1 with
  | .ok (.error e) => sys.nlOpen = some e
  | .ok (.ok id) => sys.nlOpen = none ∧ sys.nl.id = id ∧ sys.nl.version = 1
  | _ => False

/-- C63. What C62 says about set operations in the kernel holds for the whole operation, including opening: same code, and the same messages after the question for the family. -/
theorem c63_set_is_the_operation (sys : System) (o : OpenEnv) (h : sys.Opens o) (tr tr' : List SockEv) (d d' : Device) (hk : ipcSetDevice sys.sock d tr = (.kernel d', tr')) :
    (kernelSetDevice o sys.nl.size sys.nl.junk sys.seq sys.send sys.replies d' sys.fuel).1 = (ipcSet sys tr d).1 ∧
    ∀ msgs, (ipcSet sys tr d).2.1 = .kernel msgs →
      sentBytes (kernelSetDevice o sys.nl.size sys.nl.junk sys.seq sys.send sys.replies d' sys.fuel).2 = familyRequest o.seq :: msgs := by
  obtain ⟨h1, h2⟩ := h
  rw [ipcSet, hk]
  simp only
  cases hO : mnlgOpen b!"wireguard" o with
  | mk r evs =>
    rw [hO] at h2
    simp only at h2
    match r, hO, h2 with
    | .ok (.error e), hO, h2 =>
      simp only [kernelSetDevice, hO, h2]
      simp
    | .ok (.ok id), hO, ⟨h2, h3, h4⟩ =>
      have hev : evs = openEvs o := by
        rcases mnlgOpen_cases o _ _ hO with ⟨e, h, -⟩ | ⟨h, -⟩
        · simp at h
        · exact h
      subst hev
      have hc : sys.nl = { size := sys.nl.size, junk := sys.nl.junk, id := id, version := 1 } := by
        rw [← h3, ← h4]
      rw [h2]
      simp only
      rw [hc, h1]
      simp only
      cases hL : setLoop { size := sys.nl.size, junk := sys.nl.junk, id := id, version := 1 } o.sock.portid sys.seq sys.send sys.replies d' sys.fuel 0 .start with
      | mk r msgs =>
        refine ⟨by cases r <;> simp only [kernelSetDevice, hO, hL], ?_⟩
        intro msgs' hm
        cases hm
        cases r <;> simp only [kernelSetDevice, hO, hL, sentBytes_append, sentBytes_sends] <;> simp [sentBytes, openEvs, mnlgClose, mnlClose]

/-- C63, what is missing: an acknowledgement suffices; if the controller acknowledges without having told the family, opening succeeds with family 0, and everything
after that (with `c63_set_requests_go_to_the_family`) is sent to family 0, to which no request belongs. -/
theorem c63_counterexample_acknowledgement_alone (o : OpenEnv) (h1 : o.mallocNlg = true) (h2 : o.mallocBuf = true) (h3 : o.sock.calloc = true) (h4 : o.sock.socketErr = none)
    (h5 : o.sock.bindErr = none) (h6 : o.sendErr = none) (data stale : List UInt8) (more : List Recv) (hds : o.recvs = .msg data stale :: more) (hb : (data ++ stale).length < 2 ^ 30)
    (m : NlMsg) (rest : List NlMsg) (hms : messages data = some (m :: rest)) (h : m.IsError o.seq.toNat o.sock.portid 0) :
    (mnlgOpen b!"wireguard" o).1 = .ok (.ok 0) := by
  have := cbRun_error data stale hb o.seq.toNat o.sock.portid (some (famCb o.ctrlMax (data ++ stale))) (h := 0) (fuel := data.length + 1) (by rw [List.drop_zero]; exact hms) 0 h (by omega) 1 (0, 0)
  rw [show ((data.length : Int) - ((0 : Nat) : Int)) = data.length from by omega] at this
  have hr : recvRun o.seq.toNat o.sock.portid (some (famCb o.ctrlMax)) o.recvs (0, 0) = .ok (0, 0, 0) := by
    rw [hds, recvRun, if_neg (data_ne hms), Option.map_some, this]
    rfl
  simp [mnlgOpen, mnlOpen, h1, h2, h3, h4, h5, h6, hr]

/-! ### A conversation with the kernel -/

/-- What the controller answers: name, id 30, version, header size, number of attributes, and (as newer kernels do) an attribute of type 11 that the program does not know. -/
def ctrlReply : List UInt8 := dumpMsg 16 0 ([1, 2, 0, 0] ++ encAttrs [(2, b!"wireguard" ++ [0]), (1, u16b 30), (3, u32b 1), (4, u32b 0), (5, u32b 8), (11, u32b 7), (1, u16b 99)])

/-- Opening with this answer. -/
def goodOpen : OpenEnv := { sock := { portid := 77 }, seq := 5, recvs := [.msg ctrlReply [1, 2, 3], .msg (ackMessage 5 77 (Vector.replicate 16 0)) []] }

instance (m : NlMsg) (seq portid error : Nat) : Decidable (m.IsError seq portid error) := by unfold NlMsg.IsError; infer_instance

example : (mnlgOpen b!"wireguard" goodOpen).1 = .ok (.ok 30) := by
  refine c63_family_found goodOpen rfl rfl rfl rfl rfl rfl [(ctrlReply, [1, 2, 3]), (ackMessage 5 77 (Vector.replicate 16 0), [])] rfl (by decide +kernel)
    ⟨16, 0, 5, 77, [1, 2, 0, 0] ++ encAttrs [(2, b!"wireguard" ++ [0]), (1, u16b 30), (3, u32b 1), (4, u32b 0), (5, u32b 8), (11, u32b 7), (1, u16b 99)]⟩
    ⟨2, 0, 5, 77, List.replicate 20 0⟩ 30 ?_ ⟨by decide +kernel, [(2, b!"wireguard" ++ [0]), (1, u16b 30), (3, u32b 1), (4, u32b 0), (5, u32b 8), (11, u32b 7), (1, u16b 99)],
      by decide +kernel, by decide +kernel⟩ (by decide +kernel)
  exact .split _ _ [_] [_] (by simp) (by decide +kernel) (.here _ _ [_] [] (by simp) (by decide +kernel))

/-- A set operation in this conversation: the question, then the messages, and everything released. -/
example : (kernelSetDevice goodOpen 272 (0, 0) (fun _ => 5) (fun _ => none) ackAll splitDevice 20).1 = .ok 0 ∧
    (sentBytes (kernelSetDevice goodOpen 272 (0, 0) (fun _ => 5) (fun _ => none) ackAll splitDevice 20).2).length = 3 ∧
    held (kernelSetDevice goodOpen 272 (0, 0) (fun _ => 5) (fun _ => none) ackAll splitDevice 20).2 [] = some [] := by
  decide +kernel

/-- A get operation that is interrupted once, by a signal when sending. -/
def goodGets : Nat → GetEnv
  | 0 => { opening := goodOpen, seq := 5, sendErr := some 4 }
  | _ => { opening := goodOpen, seq := 5, recvs := (dumpEnv 0).recvs }

example : (kernelGetDevice b!"wg0" goodGets 3 0).1 = .ok (0, some dumpDevice.device) ∧
    (sentBytes (kernelGetDevice b!"wg0" goodGets 3 0).2).map (readGetMessage 30 1) = [none, some b!"wg0", none, some b!"wg0"] ∧
    held (kernelGetDevice b!"wg0" goodGets 3 0).2 [] = some [.dev] := by
  decide +kernel

/-- Opening without the module. -/
def noModule : OpenEnv := { sock := { portid := 77 }, seq := 5, recvs := [.msg (dumpMsg 2 0 ([254, 255, 255, 255] ++ List.replicate 16 0)) []] }

example : (mnlgOpen b!"wireguard" noModule).1 = .ok (.error 93) :=
  c63_refused noModule rfl rfl rfl rfl rfl rfl _ [] [] rfl (by decide +kernel) ⟨2, 0, 5, 77, [254, 255, 255, 255] ++ List.replicate 16 0⟩ [] (by decide +kernel) 2 (by decide)
    (by decide +kernel)

/-- Opening with an acknowledgement only. -/
def ackOnly : OpenEnv := { sock := { portid := 77 }, seq := 5, recvs := [.msg (ackMessage 5 77 (Vector.replicate 16 0)) []] }

example : (mnlgOpen b!"wireguard" ackOnly).1 = .ok (.ok 0) :=
  c63_counterexample_acknowledgement_alone ackOnly rfl rfl rfl rfl rfl rfl _ [] [] rfl (by decide +kernel) ⟨2, 0, 5, 77, List.replicate 20 0⟩ [] (by decide +kernel) (by decide +kernel)

/-- Then a set operation has sent its settings to family 0, and reports success. -/
example : (kernelSetDevice ackOnly 272 (0, 0) (fun _ => 5) (fun _ => none) ackAll splitDevice 20).1 = .ok 0 ∧
    ((sentBytes (kernelSetDevice ackOnly 272 (0, 0) (fun _ => 5) (fun _ => none) ackAll splitDevice 20).2).drop 1).all (fun m => (readSetMessage 0 1 m).isSome) = true := by
  decide +kernel

/-- A newer kernel that told an unknown attribute before the id would not be understood. -/
example : (mnlgOpen b!"wireguard" { goodOpen with recvs := [.msg (dumpMsg 16 0 ([1, 2, 0, 0] ++ encAttrs [(11, u32b 7), (1, u16b 30)])) []] }).1 = .ok (.error 95) := by
  decide +kernel

/-- Opening fails in each of its steps: everything is released. -/
example : ∀ o ∈ [{ goodOpen with mallocNlg := false }, { goodOpen with mallocBuf := false }, { goodOpen with sock := { calloc := false } },
    { goodOpen with sock := { socketErr := some 97 } }, { goodOpen with sock := { bindErr := some 22 } }, { goodOpen with sendErr := some 1 }, noModule],
    ((mnlgOpen b!"wireguard" o).1 ≠ .ok (.ok 30)) ∧ held (mnlgOpen b!"wireguard" o).2 [] = some [] := by
  decide +kernel

end WG.Props
