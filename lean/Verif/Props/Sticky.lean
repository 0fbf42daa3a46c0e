import Verif.Proof.Sticky
import Verif.Proof.Show
/-! C102: contrib/sticky-sockets. -/
namespace WG
open Spec.Sticky WG.Sticky

namespace StickyProof

theorem run4_refines {net : List Datagram → Except Nat Nat} {junk : Nat → List UInt8} (ops : List Op) : ∀ {sent : List Msg} {ds : List Datagram} {e : WG.Sticky.Endpoint} {q : Flow}, Rel4 e q →
    readAll read4 sent = some ds → (∀ o ∈ ops, Fits4 o) →
    (runOps (step4 (kernel read4 net)) junk sent e ops).1 = (run v4 net ds q ops).1 ∧
      readAll read4 (runOps (step4 (kernel read4 net)) junk sent e ops).2.1 = some (run v4 net ds q ops).2.1 := by
  induction ops with
  | nil => intro sent ds e q _ hd _; exact ⟨rfl, hd⟩
  | cons o ops ih =>
    intro sent ds e q h hd ho
    obtain ⟨h1, h2, h3⟩ := step4_refines (net := net) (junk := junk ops.length) h hd (ho o (.head _))
    obtain ⟨i1, i2⟩ := ih h3 h2 fun x hx => ho x (.tail _ hx)
    exact ⟨by simp only [runOps, run, h1, i1], i2⟩

theorem run6_refines {net : List Datagram → Except Nat Nat} {junk : Nat → List UInt8} (ops : List Op) : ∀ {sent : List Msg} {ds : List Datagram} {e : WG.Sticky.Endpoint} {q : Flow}, Rel6 e q →
    readAll read6 sent = some ds → (∀ o ∈ ops, Fits6 o) →
    (runOps (step6 (kernel read6 net)) junk sent e ops).1 = (run v6 net ds q ops).1 ∧
      readAll read6 (runOps (step6 (kernel read6 net)) junk sent e ops).2.1 = some (run v6 net ds q ops).2.1 := by
  induction ops with
  | nil => intro sent ds e q _ hd _; exact ⟨rfl, hd⟩
  | cons o ops ih =>
    intro sent ds e q h hd ho
    obtain ⟨h1, h2, h3⟩ := step6_refines (net := net) (junk := junk ops.length) h hd (ho o (.head _))
    obtain ⟨i1, i2⟩ := ih h3 h2 fun x hx => ho x (.tail _ hx)
    exact ⟨by simp only [runOps, run, h1, i1], i2⟩

end StickyProof
open StickyProof

/-- C102, IPv4. For every history of operations on an endpoint, every behaviour of the kernel and whatever is on the stack: the datagrams the kernel is asked to send, and what the operations return,
are those of the specification (`run`): each goes to the peer, from where its last datagram arrived; one whose source is not accepted (EINVAL) is sent once more with the source left to the kernel. -/
theorem c102_sticky4 (net : List Datagram → Except Nat Nat) (junk : Nat → List UInt8) (ops : List Op) (h : ∀ o ∈ ops, Fits4 o) :
    (runOps (step4 (kernel read4 net)) junk [] fresh ops).1 = (run v4 net [] v4.start ops).1 ∧
      readAll read4 (runOps (step4 (kernel read4 net)) junk [] fresh ops).2.1 = some (run v4 net [] v4.start ops).2.1 :=
  run4_refines ops rel4_fresh rfl h

/-- C102, IPv6. -/
theorem c102_sticky6 (net : List Datagram → Except Nat Nat) (junk : Nat → List UInt8) (ops : List Op) (h : ∀ o ∈ ops, Fits6 o) :
    (runOps (step6 (kernel read6 net)) junk [] fresh ops).1 = (run v6 net [] v6.start ops).1 ∧
      readAll read6 (runOps (step6 (kernel read6 net)) junk [] fresh ops).2.1 = some (run v6 net [] v6.start ops).2.1 :=
  run6_refines ops rel6_fresh rfl h

namespace StickyProof

theorem run_append (F : Family) (net : List Datagram → Except Nat Nat) (l l' : List Op) (sent : List Datagram) (q : Flow) :
    (run F net sent q (l ++ l')).2 = (run F net (run F net sent q l).2.1 (run F net sent q l).2.2 l').2 := by
  induction l generalizing sent q with
  | nil => rfl
  | cons o l ih => exact ih _ _

end StickyProof

/-- The datagrams `before` were sent, and then `d`: alone if the kernel took it or refused it for another reason than its source, and otherwise followed by `d'`. -/
def Spec.Sticky.Answered (net : List Datagram → Except Nat Nat) (before after : List Datagram) (d d' : Datagram) : Prop :=
  (net (before ++ [d]) = .error 22 → after = before ++ [d, d']) ∧ (net (before ++ [d]) ≠ .error 22 → after = before ++ [d])

namespace StickyProof
theorem send_answered (F : Family) (net : List Datagram → Except Nat Nat) (sent : List Datagram) (q : Flow) (payload : List UInt8) :
    Answered net sent (step F net sent q (.send payload)).2.1 (F.datagram q payload) (F.datagram (F.forget q) payload) := by
  refine ⟨fun hn => ?_, fun hn => ?_⟩
  · simp only [step]; rw [if_pos (show Stale _ from hn)]; simp
  · simp only [step]; rw [if_neg (show ¬ Stale _ from hn)]
end StickyProof

/-- C102, IPv4. Whatever happened before: what is sent in answer to a datagram goes to who sent it, from the address it was sent to and through the interface it arrived at. -/
theorem c102_reply4 (net : List Datagram → Except Nat Nat) (junk : Nat → List UInt8) (ops : List Op) (p : Packet) (len : Nat) (payload : List UInt8) (h : ∀ o ∈ ops, Fits4 o)
    (hp : Fits4 (.recv (.ok p) len)) :
    ∃ before after, readAll read4 (runOps (step4 (kernel read4 net)) junk [] fresh (ops ++ [.recv (.ok p) len, .send payload])).2.1 = some after ∧
      Answered net before after ⟨p.sender, p.addr, p.iface, payload⟩ ⟨p.sender, any 4, any 4, payload⟩ := by
  refine ⟨(run v4 net [] v4.start ops).2.1, _, (c102_sticky4 net junk _ ?_).2, ?_⟩
  · intro o ho
    rcases List.mem_append.1 ho with ho | ho
    · exact h o ho
    · simp only [List.mem_cons, List.not_mem_nil, or_false] at ho
      rcases ho with rfl | rfl
      · exact hp
      · trivial
  · rw [run_append]
    exact send_answered v4 net _ (v4.from_ p) payload

/-- C102, IPv6: the address of the sender, in the scope of the interface at which the datagram arrived. (No datagram is sent to the address `::`.) -/
theorem c102_reply6 (net : List Datagram → Except Nat Nat) (junk : Nat → List UInt8) (ops : List Op) (p : Packet) (len : Nat) (payload : List UInt8) (h : ∀ o ∈ ops, Fits6 o)
    (hp : Fits6 (.recv (.ok p) len)) (ha : p.addr ≠ any 16) :
    ∃ before after, readAll read6 (runOps (step6 (kernel read6 net)) junk [] fresh (ops ++ [.recv (.ok p) len, .send payload])).2.1 = some after ∧
      Answered net before after ⟨p.sender.take 24 ++ p.iface, p.addr, p.iface, payload⟩ ⟨p.sender.take 24 ++ p.iface, any 16, any 4, payload⟩ := by
  refine ⟨(run v6 net [] v6.start ops).2.1, _, (c102_sticky6 net junk _ ?_).2, ?_⟩
  · intro o ho
    rcases List.mem_append.1 ho with ho | ho
    · exact h o ho
    · simp only [List.mem_cons, List.not_mem_nil, or_false] at ho
      rcases ho with rfl | rfl
      · exact hp
      · trivial
  · rw [run_append]
    have h1 := send_answered v6 net (run v6 net [] v6.start ops).2.1 (v6.from_ p) payload
    rw [show v6.datagram (v6.from_ p) payload = ⟨p.sender.take 24 ++ p.iface, p.addr, p.iface, payload⟩ by simp only [v6, if_neg ha]] at h1
    exact h1

namespace StickyProof

theorem forgotten (F : Family) (n : Nat) (hF : ∀ q payload, (F.datagram q payload).src = q.src) (hf : ∀ q, (F.forget q).src = any n) (hs : ∀ a, (F.at_ a).src = any n)
    (net : List Datagram → Except Nat Nat) (ops : List Op) (hops : ∀ o ∈ ops, ∀ p len, o ≠ .recv (.ok p) len) (sent : List Datagram) (q : Flow) (hq : q.src = any n) :
    ∃ new, (run F net sent q ops).2.1 = sent ++ new ∧ ∀ d ∈ new, d.src = any n := by
  induction ops generalizing sent q with
  | nil => exact ⟨[], by simp [run], by simp⟩
  | cons o ops ih =>
    have ih := ih fun x hx => hops x (.tail _ hx)
    match o with
    | .set a => exact ih sent _ (hs a)
    | .clear => exact ih sent _ (hf q)
    | .recv (.error e) len => exact ih sent q hq
    | .recv (.ok p) len => exact absurd rfl (hops _ (.head _) p len)
    | .send payload =>
      simp only [run, step]
      split
      · obtain ⟨new, h1, h2⟩ := ih (sent ++ [F.datagram q payload] ++ [F.datagram (F.forget q) payload]) (F.forget q) (hf q)
        refine ⟨F.datagram q payload :: F.datagram (F.forget q) payload :: new, by rw [h1]; simp, ?_⟩
        intro d hd
        simp only [List.mem_cons] at hd
        rcases hd with rfl | rfl | hd
        · rw [hF, hq]
        · rw [hF, hf]
        · exact h2 d hd
      · obtain ⟨new, h1, h2⟩ := ih (sent ++ [F.datagram q payload]) q hq
        refine ⟨F.datagram q payload :: new, by rw [h1]; simp, ?_⟩
        intro d hd
        simp only [List.mem_cons] at hd
        rcases hd with rfl | hd
        · rw [hF, hq]
        · exact h2 d hd

theorem readAll_prefix {read : Msg → Option Datagram} {l : List Msg} {a b : List Datagram} (h : readAll read l = some (a ++ b)) :
    ∃ x y, l = x ++ y ∧ readAll read x = some a ∧ readAll read y = some b := by
  induction a generalizing l with
  | nil => exact ⟨[], l, rfl, rfl, h⟩
  | cons d a ih =>
    match l, h with
    | m :: l, h =>
      simp only [readAll] at h
      cases hm : read m with
      | none => simp [hm] at h
      | some x =>
        cases hl : readAll read l with
        | none => simp [hm, hl] at h
        | some xs =>
          simp only [hm, hl, Option.some.injEq, List.cons_append, List.cons.injEq] at h
          obtain ⟨rfl, rfl⟩ := h
          obtain ⟨u, v, rfl, h2, h3⟩ := ih hl
          exact ⟨m :: u, v, rfl, by simp [readAll, hm, h2], h3⟩

end StickyProof

/-- C102. After a new address is set, the source is cleared, or the kernel has refused it, the kernel chooses the source of everything that is sent, until another datagram is received: `first` are
the operations until then, `ops` those after it. -/
theorem c102_forgotten4 (net : List Datagram → Except Nat Nat) (junk : Nat → List UInt8) (first ops : List Op) (h : ∀ o ∈ first ++ ops, Fits4 o)
    (hops : ∀ o ∈ ops, ∀ p len, o ≠ .recv (.ok p) len) (hlast : (run v4 net [] v4.start first).2.2.src = any 4) :
    ∃ old new, readAll read4 (runOps (step4 (kernel read4 net)) junk [] fresh (first ++ ops)).2.1 = some (old ++ new) ∧ old = (run v4 net [] v4.start first).2.1 ∧ ∀ d ∈ new, d.src = any 4 := by
  have h1 := (c102_sticky4 net junk _ h).2
  rw [run_append] at h1
  obtain ⟨new, h2, h3⟩ := forgotten v4 4 (fun _ _ => rfl) (fun _ => rfl) (fun _ => rfl) net ops hops _ _ hlast
  exact ⟨_, new, by rw [h1, h2], rfl, h3⟩

theorem c102_forgotten6 (net : List Datagram → Except Nat Nat) (junk : Nat → List UInt8) (first ops : List Op) (h : ∀ o ∈ first ++ ops, Fits6 o)
    (hops : ∀ o ∈ ops, ∀ p len, o ≠ .recv (.ok p) len) (hlast : (run v6 net [] v6.start first).2.2.src = any 16) :
    ∃ old new, readAll read6 (runOps (step6 (kernel read6 net)) junk [] fresh (first ++ ops)).2.1 = some (old ++ new) ∧ old = (run v6 net [] v6.start first).2.1 ∧ ∀ d ∈ new, d.src = any 16 := by
  have h1 := (c102_sticky6 net junk _ h).2
  rw [run_append] at h1
  obtain ⟨new, h2, h3⟩ := forgotten v6 16 (fun _ _ => rfl) (fun _ => rfl) (fun _ => rfl) net ops hops _ _ hlast
  exact ⟨_, new, by rw [h1, h2], rfl, h3⟩

namespace StickyProof

theorem asked_eq : asked4 = sock4 ∧ asked6 = sock6 := by decide

theorem report_said {iface here peer : List UInt8} (h : iface.length = 4) : report iface here peer = said iface here peer := by
  obtain ⟨a, b, c, d, rfl⟩ := len4 h
  have ha := a.toNat_lt; have hb := b.toNat_lt; have hc := c.toNat_lt; have hd := d.toNat_lt
  have hn : WG.Sticky.num [a, b, c, d] = a.toNat + 256 * b.toNat + 65536 * c.toNat + 16777216 * d.toNat := by simp only [WG.Sticky.num]; omega
  have : fmtInt [a, b, c, d] = ifaceText [a, b, c, d] := by
    unfold fmtInt ifaceText
    rw [hn]
    dsimp only
    generalize hN : a.toNat + 256 * b.toNat + 65536 * c.toNat + 16777216 * d.toNat = n
    by_cases hlt : n < 2147483648
    · rw [if_pos (by omega), if_pos hlt]
      unfold Bsd.showInt
      rw [if_neg (by omega), showDec_eq]
      rfl
    · rw [if_neg (by omega), if_neg hlt]
      unfold Bsd.showInt
      rw [if_pos (by omega), showDec_eq]
      congr 2
      omega
  simp only [report, said, this]

theorem create_ok {h : Host} {l done cs : List Sys} (hc : create h done l = (cs, true)) : cs = done ++ l := by
  induction l generalizing done with
  | nil => cases hc; simp
  | cons c l ih =>
    unfold create at hc
    split at hc
    · rw [ih hc]; simp
    · cases hc

end StickyProof

/-- What the program sends back: the first 1024 bytes of the datagram, in 1024 bytes. -/
def Spec.Sticky.echo (payload : List UInt8) : List UInt8 := payload.take 1024 ++ List.replicate (1024 - payload.length) 0

theorem StickyProof.echo_buffer (payload : List UInt8) : setAt (zeros 1024) 0 (payload.take 1024) = echo payload := by
  simp only [setAt_zero, echo, zeros, List.drop_replicate, List.length_take]
  congr 2
  omega

/-- C102. The program with `-4`, if it exits with 0: it made a socket that tells where datagrams arrive, waited for one, said where it arrived and from whom, and ten seconds later answered: to the
sender, from where it arrived, or, if the kernel does not accept that any more, from where it chooses; and the kernel took the answer. -/
theorem c102_main4 (h : Host) (net : List Datagram → Except Nat Nat) (p : Packet) (len : Nat) (hp : Fits4 (.recv (.ok p) len)) (hr : h.recv = received4 p) (hk : h.kernel = kernel read4 net)
    (h0 : (main h [b!"-4"]).exit = 0) :
    let r := main h [b!"-4"]
    r.calls = asked4 ++ [.recv, .sleep 10, .close] ∧
    r.out = said p.iface (ntop4 (vec 4 p.addr)) (ntop4 (vec 4 ((p.sender.drop 4).take 4))) ∧
    ∃ ds, readAll read4 r.sent = some ds ∧ (∃ n, net ds = .ok n) ∧
      Answered net [] ds ⟨p.sender, p.addr, p.iface, echo p.payload⟩ ⟨p.sender, any 4, any 4, echo p.payload⟩ := by
  obtain ⟨h1, h2, h3, h4, h5⟩ := hp
  have hm : main h [b!"-4"] = main4 h := rfl
  rw [hm] at h0 ⊢
  unfold main4 at h0 ⊢
  cases hc : create h [] sock4 with
  | mk cs b =>
    simp only [hc] at h0 ⊢
    cases b with
    | false => simp at h0
    | true =>
      have hcs := create_ok hc
      have h12 : ∀ x : Flow, x = v4.from_ p → Rel4 ⟨p.sender ++ fresh.name.drop 16, p.addr ++ p.iface ++ fresh.src.drop 8⟩ x := by
        rintro x rfl
        exact { name := ⟨_, rfl⟩, src := ⟨_, rfl⟩, dest := h1, slen := h3, ilen := h4, fam := .inl h2 }
      have hstep := step4_refines (net := net) (junk := []) (sent := []) (ds := []) (h12 _ rfl) rfl (o := .send (echo p.payload)) trivial
      simp only [hr, receive4_packet fresh h.junk 1024 h1 h3 h4 h5, echo_buffer, hk] at h0 ⊢
      simp only [step4] at hstep
      cases hs : send4 (kernel read4 net) [] ⟨p.sender ++ fresh.name.drop 16, p.addr ++ p.iface ++ fresh.src.drop 8⟩ (echo p.payload) with
      | mk res rest =>
        obtain ⟨sent, e⟩ := rest
        simp only [hs] at h0 hstep ⊢
        cases res with
        | error n => simp at h0
        | ok n =>
          obtain ⟨a1, a2, -⟩ := hstep
          refine ⟨by simp [hcs, asked_eq], ?_, _, a2, ?_, ?_⟩
          · have i1 : (p.addr ++ p.iface ++ fresh.src.drop 8).take 4 = p.addr := by rw [List.append_assoc, List.take_left' h3]
            have i2 : ((p.addr ++ p.iface ++ fresh.src.drop 8).drop 4).take 4 = p.iface := by rw [List.append_assoc, List.drop_left' h3, List.take_left' h4]
            have i3 : ((p.sender ++ fresh.name.drop 16).drop 4).take 4 = (p.sender.drop 4).take 4 := by
              rw [List.drop_append_of_le_length (by omega), List.take_append_of_le_length (by simp [h1])]
            simp only [i1, i2, i3, report_said h4]
          · simp only [step] at a1 ⊢
            split at a1
            · rename_i hst; rw [if_pos hst]; exact ⟨n, by simpa using a1.symm⟩
            · rename_i hst; rw [if_neg hst]; exact ⟨n, by simpa using a1.symm⟩
          · exact send_answered v4 net [] (v4.from_ p) (echo p.payload)

/-- C102. The program with `-6`. -/
theorem c102_main6 (h : Host) (net : List Datagram → Except Nat Nat) (p : Packet) (len : Nat) (hp : Fits6 (.recv (.ok p) len)) (ha : p.addr ≠ any 16) (hr : h.recv = received6 p)
    (hk : h.kernel = kernel read6 net) (h0 : (main h [b!"-6"]).exit = 0) :
    let r := main h [b!"-6"]
    r.calls = asked6 ++ [.recv, .sleep 10, .close] ∧
    r.out = said p.iface (ntop6 (vec 16 p.addr)) (ntop6 (vec 16 ((p.sender.drop 8).take 16))) ∧
    ∃ ds, readAll read6 r.sent = some ds ∧ (∃ n, net ds = .ok n) ∧
      Answered net [] ds ⟨p.sender.take 24 ++ p.iface, p.addr, p.iface, echo p.payload⟩ ⟨p.sender.take 24 ++ p.iface, any 16, any 4, echo p.payload⟩ := by
  obtain ⟨h1, h2, h3, h4⟩ := hp
  have hm : main h [b!"-6"] = main6 h := rfl
  have h24 : (p.sender.take 24).length = 24 := by simp [h1]
  rw [hm] at h0 ⊢
  unfold main6 at h0 ⊢
  cases hc : create h [] sock6 with
  | mk cs b =>
    simp only [hc] at h0 ⊢
    cases b with
    | false => simp at h0
    | true =>
      have hcs := create_ok hc
      have h12 : ∀ x : Flow, x = v6.from_ p → Rel6 ⟨p.sender.take 24 ++ p.iface, p.addr⟩ x := by
        rintro x rfl
        refine { name := rfl, src := rfl, iface := ?_, dest := by simp [v6, h1, h4], slen := h3, fam := .inl ?_ }
        · show (if p.addr = any 16 then any 4 else p.iface) = if p.addr = any 16 then any 4 else (p.sender.take 24 ++ p.iface).drop 24
          rw [List.drop_left' h24]
        · show (p.sender.take 24 ++ p.iface).take 2 = [10, 0]
          rw [List.take_append_of_le_length (by omega), List.take_take]
          exact h2
      have hstep := step6_refines (net := net) (junk := []) (sent := []) (ds := []) (h12 _ rfl) rfl (o := .send (echo p.payload)) trivial
      simp only [hr, receive6_packet fresh rfl h.junk 1024 h1 h3 h4, echo_buffer, hk] at h0 ⊢
      simp only [step6] at hstep
      cases hs : send6 (kernel read6 net) [] ⟨p.sender.take 24 ++ p.iface, p.addr⟩ (echo p.payload) with
      | mk res rest =>
        obtain ⟨sent, e⟩ := rest
        simp only [hs] at h0 hstep ⊢
        cases res with
        | error n => simp at h0
        | ok n =>
          obtain ⟨a1, a2, -⟩ := hstep
          refine ⟨by simp [hcs, asked_eq], ?_, _, a2, ?_, ?_⟩
          · have i3 : ((p.sender.take 24 ++ p.iface).drop 8).take 16 = (p.sender.drop 8).take 16 := by
              rw [List.drop_append_of_le_length (by omega), List.take_append_of_le_length (by simp [h1]), List.drop_take, List.take_take, show min 16 (24 - 8) = 16 from rfl]
            simp only [List.drop_left' h24, i3, report_said h4]
          · simp only [step] at a1 ⊢
            split at a1
            · rename_i hst; rw [if_pos hst]; exact ⟨n, by simpa using a1.symm⟩
            · rename_i hst; rw [if_neg hst]; exact ⟨n, by simpa using a1.symm⟩
          · have h5 := send_answered v6 net [] (v6.from_ p) (echo p.payload)
            rw [show v6.datagram (v6.from_ p) (echo p.payload) = ⟨p.sender.take 24 ++ p.iface, p.addr, p.iface, echo p.payload⟩ by simp only [v6, if_neg ha]] at h5
            exact h5

/-- C102. Other arguments: nothing is done. And if the program does not exit with 0 nothing was sent, or the kernel refused what was sent last; every socket that was made is closed if it cannot be set up. -/
theorem c102_failed (h : Host) (args : List CStr) (h1 : (main h args).exit ≠ 0) :
    (main h args).exit = 1 ∧ ((main h args).sent = [] ∨ ∃ n, h.kernel (main h args).sent = .error n) ∧
      (args ≠ [b!"-4"] → args ≠ [b!"-6"] → (main h args).calls = [] ∧ (main h args).out = [] ∧ (main h args).sent = []) := by
  have hsend4 : ∀ k e buf res sent e', send4 k [] e buf = (.error res, sent, e') → ∃ n, k sent = .error n := by
    intro k e buf res sent e' hs
    unfold send4 at hs
    dsimp only at hs
    split at hs
    · rename_i n hn
      split at hs
      · simp only [Prod.mk.injEq] at hs; obtain ⟨hs1, rfl, -⟩ := hs; exact ⟨_, hs1⟩
      · simp only [Prod.mk.injEq] at hs; obtain ⟨-, rfl, -⟩ := hs; exact ⟨_, hn⟩
    · simp at hs
  have hsend6 : ∀ k e buf res sent e', send6 k [] e buf = (.error res, sent, e') → ∃ n, k sent = .error n := by
    intro k e buf res sent e' hs
    unfold send6 at hs
    dsimp only at hs
    generalize (if e.src ≠ zeros 16 then e.name.drop 24 else zeros 4) = i at hs
    split at hs
    · rename_i n hn
      split at hs
      · simp only [Prod.mk.injEq] at hs; obtain ⟨hs1, rfl, -⟩ := hs; exact ⟨_, hs1⟩
      · simp only [Prod.mk.injEq] at hs; obtain ⟨-, rfl, -⟩ := hs; exact ⟨_, hn⟩
    · simp at hs
  have e4 : (main4 h).exit ≠ 0 → (main4 h).exit = 1 ∧ ((main4 h).sent = [] ∨ ∃ n, h.kernel (main4 h).sent = .error n) := by
    unfold main4
    split
    · exact fun _ => ⟨rfl, .inl rfl⟩
    · split
      · exact fun _ => ⟨rfl, .inl rfl⟩
      · dsimp only
        split
        · rename_i hs; exact fun _ => ⟨rfl, .inr (hsend4 _ _ _ _ _ _ hs)⟩
        · exact fun h => absurd rfl h
  have e6 : (main6 h).exit ≠ 0 → (main6 h).exit = 1 ∧ ((main6 h).sent = [] ∨ ∃ n, h.kernel (main6 h).sent = .error n) := by
    unfold main6
    split
    · exact fun _ => ⟨rfl, .inl rfl⟩
    · split
      · exact fun _ => ⟨rfl, .inl rfl⟩
      · dsimp only
        split
        · rename_i hs; exact fun _ => ⟨rfl, .inr (hsend6 _ _ _ _ _ _ hs)⟩
        · exact fun h => absurd rfl h
  by_cases ha : args = [b!"-4"]
  · subst ha
    have hm : main h [b!"-4"] = main4 h := rfl
    rw [hm] at h1 ⊢
    exact ⟨(e4 h1).1, (e4 h1).2, fun h => absurd rfl h⟩
  · by_cases hb : args = [b!"-6"]
    · subst hb
      have hm : main h [b!"-6"] = main6 h := rfl
      rw [hm] at h1 ⊢
      exact ⟨(e6 h1).1, (e6 h1).2, fun _ h => absurd rfl h⟩
    · have hm : main h args = { calls := [], exit := 1 } := by unfold main; rw [if_neg ha, if_neg hb]
      rw [hm]
      exact ⟨rfl, .inl rfl, fun _ _ => ⟨rfl, rfl, rfl⟩⟩

namespace StickyProof

theorem create_closed (h : Host) (cs : List Sys) (l : List Sys) (hl : l = sock4 ∨ l = sock6) (hc : create h [] l = (cs, false)) :
    (∃ f, cs = [.socket f]) ∨ ∃ done c rest, l = done ++ c :: rest ∧ done ≠ [] ∧ cs = done ++ [c, .close] := by
  have key : ∀ (l done : List Sys), done ≠ [] → create h done l = (cs, false) → ∃ x c rest, l = x ++ c :: rest ∧ cs = done ++ x ++ [c, .close] := by
    intro l
    induction l with
    | nil => intro done _ hc; cases hc
    | cons c l ih =>
      intro done hd hc
      unfold create at hc
      split at hc
      · obtain ⟨x, c', rest, rfl, rfl⟩ := ih (done ++ [c]) (by simp) hc
        exact ⟨c :: x, c', rest, rfl, by simp⟩
      · cases hc
        exact ⟨[], c, l, rfl, by simp⟩
  have first : ∀ f l', l = .socket f :: l' → (∃ f, cs = [Sys.socket f]) ∨ ∃ done c rest, l = done ++ c :: rest ∧ done ≠ [] ∧ cs = done ++ [c, .close] := by
    rintro f l' rfl
    unfold create at hc
    split at hc
    · obtain ⟨x, c, rest, rfl, rfl⟩ := key l' [.socket f] (by simp) hc
      exact .inr ⟨.socket f :: x, c, rest, rfl, by simp, by simp⟩
    · simp only [if_true, Prod.mk.injEq, and_true] at hc
      exact .inl ⟨f, hc.symm⟩
  rcases hl with rfl | rfl
  · exact first 2 _ rfl
  · exact first 10 _ rfl

end StickyProof

/-- C102. If the program gives up before it waits for a datagram: the socket was not made, or it is closed after the call that failed. -/
theorem c102_closed (h : Host) (args : List CStr) (hn : Sys.recv ∉ (main h args).calls) :
    (main h args).calls = [] ∨ (∃ f, (main h args).calls = [.socket f]) ∨
      ∃ done c rest, (asked4 = done ++ c :: rest ∨ asked6 = done ++ c :: rest) ∧ done ≠ [] ∧ (main h args).calls = done ++ [c, .close] := by
  have e4 : Sys.recv ∉ (main4 h).calls → create h [] sock4 = ((main4 h).calls, false) := by
    unfold main4
    cases hc : create h [] sock4 with
    | mk cs b =>
      cases b with
      | false => exact fun _ => rfl
      | true =>
        dsimp only
        split
        · exact fun h => absurd (by simp) h
        · split <;> exact fun h => absurd (by simp) h
  have e6 : Sys.recv ∉ (main6 h).calls → create h [] sock6 = ((main6 h).calls, false) := by
    unfold main6
    cases hc : create h [] sock6 with
    | mk cs b =>
      cases b with
      | false => exact fun _ => rfl
      | true =>
        dsimp only
        split
        · exact fun h => absurd (by simp) h
        · split <;> exact fun h => absurd (by simp) h
  unfold main at hn ⊢
  by_cases ha : args = [b!"-4"]
  · rw [if_pos ha] at hn ⊢
    rcases create_closed h _ _ (.inl rfl) (e4 hn) with h1 | ⟨d, c, r, h1, h2, h3⟩
    · exact .inr (.inl h1)
    · exact .inr (.inr ⟨d, c, r, .inl (asked_eq.1 ▸ h1), h2, h3⟩)
  · rw [if_neg ha] at hn ⊢
    by_cases hb : args = [b!"-6"]
    · rw [if_pos hb] at hn ⊢
      rcases create_closed h _ _ (.inr rfl) (e6 hn) with h1 | ⟨d, c, r, h1, h2, h3⟩
      · exact .inr (.inl h1)
      · exact .inr (.inr ⟨d, c, r, .inr (asked_eq.2 ▸ h1), h2, h3⟩)
    · rw [if_neg hb]
      exact .inl rfl

namespace StickyProof

theorem create_all {h : Host} {l done cs : List Sys} (hc : create h done l = (cs, true)) : ∀ x c rest, l = x ++ c :: rest → h.ok (done ++ x) c = true := by
  induction l generalizing done with
  | nil => intro x c rest e; simp at e
  | cons a l ih =>
    intro x c rest e
    unfold create at hc
    split at hc
    · rename_i hok
      cases x with
      | nil =>
        simp only [List.nil_append, List.cons.injEq] at e
        rw [← e.1, List.append_nil]
        exact hok
      | cons y x =>
        simp only [List.cons_append, List.cons.injEq] at e
        have := ih hc x c rest e.2
        rw [← e.1]
        simpa using this
    · cases hc

theorem recv_create (h : Host) : (Sys.recv ∈ (main4 h).calls → ∃ cs, create h [] sock4 = (cs, true)) ∧ (Sys.recv ∈ (main6 h).calls → ∃ cs, create h [] sock6 = (cs, true)) := by
  constructor
  · unfold main4
    cases hc : create h [] sock4 with
    | mk cs b =>
      cases b with
      | true => exact fun _ => ⟨cs, rfl⟩
      | false =>
        intro hm
        rcases create_closed h cs _ (.inl rfl) hc with ⟨f, rfl⟩ | ⟨d, c, r, h1, -, rfl⟩
        · simp at hm
        · have : ∀ x ∈ sock4, x ≠ .recv := by decide
          simp only [List.mem_append, List.mem_cons, List.not_mem_nil, or_false] at hm
          rcases hm with hm | hm | hm
          · exact absurd rfl (this _ (by rw [h1]; simp [hm]))
          · exact absurd hm.symm (this _ (by rw [h1]; simp))
          · cases hm
  · unfold main6
    cases hc : create h [] sock6 with
    | mk cs b =>
      cases b with
      | true => exact fun _ => ⟨cs, rfl⟩
      | false =>
        intro hm
        rcases create_closed h cs _ (.inr rfl) hc with ⟨f, rfl⟩ | ⟨d, c, r, h1, -, rfl⟩
        · simp at hm
        · have : ∀ x ∈ sock6, x ≠ .recv := by decide
          simp only [List.mem_append, List.mem_cons, List.not_mem_nil, or_false] at hm
          rcases hm with hm | hm | hm
          · exact absurd rfl (this _ (by rw [h1]; simp [hm]))
          · exact absurd hm.symm (this _ (by rw [h1]; simp))
          · cases hm

end StickyProof

/-- C102. The program waits for a datagram only at a socket for which every call succeeded. -/
theorem c102_setup (h : Host) (done rest : List Sys) (c : Sys) :
    (Sys.recv ∈ (main h [b!"-4"]).calls → asked4 = done ++ c :: rest → h.ok done c = true) ∧
    (Sys.recv ∈ (main h [b!"-6"]).calls → asked6 = done ++ c :: rest → h.ok done c = true) := by
  constructor
  · intro hm e
    obtain ⟨cs, hc⟩ := (recv_create h).1 (by exact hm)
    exact create_all hc done c rest (asked_eq.1 ▸ e)
  · intro hm e
    obtain ⟨cs, hc⟩ := (recv_create h).2 (by exact hm)
    exact create_all hc done c rest (asked_eq.2 ▸ e)

/-! ### Cases, and what is not so -/

namespace StickyProof

/-- 192.0.2.7 port 1000 -/
def peerA : List UInt8 := [2, 0, 3, 0xe8, 192, 0, 2, 7] ++ any 8
/-- 198.51.100.9 port 1000 -/
def peerB : List UInt8 := [2, 0, 3, 0xe8, 198, 51, 100, 9] ++ any 8
def packetA : Packet := { sender := peerA, addr := [10, 0, 0, 1], iface := [3, 0, 0, 0], header := [10, 0, 0, 1], payload := b!"hi" }
/-- The first datagram is refused (EINVAL), the others are taken. -/
def net1 : List Datagram → Except Nat Nat := fun ds => if ds.length = 1 then .error 22 else .ok 2

def exampleOps : List Op := [.recv (.ok packetA) 10, .send b!"x", .send b!"y"]

/-- The hypotheses of `c102_sticky4` hold of a history in which the source is lost. -/
theorem example4 : (∀ o ∈ exampleOps, Fits4 o) ∧ (run v4 net1 [] v4.start exampleOps).2.1 =
    [⟨peerA, [10, 0, 0, 1], [3, 0, 0, 0], b!"x"⟩, ⟨peerA, any 4, any 4, b!"x"⟩, ⟨peerA, any 4, any 4, b!"y"⟩] := by
  constructor
  · intro o ho
    simp only [exampleOps, List.mem_cons, List.not_mem_nil, or_false] at ho
    rcases ho with rfl | rfl | rfl
    · exact ⟨rfl, rfl, rfl, rfl, rfl⟩
    · trivial
    · trivial
  · decide +kernel

/-- fe80::1, scope 0 (the kernel would say 5) -/
def peer6 : List UInt8 := [10, 0, 3, 0xe8, 0, 0, 0, 0, 0xfe, 0x80] ++ any 13 ++ [1] ++ any 4
def packet6 : Packet := { sender := peer6, addr := [0xfe, 0x80] ++ any 13 ++ [2], iface := [5, 0, 0, 0], payload := b!"hi" }

theorem example6 : Fits6 (.recv (.ok packet6) 10) ∧ packet6.addr ≠ any 16 ∧ (run v6 net1 [] v6.start [.recv (.ok packet6) 10, .send b!"x"]).2.1 =
    [⟨peer6.take 24 ++ [5, 0, 0, 0], packet6.addr, [5, 0, 0, 0], b!"x"⟩, ⟨peer6.take 24 ++ [5, 0, 0, 0], any 16, any 4, b!"x"⟩] := by
  refine ⟨⟨rfl, rfl, rfl, rfl⟩, by decide, by decide +kernel⟩

def host4 : Host := { ok := fun _ _ => true, recv := received4 packetA, junk := [], kernel := kernel read4 net1 }

/-- The hypotheses of `c102_main4` hold. -/
theorem example_main : (main host4 [b!"-4"]).exit = 0 := by decide +kernel

end StickyProof

/-- Where the property ends: an address of another family than IPv4 and IPv6 is not stored, and what is sent then goes to the peer there was before. -/
theorem c102_counterexample_family : (msg4 (set (set fresh peerA) ([1, 0] ++ b!"/run/sock")) (any 4) (any 4) b!"x").name = peerA := by decide +kernel

/-- Where the property ends: on a socket that is not told to give control messages, a datagram changes the address of the peer but not the source, which remains that of the peer before (`10.0.0.1`
on interface 3); or it becomes what happens to be on the stack, since the buffer of the control message is not initialised. -/
theorem c102_counterexample_control :
    (receive4 (.got peerB [] b!"hi") (any 32) (receive4 (received4 packetA) (any 32) fresh 10).2 10).2 = ⟨peerB ++ any 12, [10, 0, 0, 1, 3, 0, 0, 0] ++ any 8⟩ ∧
    (receive4 (.got peerB [] b!"hi") (hdr4 ++ [7, 0, 0, 0] ++ [172, 16, 0, 1] ++ any 8) fresh 10).2 = ⟨peerB ++ any 12, [172, 16, 0, 1, 7, 0, 0, 0] ++ any 8⟩ := by decide +kernel

/-- Where the property ends: the answer to two bytes has 1024. -/
theorem c102_counterexample_length : packetA.payload.length = 2 ∧ (main host4 [b!"-4"]).sent.map (·.payload.length) = [1024, 1024] := by decide +kernel

/-- Where the property ends: on IPv6 the interface remains the scope of the peer's address after the source was cleared; a peer with a link-local address is answered there only. -/
theorem c102_counterexample_scope :
    (run v6 (fun _ => .ok 1) [] v6.start [.recv (.ok packet6) 10, .clear, .send b!"x"]).2.1 = [⟨peer6.take 24 ++ [5, 0, 0, 0], any 16, any 4, b!"x"⟩] := by decide +kernel

end WG
