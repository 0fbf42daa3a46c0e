import Verif.Proof.NetlinkMsg
/-!
C29–C32: netlink messages.
-/
namespace WG
open Spec

theorem leNat_word (x : UInt32) : leNat (ackMessage.word x) = x.toNat := by
  have := x.toNat_lt
  simp only [ackMessage.word, leNat, UInt8.toNat_ofNat']
  omega

theorem rdNum_of {mem : List UInt8} {i n : Nat} {bs : List UInt8} (h1 : i + n ≤ mem.length) (h2 : (mem.drop i).take n = bs) :
    rdNum mem i n = .ok (leNat bs) := by
  rw [rdNum, rdBytes, if_pos h1, h2]

/-- An acknowledgement is accepted. -/
theorem ack_accepted (seq portid : UInt32) (echo : Vector UInt8 16) (stale : List UInt8) :
    recvRun (σ := Unit) seq.toNat portid.toNat none [.msg (ackMessage seq portid echo) stale] (0, ()) = .ok (0, 0, ()) := by
  have hl : (ackMessage seq portid echo).length = 36 := by simp [ackMessage, ackMessage.word]
  have hm : (ackMessage seq portid echo ++ stale).length = 36 + stale.length := by rw [List.length_append, hl]
  generalize hM : ackMessage seq portid echo ++ stale = mem at hm
  have e : mem = [36, 0, 0, 0, 2, 0, 0, 0] ++ (ackMessage.word seq ++ (ackMessage.word portid ++ ([0, 0, 0, 0] ++ (echo.toList ++ stale)))) := by
    rw [← hM]; simp [ackMessage]
  have r0 : rdNum mem 0 4 = .ok 36 := rdNum_of (by omega) (bs := [36, 0, 0, 0]) (by rw [e]; rfl)
  have r4 : rdNum mem (0 + 4) 2 = .ok 2 := rdNum_of (by omega) (bs := [2, 0]) (by rw [e]; rfl)
  have r6 : rdNum mem (0 + 6) 2 = .ok 0 := rdNum_of (by omega) (bs := [0, 0]) (by rw [e]; rfl)
  have r8 : rdNum mem (0 + 8) 4 = .ok seq.toNat := by
    rw [rdNum_of (by omega) (bs := ackMessage.word seq) (by rw [e]; rfl), leNat_word]
  have r12 : rdNum mem (0 + 12) 4 = .ok portid.toNat := by
    rw [rdNum_of (by omega) (bs := ackMessage.word portid) (by rw [e]; rfl), leNat_word]
  have r16 : rdNum mem (0 + 16) 4 = .ok 0 := rdNum_of (by omega) (bs := [0, 0, 0, 0]) (by rw [e]; rfl)
  rw [recvRun, hM, if_neg (by omega), hl, cbRun, cbRunWith]
  simp only [r0, r4, r6, r8, r12, Res.bind, Option.map_none]
  simp [idOk, toInt32, ctlCb, r16, Res.bind]

/-- C29. However a configuration is split into messages: each message sent is a well-formed request for the named interface; if the
operation succeeds, the interface ends up exactly as if the whole configuration had been applied at once; and whenever it stops
before (error of the socket, refusal by the kernel, or no answer), what was sent is a beginning: some requests complete it.
The buffer has room for the largest entry (272 bytes); the real ones have 4096 or 8192. -/
theorem c29_fragmentation_preserves_meaning (c : NlCtx) (h1 : 272 ≤ c.size) (h2 : c.size < 65536) (portid : Nat) (seq : Nat → UInt32)
    (send : Nat → Option Nat) (hs : ∀ i, send i ≠ some 0) (replies : Nat → List Recv) (d : Device) (hn : d.name.length ≤ 15)
    (hip : ∀ p ∈ d.peers, ∀ a ∈ p.allowedIPs, a.cidr.toNat ≤ addrBits a.addr) (fuel : Nat) (code : Res Int) (msgs : List (List UInt8))
    (hrun : setLoop c portid seq send replies d fuel 0 .start = (code, msgs)) :
    ∃ reqs, List.Forall₂ (fun m r => readSetMessage c.id c.version m = some (d.name, r)) msgs reqs ∧
      (code = .ok 0 → ∀ s, reqs.foldl applyReq s = applyReq s (requestOf d)) ∧
      ∃ rest : List SetReq, ∀ s, rest.foldl applyReq (reqs.foldl applyReq s) = applyReq s (requestOf d) := by
  obtain ⟨reqs, i1, -, -, -, i5, rest, i6, -⟩ := setLoop_spec c portid seq send replies d h1 h2 ⟨hn, hip⟩ hs fuel 0 .start trivial
  rw [hrun] at i1 i5
  exact ⟨reqs, i1, fun h => (i5 h).1, rest, fun s => by rw [← List.foldl_append]; exact i6 s⟩

/-- C30. Every message fits the buffer and is a well-formed request (all lengths true). The device settings are in the first message
only. On success the peers sent, in order, are the configured peers, the settings of each sent exactly once and each allowed IP sent
exactly once; otherwise they are a beginning of that. -/
theorem c30_messages_fit_and_send_everything_once (c : NlCtx) (h1 : 272 ≤ c.size) (h2 : c.size < 65536) (portid : Nat) (seq : Nat → UInt32)
    (send : Nat → Option Nat) (hs : ∀ i, send i ≠ some 0) (replies : Nat → List Recv) (d : Device) (hn : d.name.length ≤ 15)
    (hip : ∀ p ∈ d.peers, ∀ a ∈ p.allowedIPs, a.cidr.toNat ≤ addrBits a.addr) (fuel : Nat) (code : Res Int) (msgs : List (List UInt8))
    (hrun : setLoop c portid seq send replies d fuel 0 .start = (code, msgs)) :
    (∀ m ∈ msgs, m.length ≤ c.size) ∧
    ∃ reqs, List.Forall₂ (fun m r => readSetMessage c.id c.version m = some (d.name, r)) msgs reqs ∧
      (∀ r ∈ reqs.head?, { r with peers := [] } = { requestOf d with peers := [] }) ∧
      (∀ r ∈ reqs.tail, { r with peers := [] } = ({} : SetReq)) ∧
      (code = .ok 0 → Splits (requestOf d).peers (reqs.flatMap (·.peers))) ∧
      ∃ rest, Splits (requestOf d).peers (reqs.flatMap (·.peers) ++ rest) := by
  obtain ⟨reqs, i1, i2, i3, i4, i5, rest, -, i7⟩ := setLoop_spec c portid seq send replies d h1 h2 ⟨hn, hip⟩ hs fuel 0 .start trivial
  rw [hrun] at i1 i2 i5
  exact ⟨i2, reqs, i1, i3, i4, fun h => (i5 h).2, rest.flatMap (·.peers), by rw [← List.flatMap_append]; exact i7⟩

/-- C30. Sending ends: if the kernel answers each message (one way or the other), the operation ends after at most
1 + Σ (2 + number of allowed IPs) messages; with code 0 if every message is acknowledged. -/
theorem c30_sending_ends (c : NlCtx) (h1 : 272 ≤ c.size) (h2 : c.size < 65536) (portid : Nat) (seq : Nat → UInt32)
    (send : Nat → Option Nat) (replies : Nat → List Recv) (d : Device) (hn : d.name.length ≤ 15)
    (hip : ∀ p ∈ d.peers, ∀ a ∈ p.allowedIPs, a.cidr.toNat ≤ addrBits a.addr)
    (hr : ∀ i, ∃ v, recvRun (σ := Unit) (seq i).toNat portid none (replies i) (0, ()) = .ok v) (fuel : Nat)
    (hf : (d.peers.map fun p => 2 + p.allowedIPs.length).sum < fuel) :
    (∃ x : Int, (setLoop c portid seq send replies d fuel 0 .start).1 = .ok x) ∧
    (setLoop c portid seq send replies d fuel 0 .start).2.length ≤ (d.peers.map fun p => 2 + p.allowedIPs.length).sum + 1 := by
  obtain ⟨x, i1, -, i3⟩ := setLoop_ends c portid seq send replies d h1 h2 ⟨hn, hip⟩ hr fuel 0 .start trivial (by simp only [leftTodo, todo_none]; exact hf)
  simp only [leftTodo, todo_none] at i3
  exact ⟨⟨x, i1⟩, i3⟩

/-- C30. With every message acknowledged, the operation succeeds. -/
theorem c30_acknowledged (c : NlCtx) (h1 : 272 ≤ c.size) (h2 : c.size < 65536) (portid : UInt32) (seq : Nat → UInt32)
    (echo : Nat → Vector UInt8 16) (stale : Nat → List UInt8) (d : Device) (hn : d.name.length ≤ 15)
    (hip : ∀ p ∈ d.peers, ∀ a ∈ p.allowedIPs, a.cidr.toNat ≤ addrBits a.addr) (fuel : Nat)
    (hf : (d.peers.map fun p => 2 + p.allowedIPs.length).sum < fuel) :
    (setLoop c portid.toNat seq (fun _ => none) (fun i => [.msg (ackMessage (seq i) portid (echo i)) (stale i)]) d fuel 0 .start).1 = .ok 0 := by
  obtain ⟨x, i1, i2, -⟩ := setLoop_ends c portid.toNat seq (fun _ => none) (fun i => [.msg (ackMessage (seq i) portid (echo i)) (stale i)]) d h1 h2 ⟨hn, hip⟩
    (fun i => ⟨_, ack_accepted (seq i) portid (echo i) (stale i)⟩) fuel 0 .start trivial (by simp only [leftTodo, todo_none]; exact hf)
  rw [i1, i2 (fun _ => rfl) (fun i v hv => by rw [ack_accepted] at hv; cases hv; exact Int.le_refl 0)]

/-! A configuration that needs several messages in a small buffer. -/

/-- A peer with nine allowed IPs, and one to remove. -/
def splitDevice : Device where
  name := b!"wg0"
  flags := { replacePeers := true, hasListenPort := true }
  listenPort := 51820
  peers := [{ publicKey := Vector.replicate 32 7, flags := { hasPublicKey := true, replaceAllowedIPs := true, hasKeepalive := true }, keepalive := 25
              endpoint := .in4 #v[192, 0, 2, 1] 1234, allowedIPs := (List.range 9).map fun i => ⟨.v4 #v[10, 0, UInt8.ofNat i, 0], 24⟩ },
            { publicKey := Vector.replicate 32 9, flags := { hasPublicKey := true, removeMe := true } }]

/-- A small buffer. -/
def smallCtx : NlCtx := { size := 272, junk := (0, 0), id := 30, version := 1 }

/-- Every message acknowledged. -/
def ackAll : Nat → List Recv := fun _ => [.msg (ackMessage 5 77 (Vector.replicate 16 0)) []]

example : (setLoop smallCtx 77 (fun _ => 5) (fun _ => none) ackAll splitDevice 20 0 .start).1 = .ok 0 ∧
    (setLoop smallCtx 77 (fun _ => 5) (fun _ => none) ackAll splitDevice 20 0 .start).2.length = 2 ∧
    ((setLoop smallCtx 77 (fun _ => 5) (fun _ => none) ackAll splitDevice 20 0 .start).2.map fun m =>
      (readSetMessage 30 1 m).map fun r => r.2.peers.map fun p => (p.ips.length, p.replaceIPs, p.endpoint.isSome, p.remove)) =
      [some [(5, true, true, false)], some [(4, false, false, false), (0, false, false, true)]] := by
  decide +kernel

example (s : Iface) : ∃ reqs, List.Forall₂ (fun m r => readSetMessage 30 1 m = some (b!"wg0", r))
    (setLoop smallCtx 77 (fun _ => 5) (fun _ => none) ackAll splitDevice 20 0 .start).2 reqs ∧ reqs.foldl applyReq s = applyReq s (requestOf splitDevice) := by
  obtain ⟨reqs, h1, h2, -⟩ := c29_fragmentation_preserves_meaning smallCtx (by decide) (by decide) 77 (fun _ => 5) (fun _ => none) (by simp) ackAll splitDevice
    (by decide) (by decide +kernel) 20 _ _ (Prod.eta _).symm
  exact ⟨reqs, h1, h2 (by decide +kernel) s⟩

end WG
