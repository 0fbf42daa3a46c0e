import Verif.Proof.NetlinkSafe
import Verif.Proof.NetlinkRead
/-!
C31, C32: reading a device dumped by the kernel.
-/
namespace WG
open Spec

/-- C31. Whatever the splitting of a dump into messages, and of the messages into datagrams: the device read is the device
dumped. `ds`: the datagrams, each with the bytes left in the buffer behind it. `whole`: everything the dump says; a peer whose allowed
IPs are cut is continued by an entry that names only the peer; a continuation that is itself continued brings at least one allowed IP
(without which the program fails, see `c31_counterexample_empty_continuation`); keys are distinct. -/
theorem c31_dump_read (iface : CStr) (hi : iface.length ≤ 15) (env : Nat → Attempt) (i fuel : Nat) (ho : (env i).openErr = none)
    (hs : (env i).sendErr = none) (ds : List (List UInt8 × List UInt8)) (hr : (env i).recvs = ds.map fun d => .msg d.1 d.2)
    (hb : ∀ d ∈ ds, (d.1 ++ d.2).length < 2 ^ 30) (ms : List NlMsg) (hd : Dump (env i).seq (env i).portid (ds.map (·.1)) ms) (whole : DevDump) (fs : List DevDump)
    (hm : List.Forall₂ (fun m f => readDevDump (m.body.drop 4) = some f) ms fs) (hf : FragmentsOf whole fs) (nd : (whole.peers.map PeerDump.key).Nodup) :
    kernelGet iface env (fuel + 1) i = .ok (0, some whole.device) := by
  have hall : ∀ m ∈ ms, ∃ f, readDevDump (m.body.drop 4) = some f := by
    intro m hmem
    obtain ⟨f, -, h⟩ := forall₂_mem_left hm m hmem
    exact ⟨f, h⟩
  obtain ⟨ps, h1, h2⟩ := dump_device hf hm nd
  rw [kernelGet, if_neg (by omega), ho]
  simp only [hs]
  rw [hr, recvRun_dump _ _ ds ms hd hb hall, okb]
  simp only
  rw [if_neg (by omega), h1]
  simp only [h2]

/-- C31. If dumps are interrupted by changes of the device, the request is repeated, and what an interrupted dump said is
forgotten: the device read is the device of the first dump that is not interrupted. -/
theorem c31_interrupted_dump_repeated (iface : CStr) (hi : iface.length ≤ 15) (env : Nat → Attempt) (k : Nat)
    (hbad : ∀ i < k, (env i).openErr = none ∧ ((env i).sendErr = some 4 ∨ (env i).sendErr = none ∧ ∃ (ds : List (List UInt8 × List UInt8)) (ms : List NlMsg),
      (env i).recvs = ds.map (fun d => .msg d.1 d.2) ∧ (∀ d ∈ ds, (d.1 ++ d.2).length < 2 ^ 30) ∧
      Interrupted (env i).seq (env i).portid (ds.map (·.1)) ms ∧ ∀ m ∈ ms, ∃ f, readDevDump (m.body.drop 4) = some f)) (fuel : Nat) (hf : k ≤ fuel) :
    kernelGet iface env fuel 0 = kernelGet iface env (fuel - k) k := by
  induction k with
  | zero => rfl
  | succ k ih =>
    rw [ih (fun i hi => hbad i (by omega)) (by omega)]
    obtain ⟨ho, h⟩ := hbad k (by omega)
    rw [show fuel - k = fuel - (k + 1) + 1 from by omega, kernelGet, if_neg (by omega), ho]
    rcases h with h | ⟨h, ds, ms, h1, h2, h3, h4⟩
    · simp only [h]
      rw [if_pos trivial]
    · simp only [h]
      rw [h1, recvRun_intr _ _ ds ms h3 h2 h4, okb]
      simp

/-! ### Arbitrary bytes -/

/-- What the theorems below suppose about received bytes: their number is a multiple of four (as the kernel makes it) and below 2^30
(the buffer has 4096 or 8192); length fields of messages are below 2^31 and interface names contain a NUL (without which the program reads
outside, see the counterexamples). Attributes, nests and all other lengths are arbitrary. -/
def Received (data : List UInt8) : Prop :=
  4 ∣ data.length ∧ data.length < 2 ^ 30 ∧ (∀ h, HeaderAt data h → h + 16 ≤ data.length → msgLen data h < 2 ^ 31) ∧ NamesTerminated data

/-- C32. Reading any bytes as a dump ends and reads only these bytes (`stale`: what lies behind them in memory, if anything at all,
does not matter). -/
theorem c32_dump_reading_stays_inside (data : List UInt8) (h : Received data) (seq portid : Nat) (st : Nat × NlDevice) :
    ∃ v, cbRun data seq portid (some (readDeviceCb data)) (data.length + 1) 0 data.length 1 st = .ok v ∧
      ∀ stale, cbRun (data ++ stale) seq portid (some (readDeviceCb (data ++ stale))) (data.length + 1) 0 data.length 1 st = .ok v := by
  obtain ⟨h1, h2, h3, h4⟩ := h
  obtain ⟨v, hv⟩ := cbRun_safe data h2 h1 seq portid (some (readDeviceCb data)) (fun f hf => by cases hf; exact readDeviceCb_safe data h2 h4) h3 (data.length + 1) 0 1 st .first (by omega)
  rw [show ((data.length : Int) - ((0 : Nat) : Int)) = data.length from by omega] at hv
  exact ⟨v, hv, fun stale => cbRun_mono data stale seq portid _ _ (fun f hf => by cases hf; exact ⟨_, rfl, readDeviceCb_mono data stale⟩) (by simp) _ _ _ _ _ v hv⟩

/-- C32. The same for the acknowledgements of a set operation (which has no data callback); names do not matter. -/
theorem c32_ack_reading_stays_inside (data : List UInt8) (h1 : 4 ∣ data.length) (h2 : data.length < 2 ^ 30)
    (h3 : ∀ h, HeaderAt data h → h + 16 ≤ data.length → msgLen data h < 2 ^ 31) (seq portid : Nat) (st : Nat × Unit) :
    ∃ v, cbRun data seq portid none (data.length + 1) 0 data.length 1 st = .ok v ∧
      ∀ stale, cbRun (data ++ stale) seq portid none (data.length + 1) 0 data.length 1 st = .ok v := by
  obtain ⟨v, hv⟩ := cbRun_safe data h2 h1 seq portid none (fun f hf => by cases hf) h3 (data.length + 1) 0 1 st .first (by omega)
  rw [show ((data.length : Int) - ((0 : Nat) : Int)) = data.length from by omega] at hv
  exact ⟨v, hv, fun stale => cbRun_mono data stale seq portid _ _ (fun f hf => by cases hf) (by simp) _ _ _ _ _ v hv⟩

/-- The same received, with other bytes behind the messages. -/
inductive SameRecv : Recv → Recv → Prop
  | err (e : Nat) : SameRecv (.err e) (.err e)
  | msg (data stale stale' : List UInt8) : Received data → SameRecv (.msg data stale) (.msg data stale')

/-- C32. Over a whole conversation: no read outside of what was received, and the result does not depend on older bytes in the buffer. -/
theorem c32_receiving_stays_inside (seq portid : Nat) (rs rs' : List Recv) (h : List.Forall₂ SameRecv rs rs') (st : Nat × NlDevice) :
    recvRun seq portid (some readDeviceCb) rs st ≠ .ub ∧
    recvRun seq portid (some readDeviceCb) rs st = recvRun seq portid (some readDeviceCb) rs' st := by
  induction h generalizing st with
  | nil => simp [recvRun]
  | cons hr hrs ih =>
    cases hr with
    | err e => simp [recvRun]
    | msg data stale stale' hd =>
      obtain ⟨v, h1, h2⟩ := c32_dump_reading_stays_inside data hd seq portid st
      obtain ⟨r, st'⟩ := v
      rw [recvRun, recvRun, Option.map_some, Option.map_some]
      split
      · simp
      · rw [h2 stale, h2 stale', okb, okb]
        simp only
        split
        · exact ih st'
        · simp

/-- A callback that collects the attributes it is given. -/
def collect (mem : List UInt8) (x : Nat) (st : List (Nat × List UInt8)) : Res (Int × List (Nat × List UInt8)) :=
  (attrType mem x).bind fun t => (attrPayloadLen mem x).bind fun n => (rdBytes mem (x + 4) n).bind fun b => .ok (1, st ++ [(t, b)])

/-- C32. What the program puts into a message it finds again: attributes put one after the other are walked in the same order, with the
same types and payloads. -/
theorem c32_attributes_put_are_found (l : List (Nat × List UInt8)) (h : ∀ a ∈ l, a.1 < 0x4000 ∧ a.2.length + 4 < 65536) (m : List UInt8)
    (hm : m = l.foldl (fun m a => putAttr m a.1 a.2) []) (hlen : m.length < 2 ^ 30) : walk m m.length (collect m) (m.length + 1) 0 1 [] = .ok (1, l) := by
  have he : ∀ (l : List (Nat × List UInt8)) (m : List UInt8), l.foldl (fun m a => putAttr m a.1 a.2) m = m ++ encAttrs l := by
    intro l
    induction l with
    | nil => intro m; simp [encAttrs]
    | cons a l ih => intro m; rw [List.foldl_cons, ih, putAttr_eq, encAttrs_cons, List.append_assoc]
  have hmm : m = encAttrs l := by rw [hm, he]; rfl
  have hat : attrs ((m.drop 0).take m.length) = some l := by
    rw [List.drop_zero, List.take_length, hmm, attrs_enc l (fun a ha => by have := h a ha; omega)]
    congr 1
    conv_rhs => rw [← List.map_id l]
    refine List.map_congr_left fun a ha => ?_
    have := (h a ha).1
    simp only [id]
    rw [Nat.mod_eq_of_lt this]
  have := walk_attrs m hlen (collect m) (fun st a => st ++ [a]) (fun _ => True) l 0 m.length m.length (m.length + 1) [] hat (by omega) (by omega) (by omega) (by omega) trivial
    (fun x t d st _ hx _ => ⟨by rw [collect, hx.rdType, okb, hx.rdPayloadLen, okb, hx.rdPayload _ rfl, okb], trivial⟩)
  rw [this]
  have hf : ∀ (l : List (Nat × List UInt8)) (s : List (Nat × List UInt8)), l.foldl (fun st a => st ++ [a]) s = s ++ l := by
    intro l
    induction l with
    | nil => intro s; simp
    | cons a l ih => intro s; rw [List.foldl_cons, ih]; simp
  rw [hf]; rfl

/-! ### A dump in two datagrams -/

/-- The bytes of a message of the dump 5 for port 77. -/
def dumpMsg (type flags : Nat) (body : List UInt8) : List UInt8 := u32b (16 + body.length) ++ u16b type ++ u16b flags ++ u32b 5 ++ u32b 77 ++ body

/-- The attributes of an allowed IP 10.0.i.0/24. -/
def dumpIP (i : UInt8) : Nat × List UInt8 := (0, encAttrs [(1, u16b 2), (2, [10, 0, i, 0]), (3, [24])])

/-- First message: the settings, and a peer with its first allowed IP. -/
def dumpFirst : List UInt8 := dumpMsg 30 2 ([0, 1, 0, 0] ++ encAttrs [(1, u32b 3), (2, b!"wg0" ++ [0]), (3, List.replicate 32 1), (6, u16b 51820),
  (0x8008, encAttrs [(0, encAttrs [(1, List.replicate 32 7), (5, u16b 25), (7, u32b 1000 ++ u32b 0), (0x8009, encAttrs [dumpIP 1])])])])

/-- Second message: the rest of the peer and another one, with an endpoint. -/
def dumpSecond : List UInt8 := dumpMsg 30 2 ([0, 1, 0, 0] ++ encAttrs [(2, b!"wg0" ++ [0]),
  (0x8008, encAttrs [(0, encAttrs [(1, List.replicate 32 7), (0x8009, encAttrs [dumpIP 2, dumpIP 3])]),
    (0, encAttrs [(1, List.replicate 32 9), (4, u16b 2 ++ [4, 210, 192, 0, 2, 1] ++ List.replicate 8 0)])])])

/-- The end. -/
def dumpDone : List UInt8 := dumpMsg 3 2 [0, 0, 0, 0]

/-- The device dumped. -/
def dumpDevice : DevDump where
  ifindex := some 3
  name := some b!"wg0"
  privateKey := some (Vector.replicate 32 1)
  listenPort := some 51820
  peers := [{ key := Vector.replicate 32 7, keepalive := some 25, rx := some 1000
              ips := [⟨.v4 #v[10, 0, 1, 0], 24⟩, ⟨.v4 #v[10, 0, 2, 0], 24⟩, ⟨.v4 #v[10, 0, 3, 0], 24⟩] },
            { key := Vector.replicate 32 9, endpoint := some (.in4 #v[192, 0, 2, 1] 1234) }]

/-- What the two messages say. -/
def dumpFragments : List DevDump :=
  [{ dumpDevice with peers := [{ key := Vector.replicate 32 7, keepalive := some 25, rx := some 1000, ips := [⟨.v4 #v[10, 0, 1, 0], 24⟩] }] },
   { name := some b!"wg0", peers := [{ key := Vector.replicate 32 7, ips := [⟨.v4 #v[10, 0, 2, 0], 24⟩, ⟨.v4 #v[10, 0, 3, 0], 24⟩] },
      { key := Vector.replicate 32 9, endpoint := some (.in4 #v[192, 0, 2, 1] 1234) }] }]

/-- A message without its header. -/
def dumpNl (bs : List UInt8) : NlMsg := ⟨30, 2, 5, 77, bs.drop 16⟩

/-- The kernel's answer: the first message alone, the second together with the end. -/
def dumpEnv : Nat → Attempt := fun _ => { seq := 5, portid := 77, recvs := [.msg dumpFirst (List.replicate 40 255), .msg (dumpSecond ++ dumpDone) []] }

instance (m : NlMsg) (seq portid : Nat) : Decidable (m.IsData seq portid) := by unfold NlMsg.IsData; infer_instance
instance (m : NlMsg) (seq portid : Nat) : Decidable (m.IsDone seq portid) := by unfold NlMsg.IsDone; infer_instance

example : kernelGet b!"wg0" dumpEnv 1 0 = .ok (0, some dumpDevice.device) := by
  refine c31_dump_read b!"wg0" (by decide) dumpEnv 0 0 rfl rfl [(dumpFirst, List.replicate 40 255), (dumpSecond ++ dumpDone, [])] rfl (by decide +kernel)
    [dumpNl dumpFirst, dumpNl dumpSecond] ?_ dumpDevice dumpFragments ?_ ?_ (by decide +kernel)
  · exact .more dumpFirst _ [dumpNl dumpFirst] [dumpNl dumpSecond] (by decide +kernel) (by simp) (by decide +kernel)
      (.last (dumpSecond ++ dumpDone) [] [dumpNl dumpSecond] [] ⟨3, 2, 5, 77, [0, 0, 0, 0]⟩ (by decide +kernel) (by decide +kernel) (by decide +kernel))
  · exact .cons (by decide +kernel) (.cons (by decide +kernel) .nil)
  · refine ⟨by decide +kernel, by decide +kernel, by simp [dumpFragments], ?_⟩
    exact .cut false _ _ _ rfl (by simp) (.whole true _ (.whole false _ .nil))

/-- Every header of bytes that are two messages. -/
example : Received (dumpSecond ++ dumpDone) := by
  have hm : msgLen (dumpSecond ++ dumpDone) 0 = 192 := by decide +kernel
  have hp : pad4 192 = 192 := rfl
  have hm2 : msgLen (dumpSecond ++ dumpDone) 192 = 20 := by decide +kernel
  have key : ∀ h, HeaderAt (dumpSecond ++ dumpDone) h → h = 0 ∨ h = 192 ∨ h = 212 := by
    intro h hh
    induction hh with
    | first => exact .inl rfl
    | next h _ h1 h2 ih =>
      rcases ih with rfl | rfl | rfl
      · rw [hm, hp]; right; left; omega
      · rw [hm2]; exact .inr (.inr rfl)
      · have : msgLen (dumpSecond ++ dumpDone) (212) = 0 := by decide +kernel
        omega
  refine ⟨by decide +kernel, by decide +kernel, ?_, ?_⟩
  · intro h hh _
    rcases key h hh with rfl | rfl | rfl <;> decide +kernel
  · intro h hh x hx hle ht hlt
    have hq : ∀ x, AttrAt (dumpSecond ++ dumpDone) 20 192 x → x = 20 ∨ x = 28 ∨ 192 ≤ x := by
      intro x hx
      induction hx with
      | first => exact .inl rfl
      | next x _ h1 h2 ih =>
        rcases ih with rfl | rfl | h
        · right; left; decide +kernel
        · right; right; decide +kernel
        · omega
    rcases key h hh with rfl | rfl | rfl
    · rw [hm, hp] at hx hle
      rcases hq x (by simpa using hx) with rfl | rfl | h
      · decide +kernel
      · exact absurd ht (by decide +kernel)
      · omega
    · rw [hm2] at hx hle
      have : 212 ≤ x := by
        clear hle ht hlt
        induction hx with
        | first => omega
        | next x _ _ _ ih => omega
      have h20 : pad4 20 = 20 := rfl
      omega
    · have hz : msgLen (dumpSecond ++ dumpDone) (212) = 0 := by decide +kernel
      rw [hz] at hx hle
      have : 232 ≤ x := by
        clear hle ht hlt
        induction hx with
        | first => omega
        | next x _ _ _ ih => omega
      have h20 : pad4 0 = 0 := rfl
      omega

/-! ### Counterexamples -/

/-- A peer fragment of a dump: a key, and allowed IPs unless there are none. -/
def fragment (ips : List (Nat × List UInt8)) : Nat × List UInt8 :=
  (0, encAttrs ((1, List.replicate 32 7) :: (if ips = [] then [] else [(0x8009, encAttrs ips)])))

/-- What is received: one message with these device attributes, and the end. -/
def dumpOf (l : List (Nat × List UInt8)) : Attempt := { seq := 5, portid := 77, recvs := [.msg (dumpMsg 30 2 ([0, 1, 0, 0] ++ encAttrs l)) [], .msg dumpDone []] }

/-- The condition of `c31_dump_read` on continuations is needed: with a peer continued by an entry without allowed IPs and then
continued again, the program dereferences a null pointer. -/
theorem c31_counterexample_empty_continuation :
    kernelGet b!"wg0" (fun _ => dumpOf [(0x8008, encAttrs [fragment [dumpIP 1], fragment [], fragment [dumpIP 2]])]) 1 0 = .ub := by decide +kernel

/-- An allowed IP the program finds invalid (prefix length 33) does not make reading fail: it stays in the device, and the attributes
of the peer behind it (here a keepalive of 25) are lost. -/
theorem c32_finding_invalid_ip_accepted :
    kernelGet b!"wg0" (fun _ => dumpOf [(0x8008, encAttrs [(0, encAttrs [(1, List.replicate 32 7),
      (0x8009, encAttrs [(0, encAttrs [(1, u16b 2), (2, [10, 0, 0, 0]), (3, [33])])]), (5, u16b 25)])])]) 1 0 =
    .ok (0, some { peers := [{ flags := { hasPublicKey := true }, publicKey := Vector.replicate 32 7, allowedIPs := [⟨.v4 #v[10, 0, 0, 0], 33⟩] }] }) := by decide +kernel

/-- The condition on message lengths is needed: with a length field of 2^31 the program reads outside of the buffer. -/
theorem c32_counterexample_huge_length :
    cbRun ([0, 0, 0, 128, 30, 0, 2, 0] ++ u32b 5 ++ u32b 77) 5 77 (some (readDeviceCb ([0, 0, 0, 128, 30, 0, 2, 0] ++ u32b 5 ++ u32b 77))) 17 0 16 1 (0, {}) = .ub := by
  decide +kernel

/-- The condition on interface names is needed: a name without NUL at the end of the buffer is read past the end. -/
theorem c32_counterexample_unterminated_name :
    cbRun (dumpMsg 30 2 ([0, 1, 0, 0] ++ encAttrs [(2, b!"wg00")])) 5 77 (some (readDeviceCb (dumpMsg 30 2 ([0, 1, 0, 0] ++ encAttrs [(2, b!"wg00")])))) 29 0 28 1 (0, {}) = .ub := by
  decide +kernel

end WG
