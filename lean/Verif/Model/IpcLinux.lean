import Verif.Model.Netlink
/-! Model of src/ipc-linux.h: setting and getting a kernel interface over generic netlink. Opening the socket
(`mnlg_socket_open`, which asks the kernel for the family id) is modelled by its result here and in full in Model/NetlinkOpen. -/
namespace WG

/-! ### Setting -/

/-- ipc-linux.h:220-230: the attributes of an allowed IP. -/
def ipAttrs (c : NlCtx) (m : List UInt8) (a : AllowedIP) : List UInt8 × Bool :=
  andThen (putCheck c m 1 (u16b (match a.addr with | .v4 _ => 2 | .v6 _ => 10))) fun m =>
  andThen (putCheck c m 2 (match a.addr with | .v4 ip => ip.toList | .v6 ip => ip.toList)) fun m =>
  putCheck c m 3 [a.cidr]

/-- ipc-linux.h:217-232, and 245-246 when it does not fit: one allowed IP, or the message without it. -/
def putIP (c : NlCtx) (m : List UInt8) (a : AllowedIP) : List UInt8 × Bool :=
  if !nestFits c m then (m, false)
  else
    let r := ipAttrs c (nestStart c m 0) a
    if r.2 then (nestEnd r.1 m.length, true) else (nestCancel r.1 m.length, false)

/-- ipc-linux.h:216-233: the loop over the allowed IPs; the second component is what did not fit. -/
def ipsLoop (c : NlCtx) : List UInt8 → List AllowedIP → List UInt8 × List AllowedIP
  | m, [] => (m, [])
  | m, a :: l =>
    let r := putIP c m a
    if r.2 then ipsLoop c r.1 l else (r.1, a :: l)

/-- `struct sockaddr_in` (16 bytes) and `struct sockaddr_in6` (28 bytes); the unused bytes of the former are zero. -/
def sockaddrBytes : Endpoint → List UInt8
  | .unset => []
  | .in4 a p => u16b 2 ++ [UInt8.ofNat (p.toNat / 256), UInt8.ofNat p.toNat] ++ a.toList ++ List.replicate 8 0
  | .in6 a p fl sc => u16b 10 ++ [UInt8.ofNat (p.toNat / 256), UInt8.ofNat p.toNat] ++ u32b fl.toNat ++ a.toList ++ u32b sc.toNat

/-- ipc-linux.h:178, 185-189: the flags of a peer. -/
def peerFlagBits (p : Peer) (first : Bool) : Nat :=
  (if p.flags.removeMe then 1 else 0) + (if first && p.flags.replaceAllowedIPs then 2 else 0)

/-- An attribute that is present only if `b`. -/
def putIf (b : Bool) (c : NlCtx) (m : List UInt8) (type : Nat) (data : List UInt8) : List UInt8 × Bool :=
  if b then putCheck c m type data else (m, true)

/-- ipc-linux.h:183-209: the attributes of a peer before its allowed IPs; `first`: `allowedip` is NULL. -/
def peerAttrs (c : NlCtx) (m : List UInt8) (p : Peer) (first : Bool) : List UInt8 × Bool :=
  andThen (putCheck c m 1 p.publicKey.toList) fun m =>
  andThen (putIf (first && p.flags.hasPresharedKey) c m 2 p.presharedKey.toList) fun m =>
  andThen (putIf (first && p.endpoint ≠ .unset) c m 4 (sockaddrBytes p.endpoint)) fun m =>
  andThen (putIf (first && p.flags.hasKeepalive) c m 5 (u16b p.keepalive.toNat)) fun m =>
  putIf (peerFlagBits p first ≠ 0) c m 3 (u32b (peerFlagBits p first))

/-- ipc-linux.h:177-240 and 244-255: the loop over the peers from the head of the list, the pointer `allowedip` (`none`: NULL);
the nests of the peers are closed. Returns the message, the peer and allowed IP to continue with (`[]`: all done). -/
def peersLoop (c : NlCtx) : List UInt8 → List Peer → Option (List AllowedIP) → List UInt8 × List Peer × Option (List AllowedIP)
  | m, [], ip => (m, [], ip)
  | m, p :: ps, ip =>
    if !nestFits c m then (m, p :: ps, ip)
    else
      let r := peerAttrs c (nestStart c m 0) p ip.isNone
      if !r.2 then (nestCancel r.1 m.length, p :: ps, ip)
      else if p.allowedIPs = [] then peersLoop c (nestEnd r.1 m.length) ps ip
      else
        let rest := ip.getD p.allowedIPs
        if !nestFits c r.1 then (nestEnd r.1 m.length, p :: ps, some rest)
        else
          let q := ipsLoop c (nestStart c r.1 9) rest
          let m' := nestEnd (nestEnd q.1 r.1.length) m.length
          match q.2 with
          | [] => peersLoop c m' ps none
          | rest => (m', p :: ps, some rest)

/-- ipc-linux.h:157-172: the interface name, and in the first message the settings of the device. -/
def devAttrs (m : List UInt8) (d : Device) (first : Bool) : List UInt8 :=
  let m := putAttr m 2 (d.name ++ [0])
  if first then
    let m := if d.flags.hasPrivateKey then putAttr m 3 d.privateKey.toList else m
    let m := if d.flags.hasListenPort then putAttr m 6 (u16b d.listenPort.toNat) else m
    let m := if d.flags.hasFwmark then putAttr m 7 (u32b d.fwmark.toNat) else m
    if d.flags.replacePeers then putAttr m 5 (u32b 1) else m
  else m

/-- Where the set operation is: at the start (`peer` NULL), or continuing with a peer and possibly an allowed IP. -/
inductive SetState where
  | start
  | at (ps : List Peer) (ip : Option (List AllowedIP))

/-- ipc-linux.h:155-256: one message (its body), and how to go on after it has been accepted (`none`: finished). -/
def buildMsg (c : NlCtx) (d : Device) (st : SetState) : List UInt8 × Option SetState :=
  let m := devAttrs [] d (match st with | .start => true | .at .. => false)
  if d.peers = [] then (m, none)
  else
    let r := match st with
      | .start => peersLoop c (nestStart c m 8) d.peers none
      | .at ps ip => peersLoop c (nestStart c m 8) ps ip
    (nestEnd r.1 m.length, if r.2.1 = [] then none else some (.at r.2.1 r.2.2))

/-- The whole message (NLM_F_REQUEST | NLM_F_ACK is 5, WG_CMD_SET_DEVICE is 1). -/
def wholeMsg (c : NlCtx) (seq : UInt32) (body : List UInt8) : List UInt8 := nlHeader c body.length 5 seq 1 ++ body

/-- ipc-linux.h:142-274 `kernel_set_device`, from the label `again`, with at most `fuel` messages: what is sent and the result.
`seq i`, `send i`, `replies i`: the time at, the result of sending (an errno, or success), and what is received after, the `i`-th
message. -/
def setLoop (c : NlCtx) (portid : Nat) (seq : Nat → UInt32) (send : Nat → Option Nat) (replies : Nat → List Recv) (d : Device) :
    Nat → Nat → SetState → Res Int × List (List UInt8)
  | 0, _, _ => (.running, [])
  | fuel + 1, i, st =>
    let r := buildMsg c d st
    let w := wholeMsg c (seq i) r.1
    match send i with
    | some e => (.ok (-e), [w])
    | none =>
      match recvRun (σ := Unit) (seq i).toNat portid none (replies i) (0, ()) with
      | .ok (ret, errno, _) =>
        if ret < 0 then (.ok (if errno ≠ 0 then -errno else -22), [w])
        else match r.2 with
          | none => (.ok 0, [w])
          | some st => let q := setLoop c portid seq send replies d fuel (i + 1) st; (q.1, w :: q.2)
      | .ub => (.ub, [w])
      | _ => (.running, [w])

/-! ### Getting -/

/-- An allowed IP being read: family, the 16 bytes of the address union, prefix length. -/
structure NlIP where
  family : Nat := 0
  ip : List UInt8 := List.replicate 16 0
  cidr : Nat := 0
deriving DecidableEq

/-- A peer being read. `ep`: the 28 bytes of the endpoint union; `lastSet`: whether `last_allowedip` is not NULL. -/
structure NlPeer where
  hasPub : Bool := false
  pub : List UInt8 := List.replicate 32 0
  hasPsk : Bool := false
  psk : List UInt8 := List.replicate 32 0
  ep : List UInt8 := List.replicate 28 0
  keepalive : Nat := 0
  handshake : List UInt8 := List.replicate 16 0
  rx : Nat := 0
  tx : Nat := 0
  ips : List NlIP := []
  lastSet : Bool := false
deriving DecidableEq

/-- A device being read. -/
structure NlDevice where
  ifindex : Nat := 0
  name : CStr := []
  hasPriv : Bool := false
  priv : List UInt8 := List.replicate 32 0
  hasPub : Bool := false
  pub : List UInt8 := List.replicate 32 0
  port : Nat := 0
  mark : Nat := 0
  peers : List NlPeer := []
deriving DecidableEq

/-- The bytes of a field as a vector. -/
def vecAt {n : Nat} (l : List UInt8) : Vector UInt8 n := Vector.ofFn fun i => l.getD i 0

/-- How the program sees an endpoint union (containers.h:56-60). -/
def seeEndpoint (b : List UInt8) : Endpoint :=
  let port := UInt16.ofNat (leNat (b.drop 2 |>.take 2).reverse)
  if leNat (b.take 2) = 2 then .in4 (vecAt (b.drop 4)) port
  else if leNat (b.take 2) = 10 then .in6 (vecAt (b.drop 8)) port (UInt32.ofNat (leNat ((b.drop 4).take 4))) (UInt32.ofNat (leNat ((b.drop 24).take 4)))
  else .unset

/-- An `int64_t`. -/
def toInt64 (n : Nat) : Int := ((n : Int) + 2 ^ 63) % 2 ^ 64 - 2 ^ 63

/-- How the program sees an allowed IP (containers.h:33-40); every use tells AF_INET from the rest or AF_INET6. -/
def NlIP.see (a : NlIP) : AllowedIP := ⟨if a.family = 2 then .v4 (vecAt a.ip) else .v6 (vecAt a.ip), UInt8.ofNat a.cidr⟩

/-- How the program sees a peer (containers.h:50-68). -/
def NlPeer.see (p : NlPeer) : Peer where
  flags := { hasPublicKey := p.hasPub, hasPresharedKey := p.hasPsk }
  publicKey := vecAt p.pub
  presharedKey := vecAt p.psk
  endpoint := seeEndpoint p.ep
  handshakeSec := toInt64 (leNat (p.handshake.take 8))
  handshakeNsec := toInt64 (leNat (p.handshake.drop 8))
  rx := p.rx
  tx := p.tx
  keepalive := UInt16.ofNat p.keepalive
  allowedIPs := p.ips.map NlIP.see

/-- How the program sees a device (containers.h:78-91). -/
def NlDevice.see (d : NlDevice) : Device where
  name := d.name
  ifindex := UInt32.ofNat d.ifindex
  flags := { hasPublicKey := d.hasPub, hasPrivateKey := d.hasPriv }
  publicKey := vecAt d.pub
  privateKey := vecAt d.priv
  fwmark := UInt32.ofNat d.mark
  listenPort := UInt16.ofNat d.port
  peers := d.peers.map NlPeer.see

/-- The payload if it has `n` bytes. -/
def exactPayload (mem : List UInt8) (a n : Nat) : Res (Option (List UInt8)) :=
  (attrPayloadLen mem a).bind fun len => if len = n then (rdBytes mem (a + 4) n).bind fun b => .ok (some b) else .ok none

/-- `if (!mnl_attr_validate(attr, MNL_TYPE_U*)) x = mnl_attr_get_u*(attr)`: the value, or ERANGE in errno. -/
def fixedNum (mem : List UInt8) (a n : Nat) : Res (Option Nat) :=
  (validFixed mem a n).bind fun ok => if ok then (rdNum mem (a + 4) n).bind fun x => .ok (some x) else .ok none

/-- Result of a callback that took (or ignored) a fixed-size value. -/
def took {σ : Type} (v : Option Nat) (errno : Nat) (st : σ) (f : Nat → σ) : Res (Int × Nat × σ) :=
  match v with
  | some x => .ok (1, errno, f x)
  | none => .ok (1, 34, st)

/-- ipc-linux.h:276-300 `parse_allowedip`. -/
def nlParseAllowedip (mem : List UInt8) (a : Nat) (st : Nat × NlIP) : Res (Int × Nat × NlIP) :=
  (attrType mem a).bind fun t =>
  if t = 1 then (fixedNum mem a 2).bind fun v => took v st.1 st.2 fun x => { st.2 with family := x }
  else if t = 2 then
    (exactPayload mem a 4).bind fun b4 =>
    match b4 with
    | some b => .ok (1, st.1, { st.2 with ip := b ++ st.2.ip.drop 4 })
    | none => (exactPayload mem a 16).bind fun b6 =>
      match b6 with
      | some b => .ok (1, st.1, { st.2 with ip := b })
      | none => .ok (1, st)
  else if t = 3 then (fixedNum mem a 1).bind fun v => took v st.1 st.2 fun x => { st.2 with cidr := x }
  else .ok (1, st)

/-- ipc-linux.h:302-324 `parse_allowedips`. -/
def nlParseAllowedips (mem : List UInt8) (a : Nat) (st : Nat × NlPeer) : Res (Int × Nat × NlPeer) :=
  (parseNested mem a (nlParseAllowedip mem) (st.1, {})).bind fun (ret, errno, ip) =>
  let p := { st.2 with ips := st.2.ips ++ [ip], lastSet := true }
  if ret = 0 then .ok (0, errno, p)
  else if (ip.family = 2 ∧ ip.cidr ≤ 32) ∨ (ip.family = 10 ∧ ip.cidr ≤ 128) then .ok (1, errno, p)
  else .ok (-1, errno, p)

/-- ipc-linux.h:346-357: the endpoint (`struct sockaddr` has 16 bytes). -/
def nlParseEp (mem : List UInt8) (a : Nat) (ep : List UInt8) : Res (List UInt8) :=
  (attrPayloadLen mem a).bind fun n =>
  if n < 16 then .ok ep
  else (rdNum mem (a + 4) 2).bind fun fam =>
    if fam = 2 ∧ n = 16 then (rdBytes mem (a + 4) 16).bind fun b => .ok (b ++ ep.drop 16)
    else if fam = 10 ∧ n = 28 then rdBytes mem (a + 4) 28
    else .ok ep

/-- `key_is_zero`. -/
def allZero (k : List UInt8) : Bool := k.all (· = 0)

/-- ipc-linux.h:326-379 `parse_peer`. -/
def nlParsePeer (mem : List UInt8) (a : Nat) (st : Nat × NlPeer) : Res (Int × Nat × NlPeer) :=
  (attrType mem a).bind fun t =>
  if t = 1 then (exactPayload mem a 32).bind fun b =>
    match b with
    | some b => .ok (1, st.1, { st.2 with pub := b, hasPub := true })
    | none => .ok (1, st)
  else if t = 2 then (exactPayload mem a 32).bind fun b =>
    match b with
    | some b => .ok (1, st.1, { st.2 with psk := b, hasPsk := st.2.hasPsk || !allZero b })
    | none => .ok (1, st)
  else if t = 4 then (nlParseEp mem a st.2.ep).bind fun ep => .ok (1, st.1, { st.2 with ep := ep })
  else if t = 5 then (fixedNum mem a 2).bind fun v => took v st.1 st.2 fun x => { st.2 with keepalive := x }
  else if t = 6 then (exactPayload mem a 16).bind fun b =>
    match b with
    | some b => .ok (1, st.1, { st.2 with handshake := b })
    | none => .ok (1, st)
  else if t = 7 then (fixedNum mem a 8).bind fun v => took v st.1 st.2 fun x => { st.2 with rx := x }
  else if t = 8 then (fixedNum mem a 8).bind fun v => took v st.1 st.2 fun x => { st.2 with tx := x }
  else if t = 9 then parseNested mem a (nlParseAllowedips mem) st
  else .ok (1, st)

/-- ipc-linux.h:381-403 `parse_peers`. -/
def nlParsePeers (mem : List UInt8) (a : Nat) (st : Nat × NlDevice) : Res (Int × Nat × NlDevice) :=
  (parseNested mem a (nlParsePeer mem) (st.1, {})).bind fun (ret, errno, p) =>
  let d := { st.2 with peers := st.2.peers ++ [p] }
  if ret = 0 then .ok (0, errno, d)
  else if p.hasPub then .ok (1, errno, d) else .ok (-1, errno, d)

/-- `strncpy(name, str, 15)`: bytes are read up to the first NUL, at most `n`. -/
def strncpyAt (mem : List UInt8) : Nat → Nat → Res CStr
  | 0, _ => .ok []
  | n + 1, i => (rdNum mem i 1).bind fun c => if c = 0 then .ok [] else (strncpyAt mem n (i + 1)).bind fun t => .ok (UInt8.ofNat c :: t)

/-- ipc-linux.h:405-447 `parse_device`. -/
def nlParseDevice (mem : List UInt8) (a : Nat) (st : Nat × NlDevice) : Res (Int × Nat × NlDevice) :=
  (attrType mem a).bind fun t =>
  if t = 1 then (fixedNum mem a 4).bind fun v => took v st.1 st.2 fun x => { st.2 with ifindex := x }
  else if t = 2 then
    (validString mem a).bind fun ok =>
    if ok then (strncpyAt mem 15 (a + 4)).bind fun s => .ok (1, st.1, { st.2 with name := s }) else .ok (1, 34, st.2)
  else if t = 3 then (exactPayload mem a 32).bind fun b =>
    match b with
    | some b => .ok (1, st.1, { st.2 with priv := b, hasPriv := true })
    | none => .ok (1, st)
  else if t = 4 then (exactPayload mem a 32).bind fun b =>
    match b with
    | some b => .ok (1, st.1, { st.2 with pub := b, hasPub := true })
    | none => .ok (1, st)
  else if t = 6 then (fixedNum mem a 2).bind fun v => took v st.1 st.2 fun x => { st.2 with port := x }
  else if t = 7 then (fixedNum mem a 4).bind fun v => took v st.1 st.2 fun x => { st.2 with mark := x }
  else if t = 8 then parseNested mem a (nlParsePeers mem) st
  else .ok (1, st)

/-- ipc-linux.h:449-452 `read_device_cb` (`struct genlmsghdr` has 4 bytes). -/
def readDeviceCb (mem : List UInt8) (h : Nat) (st : Nat × NlDevice) : Res (Int × Nat × NlDevice) :=
  parseMsg mem h 4 (nlParseDevice mem) st

/-- ipc-linux.h:454-474 `coalesce_peers`; `none`: a null pointer is dereferenced. The key comparison is `memcmp` over 32 bytes. -/
def coalesce : List NlPeer → Option (List NlPeer)
  | [] => some []
  | p :: ps => go p ps
where
  /-- The loop with `peer` = `p` and the rest of the list. -/
  go (p : NlPeer) : List NlPeer → Option (List NlPeer)
    | [] => some [p]
    | q :: qs =>
      if p.pub ≠ q.pub then (go q qs).map (p :: ·)
      else if p.ips = [] then go { p with ips := q.ips, lastSet := q.lastSet } qs
      else if p.lastSet then go { p with ips := p.ips ++ q.ips, lastSet := q.lastSet } qs
      else none

/-- One attempt of `kernel_get_device`, which opens its own socket: errors of opening and sending, time, the port of the socket and what is received. -/
structure Attempt where
  openErr : Option Nat := none
  sendErr : Option Nat := none
  seq : Nat := 0
  portid : Nat := 0
  recvs : List Recv := []

/-- ipc-linux.h:476-525 `kernel_get_device`, with at most `fuel` attempts (`try_again` after EINTR): the code and the device. -/
def kernelGet (iface : CStr) (env : Nat → Attempt) : Nat → Nat → Res (Int × Option Device)
  | 0, _ => .running
  | fuel + 1, i =>
    if iface.length ≥ 16 then .ok (-36, none) -- ENAMETOOLONG
    else match (env i).openErr with
    | some e => .ok (-e, none)
    | none =>
      let again (e : Nat) : Res (Int × Option Device) := if e = 4 then kernelGet iface env fuel (i + 1) else .ok (-e, none)
      match (env i).sendErr with
      | some e => again e
      | none =>
        (recvRun (env i).seq (env i).portid (some readDeviceCb) (env i).recvs (0, ({} : NlDevice))).bind fun (ret, errno, d) =>
        if ret < 0 then again (if errno ≠ 0 then errno else 22)
        else match coalesce d.peers with
          | none => .ub
          | some ps => .ok (0, some ({ d with peers := ps } : NlDevice).see)

end WG
