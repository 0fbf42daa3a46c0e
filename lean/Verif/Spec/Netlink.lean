import Verif.Spec.Driver
import Verif.Spec.Address
/-!
The netlink messages of WireGuard as documented in src/uapi/linux/linux/wireguard.h, read the way the format is defined: a
message is a header and a sequence of attributes; an attribute is a 16-bit length (including its 4 header bytes), a 16-bit
type (two flag bits on top) and a payload, padded with bytes to a multiple of four. Host byte order is little endian.
-/
namespace WG.Spec

/-- The number in host byte order. -/
def le : List UInt8 → Nat
  | [] => 0
  | b :: t => b.toNat + 256 * le t

/-- Rounded up to a multiple of four. -/
def pad4 (n : Nat) : Nat := (n + 3) / 4 * 4

/-- The attributes of a byte string: types (without flag bits) and payloads. `none`: malformed. `fuel`: at least the length. -/
def attrsAux : Nat → List UInt8 → Option (List (Nat × List UInt8))
  | 0, _ => none
  | fuel + 1, bs =>
    if bs = [] then some []
    else
      let len := le (bs.take 2)
      if bs.length < 4 ∨ len < 4 ∨ bs.length < len then none
      else (attrsAux fuel (bs.drop (pad4 len))).map ((le ((bs.drop 2).take 2) % 0x4000, (bs.drop 4).take (len - 4)) :: ·)

/-- The attributes of a byte string. -/
def attrs (bs : List UInt8) : Option (List (Nat × List UInt8)) := attrsAux (bs.length + 1) bs

/-- The payload of an attribute type, if present (the last one counts). -/
def attr? (l : List (Nat × List UInt8)) (t : Nat) : Option (List UInt8) := ((l.filter (·.1 = t)).getLast?).map (·.2)

/-- `n` bytes as a vector. -/
def bytes? (n : Nat) (b : List UInt8) : Option (Vector UInt8 n) := if h : b.length = n then some ⟨b.toArray, by simpa using h⟩ else none

/-- A number of `n` bytes. -/
def num? (n : Nat) (b : List UInt8) : Option Nat := if b.length = n then some (le b) else none

/-- An optional attribute: absent, or present and readable. -/
def optional {α : Type} (b : Option (List UInt8)) (read : List UInt8 → Option α) : Option (Option α) :=
  match b with
  | none => some none
  | some b => (read b).map some

/-- WGALLOWEDIP_A_*: family (1), address (2), prefix length (3) within the range of the family. -/
def readIP (bs : List UInt8) : Option AllowedIP :=
  (attrs bs).bind fun l =>
  ((attr? l 1).bind (num? 2)).bind fun fam =>
  (attr? l 2).bind fun ip =>
  ((attr? l 3).bind (num? 1)).bind fun cidr =>
  if fam = 2 ∧ cidr ≤ 32 then (bytes? 4 ip).map fun a => ⟨.v4 a, UInt8.ofNat cidr⟩
  else if fam = 10 ∧ cidr ≤ 128 then (bytes? 16 ip).map fun a => ⟨.v6 a, UInt8.ofNat cidr⟩
  else none

/-- A port in network byte order. -/
def bePort (b : List UInt8) : UInt16 := UInt16.ofNat (le b.reverse)

/-- `struct sockaddr_in` or `struct sockaddr_in6`. -/
def readSockaddr (bs : List UInt8) : Option Endpoint :=
  if le (bs.take 2) = 2 ∧ bs.length = 16 then (bytes? 4 ((bs.drop 4).take 4)).map fun a => .in4 a (bePort ((bs.drop 2).take 2))
  else if le (bs.take 2) = 10 ∧ bs.length = 28 then
    (bytes? 16 ((bs.drop 8).take 16)).map fun a =>
      .in6 a (bePort ((bs.drop 2).take 2)) (UInt32.ofNat (le ((bs.drop 4).take 4))) (UInt32.ofNat (le (bs.drop 24)))
  else none

/-- The elements of a nested list (type 0 each). -/
def elements {α : Type} (read : List UInt8 → Option α) (bs : List UInt8) : Option (List α) :=
  (attrs bs).bind fun l => l.mapM fun (t, b) => if t = 0 then read b else none

/-- A peer in WG_CMD_SET_DEVICE: WGPEER_A_* public key (1), preshared key (2), flags (3), endpoint (4), keepalive (5), allowed
IPs (9). -/
def readPeerReq (bs : List UInt8) : Option PeerReq :=
  (attrs bs).bind fun l =>
  ((attr? l 1).bind (bytes? 32)).bind fun key =>
  (optional (attr? l 2) (bytes? 32)).bind fun psk =>
  (optional (attr? l 3) (num? 4)).bind fun flags =>
  (optional (attr? l 4) readSockaddr).bind fun ep =>
  (optional (attr? l 5) (num? 2)).bind fun ka =>
  (optional (attr? l 9) (elements readIP)).map fun ips =>
    { key := key, remove := (flags.getD 0).testBit 0, replaceIPs := (flags.getD 0).testBit 1, psk := psk, endpoint := ep
      keepalive := ka.map UInt16.ofNat, ips := ips.getD [] }

/-- The attributes of WG_CMD_SET_DEVICE: WGDEVICE_A_* interface name (2), private key (3), flags (5), listen port (6), fwmark (7),
peers (8). The name ends with a NUL. -/
def readSetReq (bs : List UInt8) : Option (List UInt8 × SetReq) :=
  (attrs bs).bind fun l =>
  (attr? l 2).bind fun name =>
  if name.getLast? ≠ some 0 then none else
  (optional (attr? l 3) (bytes? 32)).bind fun priv =>
  (optional (attr? l 5) (num? 4)).bind fun flags =>
  (optional (attr? l 6) (num? 2)).bind fun port =>
  (optional (attr? l 7) (num? 4)).bind fun mark =>
  (optional (attr? l 8) (elements readPeerReq)).map fun peers =>
    (name.dropLast, { privateKey := priv, listenPort := port.map UInt16.ofNat, fwmark := mark.map UInt32.ofNat
                      replacePeers := (flags.getD 0).testBit 0, peers := peers.getD [] })

/-- A whole request: a `struct nlmsghdr` whose length is right, for family `id` with flags REQUEST and ACK, a
`struct genlmsghdr` with command WG_CMD_SET_DEVICE and the version, and the attributes. -/
def readSetMessage (id : UInt16) (version : UInt8) (msg : List UInt8) : Option (List UInt8 × SetReq) :=
  if 20 ≤ msg.length ∧ le (msg.take 4) = msg.length ∧ le ((msg.drop 4).take 2) = id.toNat ∧ le ((msg.drop 6).take 2) = 5 ∧
      (msg.drop 16).take 2 = [1, version] then readSetReq (msg.drop 20)
  else none

/-- `Splits rs ss`: the peers `ss` are the peers `rs` in order, where the allowed IPs of a peer may be cut: the first part goes with
everything else said about the peer, what follows names only the peer (and again whether it is to be removed). -/
inductive Splits : List PeerReq → List PeerReq → Prop
  | nil : Splits [] []
  | whole (r : PeerReq) {rs ss : List PeerReq} : Splits rs ss → Splits (r :: rs) (r :: ss)
  | cut (r : PeerReq) (a b : List AllowedIP) {rs ss : List PeerReq} : r.ips = a ++ b →
      Splits ({ key := r.key, remove := r.remove, ips := b } :: rs) ss → Splits (r :: rs) ({ r with ips := a } :: ss)

/-- The acknowledgement of a request: a `struct nlmsghdr` of type NLMSG_ERROR and a `struct nlmsgerr` with error 0 (it ends with the
header of the request, `echo`). -/
def ackMessage (seq portid : UInt32) (echo : Vector UInt8 16) : List UInt8 :=
  [36, 0, 0, 0, 2, 0, 0, 0] ++ word seq ++ word portid ++ [0, 0, 0, 0] ++ echo.toList
where
  /-- Host byte order. -/
  word (x : UInt32) : List UInt8 := [UInt8.ofNat x.toNat, UInt8.ofNat (x.toNat / 2 ^ 8), UInt8.ofNat (x.toNat / 2 ^ 16), UInt8.ofNat (x.toNat / 2 ^ 24)]

/-! ### Dumps (WG_CMD_GET_DEVICE) -/

/-- A netlink message: the fields of its header and what follows. -/
structure NlMsg where
  type : Nat
  flags : Nat
  seq : Nat
  portid : Nat
  body : List UInt8
deriving DecidableEq

/-- The messages of a datagram, each padded to a multiple of four. `none`: malformed. -/
def messagesAux : Nat → List UInt8 → Option (List NlMsg)
  | 0, _ => none
  | fuel + 1, bs =>
    if bs = [] then some []
    else
      let len := le (bs.take 4)
      if bs.length < 16 ∨ len < 16 ∨ bs.length < len then none
      else (messagesAux fuel (bs.drop (pad4 len))).map
        (⟨le ((bs.drop 4).take 2), le ((bs.drop 6).take 2), le ((bs.drop 8).take 4), le ((bs.drop 12).take 4), (bs.drop 16).take (len - 16)⟩ :: ·)

/-- The messages of a datagram. -/
def messages (bs : List UInt8) : Option (List NlMsg) := messagesAux (bs.length + 1) bs

/-- What a dump says about a peer. -/
structure PeerDump where
  key : Key
  psk : Option Key := none
  endpoint : Option Endpoint := none
  keepalive : Option UInt16 := none
  handshake : Option (Int × Int) := none
  rx : Option Nat := none
  tx : Option Nat := none
  ips : List AllowedIP := []
deriving DecidableEq

/-- What a dump, or one of its messages, says about a device. -/
structure DevDump where
  ifindex : Option UInt32 := none
  name : Option (List UInt8) := none
  privateKey : Option Key := none
  publicKey : Option Key := none
  listenPort : Option UInt16 := none
  fwmark : Option UInt32 := none
  peers : List PeerDump := []
deriving DecidableEq

/-- A signed 64-bit number in host byte order. -/
def le64 (bs : List UInt8) : Int := if le bs < 2 ^ 63 then le bs else (le bs : Int) - 2 ^ 64

/-- `struct __kernel_timespec`: seconds and nanoseconds. -/
def readTimespec (bs : List UInt8) : Option (Int × Int) := if bs.length = 16 then some (le64 (bs.take 8), le64 (bs.drop 8)) else none

/-- The attributes, each type at most once. -/
def attrsOnce (bs : List UInt8) : Option (List (Nat × List UInt8)) := (attrs bs).bind fun l => if (l.map (·.1)).Nodup then some l else none

/-- WGALLOWEDIP_A_*, each once. -/
def readDumpIP (bs : List UInt8) : Option AllowedIP := (attrsOnce bs).bind fun _ => readIP bs

/-- WGPEER_A_* of a dump: public key (1), preshared key (2), endpoint (4), keepalive (5), last handshake (6), received and sent bytes
(7, 8), allowed IPs (9); others are allowed. -/
def readPeerDump (bs : List UInt8) : Option PeerDump :=
  (attrsOnce bs).bind fun l =>
  ((attr? l 1).bind (bytes? 32)).bind fun key =>
  (optional (attr? l 2) (bytes? 32)).bind fun psk =>
  (optional (attr? l 4) readSockaddr).bind fun ep =>
  (optional (attr? l 5) (num? 2)).bind fun ka =>
  (optional (attr? l 6) readTimespec).bind fun hs =>
  (optional (attr? l 7) (num? 8)).bind fun rx =>
  (optional (attr? l 8) (num? 8)).bind fun tx =>
  (optional (attr? l 9) (elements readDumpIP)).map fun ips =>
    { key := key, psk := psk, endpoint := ep, keepalive := ka.map UInt16.ofNat, handshake := hs, rx := rx, tx := tx, ips := ips.getD [] }

/-- An interface name: at most 15 bytes, ended by its only NUL. -/
def readName (bs : List UInt8) : Option (List UInt8) :=
  if bs.getLast? = some 0 ∧ (0 : UInt8) ∉ bs.dropLast ∧ bs.length ≤ 16 then some bs.dropLast else none

/-- WGDEVICE_A_* of a dump: index (1), name (2), private key (3), public key (4), listen port (6), fwmark (7), peers (8); others are
allowed. -/
def readDevDump (bs : List UInt8) : Option DevDump :=
  (attrsOnce bs).bind fun l =>
  (optional (attr? l 1) (num? 4)).bind fun ifindex =>
  (optional (attr? l 2) readName).bind fun name =>
  (optional (attr? l 3) (bytes? 32)).bind fun priv =>
  (optional (attr? l 4) (bytes? 32)).bind fun pub =>
  (optional (attr? l 6) (num? 2)).bind fun port =>
  (optional (attr? l 7) (num? 4)).bind fun mark =>
  (optional (attr? l 8) (elements readPeerDump)).map fun peers =>
    { ifindex := ifindex.map UInt32.ofNat, name := name, privateKey := priv, publicKey := pub, listenPort := port.map UInt16.ofNat
      fwmark := mark.map UInt32.ofNat, peers := peers.getD [] }

/-- The peer a dump describes: what is not said has its default. -/
def PeerDump.peer (q : PeerDump) : Peer where
  flags := { hasPublicKey := true, hasPresharedKey := q.psk.getD zeroKey ≠ zeroKey }
  publicKey := q.key
  presharedKey := q.psk.getD zeroKey
  endpoint := q.endpoint.getD .unset
  handshakeSec := (q.handshake.getD (0, 0)).1
  handshakeNsec := (q.handshake.getD (0, 0)).2
  rx := q.rx.getD 0
  tx := q.tx.getD 0
  keepalive := q.keepalive.getD 0
  allowedIPs := q.ips

/-- The device a dump describes. -/
def DevDump.device (q : DevDump) : Device where
  name := q.name.getD []
  ifindex := q.ifindex.getD 0
  flags := { hasPublicKey := q.publicKey.isSome, hasPrivateKey := q.privateKey.isSome }
  publicKey := q.publicKey.getD zeroKey
  privateKey := q.privateKey.getD zeroKey
  fwmark := q.fwmark.getD 0
  listenPort := q.listenPort.getD 0
  peers := q.peers.map PeerDump.peer

/-- `DumpSplits c rs ss`: the peers `ss` are the peers `rs` in order, where the allowed IPs of a peer may be cut, what follows naming only
the peer. `c`: the first peer of `rs` is such a continuation; a continuation that is cut again brings at least one allowed IP. -/
inductive DumpSplits : Bool → List PeerDump → List PeerDump → Prop
  | nil : DumpSplits false [] []
  | whole (c : Bool) (r : PeerDump) {rs ss : List PeerDump} : DumpSplits false rs ss → DumpSplits c (r :: rs) (r :: ss)
  | cut (c : Bool) (r : PeerDump) (a b : List AllowedIP) {rs ss : List PeerDump} : r.ips = a ++ b → (c = true → a ≠ []) →
      DumpSplits true ({ key := r.key, ips := b } :: rs) ss → DumpSplits c (r :: rs) ({ r with ips := a } :: ss)

/-- The messages of a dump of `whole`: everything about the device in the first, only the name and peers in the others. -/
def FragmentsOf (whole : DevDump) (fs : List DevDump) : Prop :=
  (∀ f ∈ fs.head?, { f with peers := [] } = { whole with peers := [] }) ∧
  (∀ f ∈ fs.tail, { f with peers := [] } = ({ name := whole.name } : DevDump)) ∧ fs ≠ [] ∧
  DumpSplits false whole.peers (fs.flatMap (·.peers))

/-- A data message of the dump with sequence number `seq` for port `portid`: not a control message, not interrupted. -/
def NlMsg.IsData (m : NlMsg) (seq portid : Nat) : Prop :=
  16 ≤ m.type ∧ m.flags.testBit 4 = false ∧ m.seq = seq ∧ m.portid = portid ∧ 4 ≤ m.body.length

/-- The end of the dump: NLMSG_DONE with error code 0. -/
def NlMsg.IsDone (m : NlMsg) (seq portid : Nat) : Prop :=
  m.type = 3 ∧ m.flags.testBit 4 = false ∧ m.flags.testBit 1 = true ∧ m.seq = seq ∧ m.portid = portid ∧ m.body = [0, 0, 0, 0]

/-- `Dump seq portid datagrams ms`: the datagrams received are a dump with the data messages `ms`, ended by its final message. -/
inductive Dump (seq portid : Nat) : List (List UInt8) → List NlMsg → Prop
  | last (data : List UInt8) (more : List (List UInt8)) (ms rest : List NlMsg) (done : NlMsg) : messages data = some (ms ++ done :: rest) →
      (∀ m ∈ ms, m.IsData seq portid) → done.IsDone seq portid → Dump seq portid (data :: more) ms
  | more (data : List UInt8) (l : List (List UInt8)) (ms ms' : List NlMsg) : messages data = some ms → ms ≠ [] →
      (∀ m ∈ ms, m.IsData seq portid) → Dump seq portid l ms' → Dump seq portid (data :: l) (ms ++ ms')

/-- `Interrupted seq portid datagrams ms`: the datagrams received are a dump that is marked as interrupted (NLM_F_DUMP_INTR is 16)
after the data messages `ms`. -/
inductive Interrupted (seq portid : Nat) : List (List UInt8) → List NlMsg → Prop
  | last (data : List UInt8) (more : List (List UInt8)) (ms rest : List NlMsg) (m : NlMsg) : messages data = some (ms ++ m :: rest) →
      (∀ m ∈ ms, m.IsData seq portid) → m.flags.testBit 4 = true → m.seq = seq → m.portid = portid → Interrupted seq portid (data :: more) ms
  | more (data : List UInt8) (l : List (List UInt8)) (ms ms' : List NlMsg) : messages data = some ms → ms ≠ [] →
      (∀ m ∈ ms, m.IsData seq portid) → Interrupted seq portid l ms' → Interrupted seq portid (data :: l) (ms ++ ms')

/-! ### Arbitrary bytes -/

/-- The length field of the message header at `h`. -/
def msgLen (bs : List UInt8) (h : Nat) : Nat := le ((bs.drop h).take 4)

/-- The length field of the attribute at `a`. -/
def attrLen (bs : List UInt8) (a : Nat) : Nat := le ((bs.drop a).take 2)

/-- `HeaderAt bs h`: `h` is 0, or the aligned end of a message of `bs` that begins at such a place. -/
inductive HeaderAt (bs : List UInt8) : Nat → Prop
  | first : HeaderAt bs 0
  | next (h : Nat) : HeaderAt bs h → 16 ≤ msgLen bs h → h + msgLen bs h ≤ bs.length → HeaderAt bs (h + pad4 (msgLen bs h))

/-- `AttrAt bs a tail x`: `x` is `a`, or the aligned end of an attribute that begins at such a place and ends before `tail`. -/
inductive AttrAt (bs : List UInt8) (a tail : Nat) : Nat → Prop
  | first : AttrAt bs a tail a
  | next (x : Nat) : AttrAt bs a tail x → 4 ≤ attrLen bs x → x + attrLen bs x ≤ tail → AttrAt bs a tail (x + pad4 (attrLen bs x))

/-- The interface name attributes (type 2) of the messages in `bs` contain a NUL, as far as they are not empty. -/
def NamesTerminated (bs : List UInt8) : Prop :=
  ∀ h, HeaderAt bs h → ∀ x, AttrAt bs (h + 20) (h + pad4 (msgLen bs h)) x → x + attrLen bs x ≤ h + pad4 (msgLen bs h) →
    le ((bs.drop (x + 2)).take 2) % 0x4000 = 2 → 4 < attrLen bs x → (0 : UInt8) ∈ (bs.drop (x + 4)).take (attrLen bs x - 4)

end WG.Spec
