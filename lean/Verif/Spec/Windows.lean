import Verif.Spec.Openbsd
/-!
What the WireGuardNT driver exchanges with the tool: the structures of src/uapi/windows/wireguard.h, read from bytes by their offsets (little endian).
-/
namespace WG.Spec.Win
open Obsd (field number flagged)

/-- A peer as exchanged; `none`: its flag bit is not set. -/
structure IoPeer where
  key : Option Key := none
  psk : Option Key := none
  keepalive : Option UInt16 := none
  endpoint : Option Endpoint := none
  replaceIPs : Bool := false
  remove : Bool := false
  tx : Nat := 0
  rx : Nat := 0
  /-- FILETIME: in units of 100 ns since 1601; 0: never. -/
  handshake : Nat := 0
  ips : List AllowedIP := []
deriving DecidableEq

/-- An interface as exchanged. -/
structure IoIface where
  publicKey : Option Key := none
  privateKey : Option Key := none
  port : Option UInt16 := none
  replacePeers : Bool := false
  peers : List IoPeer := []
deriving DecidableEq

/-- `WG_IOCTL_ALLOWED_IP`, 24 bytes: address at 0, family (AF_INET 2, AF_INET6 23) at 16, prefix length at 18. -/
def readAip (m : List UInt8) : Option AllowedIP :=
  let cidr := number m 18 1
  if number m 16 2 = 2 ∧ cidr ≤ 32 then (bytes? 4 (field m 0 4)).map fun a => ⟨.v4 a, UInt8.ofNat cidr⟩
  else if number m 16 2 = 23 ∧ cidr ≤ 128 then (bytes? 16 (field m 0 16)).map fun a => ⟨.v6 a, UInt8.ofNat cidr⟩
  else none

/-- `n` of them, and the bytes behind. -/
def readAips : Nat → List UInt8 → Option (List AllowedIP × List UInt8)
  | 0, m => some ([], m)
  | n + 1, m =>
    if m.length < 24 then none
    else (readAip (m.take 24)).bind fun a => (readAips n (m.drop 24)).map fun r => (a :: r.1, r.2)

/-- `SOCKADDR_INET`: the family at 0 (AF_INET 2, AF_INET6 23), the port at 2 in network order, then for IPv4 the address at 4, for IPv6 flow information at 4, the
address at 8, the scope at 24. -/
def readSockaddr (m : List UInt8) : Option Endpoint :=
  if number m 0 2 = 2 then (bytes? 4 (field m 4 4)).map fun a => .in4 a (bePort (field m 2 2))
  else if number m 0 2 = 23 then
    (bytes? 16 (field m 8 16)).map fun a => .in6 a (bePort (field m 2 2)) (UInt32.ofNat (number m 4 4)) (UInt32.ofNat (number m 24 4))
  else none

/-- `WG_IOCTL_PEER`, 136 bytes and the allowed IPs; the bytes behind. -/
def readPeer (m : List UInt8) : Option (IoPeer × List UInt8) :=
  if m.length < 136 then none else
  let fl := number m 0 4
  (flagged (fl.testBit 0) (bytes? 32 (field m 8 32))).bind fun key =>
  (flagged (fl.testBit 1) (bytes? 32 (field m 40 32))).bind fun psk =>
  (flagged (fl.testBit 2) (some (UInt16.ofNat (number m 72 2)))).bind fun ka =>
  (flagged (fl.testBit 3) (readSockaddr (field m 76 28))).bind fun ep =>
  (readAips (number m 128 4) (m.drop 136)).map fun r =>
    ({ key := key, psk := psk, keepalive := ka, endpoint := ep, replaceIPs := fl.testBit 5, remove := fl.testBit 6, tx := number m 104 8, rx := number m 112 8
       handshake := number m 120 8, ips := r.1 }, r.2)

/-- `n` peers, and the bytes behind. -/
def readPeers : Nat → List UInt8 → Option (List IoPeer × List UInt8)
  | 0, m => some ([], m)
  | n + 1, m => (readPeer m).bind fun p => (readPeers n p.2).map fun r => (p.1 :: r.1, r.2)

/-- `WG_IOCTL_INTERFACE`, 80 bytes and the peers, with nothing behind. -/
def readIface (m : List UInt8) : Option IoIface :=
  if m.length < 80 then none else
  let fl := number m 0 4
  (flagged (fl.testBit 0) (bytes? 32 (field m 38 32))).bind fun pub =>
  (flagged (fl.testBit 1) (bytes? 32 (field m 6 32))).bind fun priv =>
  (flagged (fl.testBit 2) (some (UInt16.ofNat (number m 4 2)))).bind fun port =>
  (readPeers (number m 72 4) (m.drop 80)).bind fun r =>
  if r.2 ≠ [] then none else
    some { publicKey := pub, privateKey := priv, port := port, replacePeers := fl.testBit 3, peers := r.1 }

/-- The request in an exchanged structure: every peer is named by its key. -/
def IoPeer.request (p : IoPeer) : Option PeerReq :=
  p.key.map fun k => { key := k, remove := p.remove, replaceIPs := p.replaceIPs, psk := p.psk, endpoint := p.endpoint, keepalive := p.keepalive, ips := p.ips }

/-- The request in an exchanged structure. There is no mark on Windows. -/
def IoIface.request (i : IoIface) : Option SetReq :=
  (i.peers.mapM IoPeer.request).map fun l => { privateKey := i.privateKey, listenPort := i.port, fwmark := none, replacePeers := i.replacePeers, peers := l }

/-- The size of the request for a configuration. -/
def requestSize (d : Device) : Nat := 80 + (d.peers.map fun p => 136 + 24 * p.allowedIPs.length).sum

/-- How the driver answers WG_IOCTL_GET when the k-th call finds the interface described by `image k`: with the image if it fits, otherwise with its size. -/
def answers (image : Nat → List UInt8) (k size : Nat) : Except Nat (List UInt8) := if (image k).length ≤ size then .ok (image k) else .error (image k).length

/-- What is to be shown for a peer. A preshared key of zeros is none; the time since 1970 (11644473600 seconds after 1601). -/
def IoPeer.shown (p : IoPeer) : Peer where
  flags := { hasPublicKey := p.key.isSome, hasPresharedKey := p.psk.any (· ≠ zeroKey), hasKeepalive := p.keepalive.isSome }
  publicKey := p.key.getD zeroKey
  presharedKey := p.psk.getD zeroKey
  keepalive := p.keepalive.getD 0
  endpoint := p.endpoint.getD .unset
  rx := p.rx
  tx := p.tx
  handshakeSec := if p.handshake = 0 then 0 else ((p.handshake / 10 ^ 7 : Nat) : Int) - 11644473600
  handshakeNsec := if p.handshake = 0 then 0 else ((p.handshake % 10 ^ 7 * 100 : Nat) : Int)
  allowedIPs := p.ips

/-- What is to be shown for an interface. -/
def IoIface.shown (name : List UInt8) (i : IoIface) : Device where
  name := name
  flags := { hasListenPort := i.port.isSome, hasPublicKey := i.publicKey.isSome, hasPrivateKey := i.privateKey.isSome }
  listenPort := i.port.getD 0
  publicKey := i.publicKey.getD zeroKey
  privateKey := i.privateKey.getD zeroKey
  peers := i.peers.map IoPeer.shown

/-- `i` describes an interface in the state `s`. -/
structure Describes (i : IoIface) (s : Iface) : Prop where
  port : i.port.getD 0 = s.listenPort
  mark : s.fwmark = 0
  priv : i.privateKey.getD zeroKey = s.privateKey
  named : ∀ p ∈ i.peers, p.key.isSome = true
  keys : (i.peers.map (·.key)).Nodup
  peer : ∀ p ∈ i.peers, ∀ k, p.key = some k → s.peers k = some { psk := p.psk.getD zeroKey, endpoint := p.endpoint.getD .unset, keepalive := p.keepalive.getD 0 }
  none : ∀ k, some k ∉ i.peers.map (·.key) → s.peers k = .none
  owner : ∀ n k, s.owner n = some k ↔ ∃ p ∈ i.peers, p.key = some k ∧ n ∈ p.ips
  net : ∀ p ∈ i.peers, ∀ a ∈ p.ips, network a = a

end WG.Spec.Win
