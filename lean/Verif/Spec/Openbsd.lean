import Verif.Spec.Netlink
import Verif.Spec.IpcList
import Verif.Spec.Showconf
/-!
What the OpenBSD kernel exchanges with the tool: the structures of src/uapi/openbsd/net/if_wg.h, read from bytes by their offsets (64-bit little endian).
-/
namespace WG.Spec.Obsd

/-- The `n` bytes at offset `i`. -/
def field (m : List UInt8) (i n : Nat) : List UInt8 := (m.drop i).take n

/-- The number of `n` bytes at offset `i`. -/
def number (m : List UInt8) (i n : Nat) : Nat := le (field m i n)

/-- A signed number of 64 bits. -/
def signed64 (n : Nat) : Int := if n < 2 ^ 63 then n else (n : Int) - 2 ^ 64

/-- A peer as exchanged; `none`: its flag bit is not set. -/
structure IoPeer where
  key : Option Key := none
  psk : Option Key := none
  keepalive : Option UInt16 := none
  endpoint : Option Endpoint := none
  replaceIPs : Bool := false
  remove : Bool := false
  tx : Nat := 0
  rx : Nat := 0
  sec : Int := 0
  nsec : Int := 0
  ips : List AllowedIP := []
deriving DecidableEq

/-- An interface as exchanged. -/
structure IoIface where
  publicKey : Option Key := none
  privateKey : Option Key := none
  port : Option UInt16 := none
  rtable : Option UInt32 := none
  replacePeers : Bool := false
  peers : List IoPeer := []
deriving DecidableEq

/-- Something that is there if its flag is set. -/
def flagged {α : Type} (b : Bool) (x : Option α) : Option (Option α) := if b then x.map some else some none

/-- `struct wg_aip_io`, 24 bytes: family at 0, prefix length at 4, address at 8. -/
def readAip (m : List UInt8) : Option AllowedIP :=
  let cidr := number m 4 4
  if number m 0 1 = 2 ∧ cidr ≤ 32 then (bytes? 4 (field m 8 4)).map fun a => ⟨.v4 a, UInt8.ofNat cidr⟩
  else if number m 0 1 = 24 ∧ cidr ≤ 128 then (bytes? 16 (field m 8 16)).map fun a => ⟨.v6 a, UInt8.ofNat cidr⟩
  else none

/-- `n` of them, and the bytes behind. -/
def readAips : Nat → List UInt8 → Option (List AllowedIP × List UInt8)
  | 0, m => some ([], m)
  | n + 1, m =>
    if m.length < 24 then none
    else (readAip (m.take 24)).bind fun a => (readAips n (m.drop 24)).map fun r => (a :: r.1, r.2)

/-- A BSD socket address: its length at 0, the family at 1 (AF_INET 2, AF_INET6 24), the port at 2 in network order, then for IPv4 the address at 4, for IPv6 flow information at 4, the
address at 8, the scope at 24. -/
def readBsdSockaddr (m : List UInt8) : Option Endpoint :=
  if number m 0 1 = 16 ∧ number m 1 1 = 2 then (bytes? 4 (field m 4 4)).map fun a => .in4 a (bePort (field m 2 2))
  else if number m 0 1 = 28 ∧ number m 1 1 = 24 then
    (bytes? 16 (field m 8 16)).map fun a => .in6 a (bePort (field m 2 2)) (UInt32.ofNat (number m 4 4)) (UInt32.ofNat (number m 24 4))
  else none

/-- `struct wg_peer_io`, 144 bytes and the allowed IPs; the bytes behind. -/
def readPeer (m : List UInt8) : Option (IoPeer × List UInt8) :=
  if m.length < 144 then none else
  let fl := number m 0 4
  (flagged (fl.testBit 0) (bytes? 32 (field m 8 32))).bind fun key =>
  (flagged (fl.testBit 1) (bytes? 32 (field m 40 32))).bind fun psk =>
  (flagged (fl.testBit 2) (some (UInt16.ofNat (number m 72 2)))).bind fun ka =>
  (flagged (fl.testBit 3) (readBsdSockaddr (field m 76 28))).bind fun ep =>
  (readAips (number m 136 8) (m.drop 144)).map fun r =>
    ({ key := key, psk := psk, keepalive := ka, endpoint := ep, replaceIPs := fl.testBit 4, remove := fl.testBit 5, tx := number m 104 8, rx := number m 112 8
       sec := signed64 (number m 120 8), nsec := signed64 (number m 128 8), ips := r.1 }, r.2)

/-- `n` peers, and the bytes behind. -/
def readPeers : Nat → List UInt8 → Option (List IoPeer × List UInt8)
  | 0, m => some ([], m)
  | n + 1, m => (readPeer m).bind fun p => (readPeers n p.2).map fun r => (p.1 :: r.1, r.2)

/-- `struct wg_interface_io`, 80 bytes and the peers, with nothing behind. -/
def readIface (m : List UInt8) : Option IoIface :=
  if m.length < 80 then none else
  let fl := number m 0 1
  (flagged (fl.testBit 0) (bytes? 32 (field m 8 32))).bind fun pub =>
  (flagged (fl.testBit 1) (bytes? 32 (field m 40 32))).bind fun priv =>
  (flagged (fl.testBit 2) (some (UInt16.ofNat (number m 2 2)))).bind fun port =>
  (flagged (fl.testBit 3) (some (UInt32.ofNat (number m 4 4)))).bind fun rtable =>
  (readPeers (number m 72 8) (m.drop 80)).bind fun r =>
  if r.2 ≠ [] then none else
    some { publicKey := pub, privateKey := priv, port := port, rtable := rtable, replacePeers := fl.testBit 4, peers := r.1 }

/-- The request in an exchanged structure: every peer is named by its key. The routing table takes the place of the mark. -/
def IoPeer.request (p : IoPeer) : Option PeerReq :=
  p.key.map fun k => { key := k, remove := p.remove, replaceIPs := p.replaceIPs, psk := p.psk, endpoint := p.endpoint, keepalive := p.keepalive, ips := p.ips }

/-- The request in an exchanged structure. -/
def IoIface.request (i : IoIface) : Option SetReq :=
  (i.peers.mapM IoPeer.request).map fun l => { privateKey := i.privateKey, listenPort := i.port, fwmark := i.rtable, replacePeers := i.replacePeers, peers := l }

/-- `name` in a field of 16 bytes. -/
def nameField (name : List UInt8) : List UInt8 := name ++ List.replicate (16 - name.length) 0

/-- How the kernel answers SIOCGWG when the k-th call finds the interface described by `image k`: with the size of the image, and the image if it fits. -/
def answers (image : Nat → List UInt8) (k size : Nat) : Nat × List UInt8 := ((image k).length, if (image k).length ≤ size then image k else [])

/-- What is to be shown for a peer. A preshared key of zeros is none. -/
def IoPeer.shown (p : IoPeer) : Peer where
  flags := { hasPublicKey := p.key.isSome, hasPresharedKey := p.psk.any (· ≠ zeroKey), hasKeepalive := p.keepalive.isSome }
  publicKey := p.key.getD zeroKey
  presharedKey := p.psk.getD zeroKey
  keepalive := p.keepalive.getD 0
  endpoint := p.endpoint.getD .unset
  rx := p.rx
  tx := p.tx
  handshakeSec := p.sec
  handshakeNsec := p.nsec
  allowedIPs := p.ips

/-- What is to be shown for an interface. -/
def IoIface.shown (name : List UInt8) (i : IoIface) : Device where
  name := name
  flags := { hasFwmark := i.rtable.isSome, hasListenPort := i.port.isSome, hasPublicKey := i.publicKey.isSome, hasPrivateKey := i.privateKey.isSome }
  fwmark := i.rtable.getD 0
  listenPort := i.port.getD 0
  publicKey := i.publicKey.getD zeroKey
  privateKey := i.privateKey.getD zeroKey
  peers := i.peers.map IoPeer.shown

/-- An IPv6 endpoint. -/
def IoPeer.HasV6 (p : IoPeer) : Prop := ∃ a q fl sc, p.endpoint = some (.in6 a q fl sc)

/-- `i` describes an interface in the state `s`. -/
structure Describes (i : IoIface) (s : Iface) : Prop where
  port : i.port.getD 0 = s.listenPort
  mark : i.rtable.getD 0 = s.fwmark
  priv : i.privateKey.getD zeroKey = s.privateKey
  named : ∀ p ∈ i.peers, p.key.isSome = true
  keys : (i.peers.map (·.key)).Nodup
  peer : ∀ p ∈ i.peers, ∀ k, p.key = some k → s.peers k = some { psk := p.psk.getD zeroKey, endpoint := p.endpoint.getD .unset, keepalive := p.keepalive.getD 0 }
  none : ∀ k, some k ∉ i.peers.map (·.key) → s.peers k = .none
  owner : ∀ n k, s.owner n = some k ↔ ∃ p ∈ i.peers, p.key = some k ∧ n ∈ p.ips
  net : ∀ p ∈ i.peers, ∀ a ∈ p.ips, network a = a

end WG.Spec.Obsd
