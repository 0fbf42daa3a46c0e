import Verif.Spec.Driver
import Verif.Spec.Show
/-! What it means that `showconf` output reproduces an interface (C38). -/
namespace WG.Spec

/-- The settings of a peer as a set request would give them afresh. -/
def Peer.asRequest (p : Peer) : Peer where
  publicKey := p.publicKey
  presharedKey := if p.flags.hasPresharedKey then p.presharedKey else zeroKey
  endpoint := p.endpoint
  keepalive := p.keepalive
  allowedIPs := p.allowedIPs
  flags := { replaceAllowedIPs := true, hasPublicKey := true, hasPresharedKey := p.flags.hasPresharedKey, hasKeepalive := p.keepalive ≠ 0 }

/-- The request that sets everything `d` reports: private key (none: all zero), port, mark, and exactly its peers. -/
def Device.asRequest (d : Device) : Device where
  listenPort := d.listenPort
  fwmark := d.fwmark
  privateKey := if d.flags.hasPrivateKey then d.privateKey else zeroKey
  flags := { replacePeers := true, hasListenPort := true, hasFwmark := true, hasPrivateKey := true }
  peers := d.peers.map Peer.asRequest

/-- `d` is a faithful report of the interface `s`: settings, exactly its peers (each once) with their settings, and exactly
their networks; a preshared key or private key of zeros is reported as absent. -/
structure Reports (d : Device) (s : Iface) : Prop where
  port : d.listenPort = s.listenPort
  mark : d.fwmark = s.fwmark
  priv : (if d.flags.hasPrivateKey then d.privateKey else zeroKey) = s.privateKey
  keys : (d.peers.map (·.publicKey)).Nodup
  peer : ∀ p ∈ d.peers, s.peers p.publicKey =
    some { psk := if p.flags.hasPresharedKey then p.presharedKey else zeroKey, endpoint := p.endpoint, keepalive := p.keepalive }
  none : ∀ k, k ∉ d.peers.map (·.publicKey) → s.peers k = .none
  owner : ∀ n k, s.owner n = some k ↔ ∃ p ∈ d.peers, p.publicKey = k ∧ n ∈ p.allowedIPs
  net : ∀ p ∈ d.peers, ∀ a ∈ p.allowedIPs, network a = a

/-- A text without white space, `#` and NUL. -/
def Bare (s : List UInt8) : Prop := ∀ c ∈ s, isSpace c = false ∧ c ≠ c!"#" ∧ c ≠ 0

/-- The system reads its own address texts. `addrText`: how it prints addresses. -/
structure ReadsBack (addrText : Addr → List UInt8) (pton4 : List UInt8 → Option IP4) (pton6 : List UInt8 → Option IP6)
    (portOf : List UInt8 → Option UInt16) : Prop where
  addr : ∀ a, Bare (addrText a) ∧ c!"/" ∉ addrText a ∧ c!"," ∉ addrText a ∧ IsAddr pton4 pton6 (addrText a) a
  port : ∀ p : UInt16, portOf (decimal p.toNat) = some p

/-- The system prints `e` as host and service texts (in the usual form `host:port`, with brackets if the host of an IPv6
address has colons) that resolve to `e` again. -/
def EndpointReadsBack (nameinfo : Endpoint → Option (List UInt8 × List UInt8)) (resolves : List UInt8 → List UInt8 → Endpoint → Prop)
    (e : Endpoint) : Prop :=
  ∃ h s, nameinfo e = some (h, s) ∧ Bare h ∧ Bare s ∧ s ≠ [] ∧ c!":" ∉ s ∧ c!"]" ∉ h ∧ h.head? ≠ some c!"[" ∧
    ((∃ a p, e = .in4 a p) → c!":" ∉ h) ∧ resolves h s e

end WG.Spec
