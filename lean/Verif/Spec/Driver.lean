import Verif.Spec.ConfigFile
/-!
What an interface does with a set operation, as documented for drivers: src/uapi/linux/linux/wireguard.h:72-129 (and, with
the same meaning, the cross-platform userspace protocol): flags and device attributes first, then the peers one after
another; removing a peer drops its allowed IPs; an allowed IP belongs to one peer only, adding it to another moves it.
-/
namespace WG.Spec

/-- One peer of a set operation. `none`: attribute absent. -/
structure PeerReq where
  key : Key
  remove : Bool := false
  replaceIPs : Bool := false
  psk : Option Key := none
  endpoint : Option Endpoint := none
  keepalive : Option UInt16 := none
  ips : List AllowedIP := []
deriving DecidableEq

/-- A set operation. -/
structure SetReq where
  privateKey : Option Key := none
  listenPort : Option UInt16 := none
  fwmark : Option UInt32 := none
  replacePeers : Bool := false
  peers : List PeerReq := []
deriving DecidableEq

/-- What a device structure with its flags asks for. -/
def requestOf (d : Device) : SetReq where
  privateKey := if d.flags.hasPrivateKey then some d.privateKey else none
  listenPort := if d.flags.hasListenPort then some d.listenPort else none
  fwmark := if d.flags.hasFwmark then some d.fwmark else none
  replacePeers := d.flags.replacePeers
  peers := d.peers.map fun p =>
    { key := p.publicKey, remove := p.flags.removeMe, replaceIPs := p.flags.replaceAllowedIPs
      psk := if p.flags.hasPresharedKey then some p.presharedKey else none
      endpoint := if p.endpoint = .unset then none else some p.endpoint
      keepalive := if p.flags.hasKeepalive then some p.keepalive else none
      ips := p.allowedIPs }

/-- Settings of a peer of an interface. -/
structure PeerState where
  psk : Key := zeroKey
  endpoint : Endpoint := .unset
  keepalive : UInt16 := 0
deriving DecidableEq

/-- The byte with only its `n` leading bits kept. -/
def keepBits (n : Nat) (b : UInt8) : UInt8 := UInt8.ofNat (b.toNat / 2 ^ (8 - n) * 2 ^ (8 - n))

/-- The network of an allowed IP: bits beyond the prefix cleared. -/
def network (a : AllowedIP) : AllowedIP :=
  { a with addr := match a.addr with
      | .v4 ip => .v4 (Vector.ofFn fun i : Fin 4 => keepBits (min 8 (a.cidr.toNat - 8 * i)) ip[i])
      | .v6 ip => .v6 (Vector.ofFn fun i : Fin 16 => keepBits (min 8 (a.cidr.toNat - 8 * i)) ip[i]) }

/-- State of an interface: its settings, its peers by public key, and the owner of each network. -/
structure Iface where
  privateKey : Key := zeroKey
  listenPort : UInt16 := 0
  fwmark : UInt32 := 0
  peers : Key → Option PeerState := fun _ => none
  owner : AllowedIP → Option Key := fun _ => none

/-- Networks owned by `k` become unowned. -/
def dropOwner (k : Key) (owner : AllowedIP → Option Key) : AllowedIP → Option Key :=
  fun n => if owner n = some k then none else owner n

/-- `k` gets the network of `a`, whoever had it. -/
def giveIP (k : Key) (owner : AllowedIP → Option Key) (a : AllowedIP) : AllowedIP → Option Key :=
  fun n => if n = network a then some k else owner n

/-- Apply one peer of a set operation. -/
def applyPeerReq (s : Iface) (r : PeerReq) : Iface :=
  if r.remove then
    { s with peers := fun k => if k = r.key then none else s.peers k, owner := dropOwner r.key s.owner }
  else
    let old := (s.peers r.key).getD {}
    let new : PeerState := { psk := r.psk.getD old.psk, endpoint := r.endpoint.getD old.endpoint, keepalive := r.keepalive.getD old.keepalive }
    { s with peers := fun k => if k = r.key then some new else s.peers k
             owner := r.ips.foldl (giveIP r.key) (if r.replaceIPs then dropOwner r.key s.owner else s.owner) }

/-- Apply the device part of a set operation. -/
def applyDevReq (s : Iface) (r : SetReq) : Iface where
  privateKey := r.privateKey.getD s.privateKey
  listenPort := r.listenPort.getD s.listenPort
  fwmark := r.fwmark.getD s.fwmark
  peers := if r.replacePeers then fun _ => none else s.peers
  owner := if r.replacePeers then fun _ => none else s.owner

/-- Apply a set operation. -/
def applyReq (s : Iface) (r : SetReq) : Iface := r.peers.foldl applyPeerReq (applyDevReq s r)

/-- Networks belong to existing peers. -/
def Iface.WF (s : Iface) : Prop := ∀ n k, s.owner n = some k → (s.peers k).isSome = true

end WG.Spec
