import Verif.Model.Encoding
import Verif.Model.Ctype
/-! Model of src/containers.h. Singly linked lists are Lean lists in list order (`first_*` is the head);
the node-level heap is modelled separately in `Model/Heap.lean`. -/
namespace WG

/-- `struct in_addr` / `struct in6_addr`: the address bytes in network order. -/
abbrev IP4 := Vector UInt8 4
abbrev IP6 := Vector UInt8 16

/-- The family tag and address of a `struct wgallowedip` (containers.h:33-40). -/
inductive Addr where
  | v4 (a : IP4)
  | v6 (a : IP6)
deriving DecidableEq, Repr

/-- containers.h:33-40 `struct wgallowedip` (without the list link). -/
structure AllowedIP where
  addr : Addr
  cidr : UInt8
deriving DecidableEq, Repr

/-- containers.h:56-60 the endpoint union. `unset` is `sa_family` neither AF_INET nor AF_INET6.
Ports are in host order, as the tool only uses them through ntohs/getnameinfo. -/
inductive Endpoint where
  | unset
  | in4 (a : IP4) (port : UInt16)
  | in6 (a : IP6) (port : UInt16) (flowinfo scope : UInt32)
deriving DecidableEq, Repr

/-- containers.h:42-48 the WGPEER_* flags, one Boolean per bit. -/
structure PeerFlags where
  removeMe : Bool := false
  replaceAllowedIPs : Bool := false
  hasPublicKey : Bool := false
  hasPresharedKey : Bool := false
  hasKeepalive : Bool := false
deriving DecidableEq, Repr

/-- containers.h:50-68 `struct wgpeer`; the defaults are what `calloc` gives. Handshake seconds and nanoseconds
are `int64_t` (as integers), byte counters `uint64_t` (as naturals). -/
structure Peer where
  flags : PeerFlags := {}
  publicKey : Key := zeroKey
  presharedKey : Key := zeroKey
  endpoint : Endpoint := .unset
  handshakeSec : Int := 0
  handshakeNsec : Int := 0
  rx : Nat := 0
  tx : Nat := 0
  keepalive : UInt16 := 0
  allowedIPs : List AllowedIP := []
deriving DecidableEq

/-- containers.h:70-76 the WGDEVICE_* flags. -/
structure DeviceFlags where
  replacePeers : Bool := false
  hasPrivateKey : Bool := false
  hasPublicKey : Bool := false
  hasListenPort : Bool := false
  hasFwmark : Bool := false
deriving DecidableEq, Repr

/-- containers.h:78-91 `struct wgdevice`; the defaults are what `calloc` gives. -/
structure Device where
  name : CStr := []
  ifindex : UInt32 := 0
  flags : DeviceFlags := {}
  publicKey : Key := zeroKey
  privateKey : Key := zeroKey
  fwmark : UInt32 := 0
  listenPort : UInt16 := 0
  peers : List Peer := []
deriving DecidableEq

end WG
