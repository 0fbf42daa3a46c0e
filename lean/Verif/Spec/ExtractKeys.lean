import Verif.Model.ExtractKeys
import Verif.Spec.Values
/-!
What is in the memory of the kernel: sockets, devices, peers in a ring, session keys; and what is to be shown of it.
-/
namespace WG.Spec.Sessions
open WG.ExtractKeys

/-- These bytes are in memory from this address on. -/
def Stored (env : ExtractKeys.Env) (addr : UInt64) (b : List UInt8) : Prop := ∀ i (h : i < b.length), env.mem (addr + UInt64.ofNat i) = some b[i]

/-- The bytes of a number, the least significant first. -/
def lowFirst : Nat → Nat → List UInt8
  | 0, _ => []
  | n + 1, x => UInt8.ofNat (x % 256) :: lowFirst n (x / 256)

/-- A pointer in memory. -/
def Pointer (env : ExtractKeys.Env) (addr value : UInt64) : Prop :=
  Stored env addr (if env.big then (lowFirst 8 value.toNat).reverse else lowFirst 8 value.toNat)

/-- The keys of a session, and the indices by which both sides name it. -/
structure Session where
  localIndex : UInt32
  remoteIndex : UInt32
  sending : Key
  receiving : Key

/-- The session is in memory; the kernel has the indices the least significant byte first on every machine. -/
structure SessionAt (env : ExtractKeys.Env) (addr : UInt64) (s : Session) : Prop where
  ne : addr ≠ 0
  localIndex : Stored env (addr + env.lay.keyLocal) (lowFirst 4 s.localIndex.toNat)
  remoteIndex : Stored env (addr + env.lay.keyRemote) (lowFirst 4 s.remoteIndex.toNat)
  sending : Stored env (addr + env.lay.keySending) s.sending.toList
  receiving : Stored env (addr + env.lay.keyReceiving) s.receiving.toList

/-- A pointer to a session, or a null pointer. -/
def SlotAt (env : ExtractKeys.Env) (addr : UInt64) : Option Session → Prop
  | none => Pointer env addr 0
  | some s => ∃ p, Pointer env addr p ∧ SessionAt env p s

structure Peer where
  current : Option Session
  previous : Option Session
  next : Option Session

/-- The peer is in memory: this is the address of its place in the list. -/
structure PeerAt (env : ExtractKeys.Env) (entry : UInt64) (p : Peer) : Prop where
  current : SlotAt env (entry + env.lay.peersPeer + env.lay.peerCurrent) p.current
  previous : SlotAt env (entry + env.lay.peersPeer + env.lay.peerPrevious) p.previous
  next : SlotAt env (entry + env.lay.peersPeer + env.lay.peerNext) p.next

/-- From the place `a` the list goes on with these peers and ends where it began, at `head`. -/
inductive RingFrom (env : ExtractKeys.Env) (head : UInt64) : UInt64 → List Peer → Prop
  | nil {a} : Pointer env a head → RingFrom env head a []
  | cons {a e p l} : Pointer env a e → e ≠ head → PeerAt env e p → RingFrom env head e l → RingFrom env head a (p :: l)

/-- A line of /proc/net/udp: what is before the address, the address of the socket, the number of drops, blanks. -/
structure SockLine where
  before : CStr
  addrText : CStr
  drops : CStr
  pad : Nat

def SockLine.text (s : SockLine) : CStr := s.before ++ b!" " ++ s.addrText ++ b!" " ++ s.drops ++ List.replicate s.pad 32 ++ [10]

structure SockLine.Proper (s : SockLine) (addr : UInt64) : Prop where
  before : ∀ c ∈ s.before, c ≠ 0 ∧ c ≠ 10
  addr : IsHexNum s.addrText addr.toNat
  drops : s.drops ≠ [] ∧ ∀ c ∈ s.drops, isDigit c = true
  length : s.text.length ≤ 255

/-- What is known of a socket: it is none of WireGuard's, or it is that of the device at this address with this name. -/
inductive SockIs (env : ExtractKeys.Env) (addr : UInt64) : Option (UInt64 × CStr) → Prop
  | hidden : addr = 0 → SockIs env addr none
  | other : addr ≠ 0 → Pointer env (addr + env.lay.sockDevice) 0 → SockIs env addr none
  | device {dev : UInt64} {name : CStr} {rest : List UInt8} : addr ≠ 0 → Pointer env (addr + env.lay.sockDevice) dev → dev ≠ 0 →
      (name ++ 0 :: rest).length = env.lay.ifnamsiz → (∀ c ∈ name, c ≠ 0) → Stored env (dev + env.lay.deviceName) (name ++ 0 :: rest) →
      SockIs env addr (some (dev, name))

/-- `n` digits. -/
def hexDigits : Nat → Nat → CStr
  | 0, _ => []
  | n + 1, x => hexDigits n (x / 16) ++ [hexAlphabet.getD (x % 16) 0]

/-- The keys of a session: those of received packets by the local index, those of sent packets by the remote one. -/
def Session.text (s : Session) : CStr :=
  b!"0x" ++ hexDigits 8 s.localIndex.toNat ++ b!" " ++ rfc4648 s.receiving.toList ++ b!"\n" ++
  b!"0x" ++ hexDigits 8 s.remoteIndex.toNat ++ b!" " ++ rfc4648 s.sending.toList ++ b!"\n"

def Peer.sessions (p : Peer) : List Session := p.current.toList ++ p.previous.toList ++ p.next.toList

end WG.Spec.Sessions
