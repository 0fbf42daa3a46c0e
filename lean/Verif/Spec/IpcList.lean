import Verif.Spec.Netlink
/-! How the names of interfaces are stored and found, independent of the code. -/
namespace WG.Spec

/-- `first\0second\0last\0\0` (the comment above `ipc_list_devices`). -/
def nameBuffer (names : List (List UInt8)) : List UInt8 := names.flatMap (· ++ [0]) ++ [0]

/-- A C string that is a name: not empty, no NUL. -/
def IsName (s : List UInt8) : Prop := s ≠ [] ∧ (0 : UInt8) ∉ s

/-- Each name, and whether another one follows. -/
def withNext : List (List UInt8) → List (List UInt8 × Bool)
  | [] => []
  | [n] => [(n, false)]
  | n :: m :: l => (n, true) :: withNext (m :: l)

/-- A string attribute: not empty, ended by its only NUL. -/
def readString (bs : List UInt8) : Option (List UInt8) :=
  if bs.getLast? = some 0 ∧ (0 : UInt8) ∉ bs.dropLast ∧ bs.dropLast ≠ [] then some bs.dropLast else none

/-- What the kernel says about a network interface: its name, and the kind of it, if any. -/
structure Link where
  name : List UInt8
  kind : Option (List UInt8)
deriving DecidableEq

/-- rtnetlink(7) RTM_NEWLINK: the attributes behind `struct ifinfomsg` (16 bytes): name (IFLA_IFNAME, 3), and in the nest IFLA_LINKINFO (18) the
kind (IFLA_INFO_KIND, 1); others are allowed. -/
def readLink (body : List UInt8) : Option Link :=
  (attrsOnce (body.drop 16)).bind fun l =>
  ((attr? l 3).bind readString).bind fun name =>
  (optional (attr? l 18) fun d => (attrsOnce d).bind fun l => optional (attr? l 1) readString).map fun kind =>
    { name := name, kind := kind.join }

/-- The WireGuard interfaces of a dump of all interfaces. -/
def wgNames (links : List Link) : List (List UInt8) := (links.filter fun l => l.kind = some b!"wireguard").map (·.name)

/-- Where the socket of a userspace implementation is. -/
def socketPath (runstate name : List UInt8) : List UInt8 := runstate ++ b!"/wireguard/" ++ name ++ b!".sock"

/-- `NAME.sock`: NAME, not empty. -/
def sockName (file : List UInt8) : Option (List UInt8) :=
  if b!".sock" <:+ file ∧ file ≠ b!".sock" then some (file.take (file.length - 5)) else none

end WG.Spec
