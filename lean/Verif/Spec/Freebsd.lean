import Verif.Model.IpcFreebsd
import Verif.Spec.Openbsd
/-!
What the FreeBSD kernel exchanges with the tool: name-value lists, read by name. The results are those of Spec/Openbsd (`IoIface`: what is exchanged; `rtable` is the mark, here the
"user-cookie").
-/
namespace WG.Spec.Fbsd
open WG.Fbsd Spec.Obsd

/-- An optional element: absent, or present and readable. -/
def opt {α : Type} (l : NvList) (name : CStr) (read : Nv → Option α) : Option (Option α) :=
  match l.lookup name with
  | none => some none
  | some v => (read v).map some

/-- The kinds of values: `n` bytes, a number below a bound, a flag, an array of lists. -/
def asBytes (n : Nat) : Nv → Option (Vector UInt8 n)
  | .bin b => bytes? n b
  | _ => none
def asNum (bound : Nat) : Nv → Option Nat
  | .num n => if n < bound then some n else none
  | _ => none
def asFlag : Nv → Option Bool
  | .flag b => some b
  | _ => none
def asLists : Nv → Option (List NvList)
  | .lists l => some l
  | _ => none

/-- No name twice. -/
def unique (l : NvList) : Bool := decide (l.map (·.1)).Nodup

/-- An allowed IP: a prefix length, and one address of either family. -/
def nvAip (l : NvList) : Option AllowedIP :=
  if ¬ unique l then none else
  (opt l b!"cidr" (asNum (2 ^ 64))).bind fun cidr =>
  (opt l b!"ipv4" (asBytes 4)).bind fun a4 =>
  (opt l b!"ipv6" (asBytes 16)).bind fun a6 =>
  match cidr, a4, a6 with
  | some n, some a, none => if n ≤ 32 then some ⟨.v4 a, UInt8.ofNat n⟩ else none
  | some n, none, some a => if n ≤ 128 then some ⟨.v6 a, UInt8.ofNat n⟩ else none
  | _, _, _ => none

/-- A BSD socket address of exactly its length: the length at 0, the family at 1 (AF_INET 2, AF_INET6 28), the port at 2 in network order, then for IPv4 the address at 4, for IPv6 flow
information at 4, the address at 8, the scope at 24. -/
def nvSockaddr (m : List UInt8) : Option Endpoint :=
  if m.length = 16 ∧ number m 0 1 = 16 ∧ number m 1 1 = 2 then (bytes? 4 (field m 4 4)).map fun a => .in4 a (bePort (field m 2 2))
  else if m.length = 28 ∧ number m 0 1 = 28 ∧ number m 1 1 = 28 then
    (bytes? 16 (field m 8 16)).map fun a => .in6 a (bePort (field m 2 2)) (UInt32.ofNat (number m 4 4)) (UInt32.ofNat (number m 24 4))
  else none
def asSockaddr : Nv → Option Endpoint
  | .bin b => nvSockaddr b
  | _ => none

/-- A time: seconds and nanoseconds, 64 bits each. -/
def asTime : Nv → Option (Int × Int)
  | .bin b => if b.length = 16 then some (signed64 (number b 0 8), signed64 (number b 8 8)) else none
  | _ => none

/-- A peer. -/
def nvPeer (l : NvList) : Option IoPeer :=
  if ¬ unique l then none else
  (opt l b!"public-key" (asBytes 32)).bind fun key =>
  (opt l b!"preshared-key" (asBytes 32)).bind fun psk =>
  (opt l b!"persistent-keepalive-interval" (asNum (2 ^ 16))).bind fun ka =>
  (opt l b!"endpoint" asSockaddr).bind fun ep =>
  (opt l b!"replace-allowedips" asFlag).bind fun rep =>
  (opt l b!"remove" asFlag).bind fun rem =>
  (opt l b!"rx-bytes" (asNum (2 ^ 64))).bind fun rx =>
  (opt l b!"tx-bytes" (asNum (2 ^ 64))).bind fun tx =>
  (opt l b!"last-handshake-time" asTime).bind fun hs =>
  (opt l b!"allowed-ips" asLists).bind fun ls =>
  ((ls.getD []).mapM nvAip).map fun ips =>
    { key := key, psk := psk, keepalive := ka.map UInt16.ofNat, endpoint := ep, replaceIPs := rep.getD false, remove := rem.getD false, tx := tx.getD 0, rx := rx.getD 0
      sec := (hs.getD (0, 0)).1, nsec := (hs.getD (0, 0)).2, ips := ips }

/-- An interface. -/
def nvIface (l : NvList) : Option IoIface :=
  if ¬ unique l then none else
  (opt l b!"public-key" (asBytes 32)).bind fun pub =>
  (opt l b!"private-key" (asBytes 32)).bind fun priv =>
  (opt l b!"listen-port" (asNum (2 ^ 16))).bind fun port =>
  (opt l b!"user-cookie" (asNum (2 ^ 32))).bind fun mark =>
  (opt l b!"replace-peers" asFlag).bind fun rep =>
  (opt l b!"peers" asLists).bind fun ls =>
  ((ls.getD []).mapM nvPeer).map fun peers =>
    { publicKey := pub, privateKey := priv, port := port.map UInt16.ofNat, rtable := mark.map UInt32.ofNat, replacePeers := rep.getD false, peers := peers }

end WG.Spec.Fbsd
