import Mathlib.Data.List.Forall2
import Verif.Spec.Values
import Verif.Model.Types
/-! Specification of AllowedIPs values, host bits, endpoint splitting and key files (uses only the data types of
`Model.Types`). `pton4`/`pton6` stand for the system's address parser. -/
namespace WG.Spec

/-- Bytes of an address in network order. -/
def addrBytes : Addr → List UInt8
  | .v4 a => a.toList
  | .v6 a => a.toList

/-- Address length in bits. -/
def addrBits : Addr → Nat
  | .v4 _ => 32
  | .v6 _ => 128

/-- Text `ip` denotes the address `a`: IPv6 iff it contains a colon. -/
def IsAddr (pton4 : List UInt8 → Option IP4) (pton6 : List UInt8 → Option IP6) (ip : List UInt8) (a : Addr) : Prop :=
  (c!":" ∈ ip ∧ ∃ x, pton6 ip = some x ∧ a = .v6 x) ∨ (c!":" ∉ ip ∧ ∃ x, pton4 ip = some x ∧ a = .v4 x)

/-- One AllowedIPs entry `ip[/prefixlength]`. -/
def IsAllowedIP (pton4 : List UInt8 → Option IP4) (pton6 : List UInt8 → Option IP6) (e : List UInt8) (a : AllowedIP) : Prop :=
  ∃ ip, c!"/" ∉ ip ∧ IsAddr pton4 pton6 ip a.addr ∧
    ((e = ip ∧ a.cidr.toNat = addrBits a.addr) ∨
     ∃ m n, e = ip ++ c!"/" :: m ∧ IsDecimal m n ∧ n ≤ addrBits a.addr ∧ a.cidr.toNat = n)

/-- Pieces joined by commas. -/
def commaJoin : List (List UInt8) → List UInt8
  | [] => []
  | [e] => e
  | e :: es => e ++ c!"," :: commaJoin es

/-- A whole AllowedIPs value: empty, or comma-separated entries. -/
def IsAllowedIPs (pton4 : List UInt8 → Option IP4) (pton6 : List UInt8 → Option IP6) (v : List UInt8) (as : List AllowedIP) : Prop :=
  (v = [] ∧ as = []) ∨
  (v ≠ [] ∧ ∃ es, es ≠ [] ∧ (∀ e ∈ es, c!"," ∉ e) ∧ v = commaJoin es ∧ List.Forall₂ (IsAllowedIP pton4 pton6) es as)

/-- Bit `i` of an address, bit 0 the most significant. -/
def addrBit (a : Addr) (i : Nat) : Bool := ((addrBytes a).getD (i / 8) 0).toNat.testBit (7 - i % 8)

/-- Some address bit beyond the prefix is set. -/
def HasHostBits (a : AllowedIP) : Prop := ∃ i, a.cidr.toNat ≤ i ∧ i < addrBits a.addr ∧ addrBit a.addr i = true

/-- An endpoint text splits into host and port: `[host]:port`, or split at the last colon; the port is nonempty. -/
def IsEndpointText (v host port : List UInt8) : Prop :=
  port ≠ [] ∧
  ((v = c!"[" :: host ++ c!"]" :: c!":" :: port ∧ c!"]" ∉ host) ∨
   (v.head? ≠ some c!"[" ∧ v = host ++ c!":" :: port ∧ c!":" ∉ port))

end WG.Spec
namespace WG.Spec

/-- The waits (microseconds) between name-resolution attempts: 1 s, then each a fifth longer, at most 20 s. -/
def wait : Nat → Nat
  | 0 => 1000000
  | i + 1 => min 20000000 (wait i * 6 / 5)

end WG.Spec
