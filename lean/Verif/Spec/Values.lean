import Verif.Spec.Encoding
/-! Specification of the value syntaxes of configuration files and `wg set`, independent of the model. -/
namespace WG.Spec

/-- Value of a decimal numeral. -/
def decVal (s : List UInt8) : Nat := s.foldl (fun n c => 10 * n + (c.toNat - 48)) 0

/-- `s` is a decimal numeral (one or more digits, leading zeros allowed) of value `n`. -/
def IsDecimal (s : List UInt8) (n : Nat) : Prop := s ≠ [] ∧ (∀ c ∈ s, isDigit c = true) ∧ n = decVal s

/-- Is `c` a hexadecimal digit in either case? -/
def isHexDigit (c : UInt8) : Bool := isDigit c || (97 ≤ lower c && lower c ≤ 102)

/-- Value of a hexadecimal digit. -/
def hexDigitVal (c : UInt8) : Nat := if isDigit c then c.toNat - 48 else (lower c).toNat - 97 + 10

/-- Value of a hexadecimal numeral. -/
def hexNumVal (s : List UInt8) : Nat := s.foldl (fun n c => 16 * n + hexDigitVal c) 0

/-- `s` is a hexadecimal numeral (without prefix) of value `n`. -/
def IsHexNum (s : List UInt8) (n : Nat) : Prop := s ≠ [] ∧ (∀ c ∈ s, isHexDigit c = true) ∧ n = hexNumVal s

/-- `s` equals the (lowercase) word `w` ignoring letter case. -/
def EqNoCase (s w : List UInt8) : Prop := s.map lower = w

/-- The documented fwmark syntax: `off`, a decimal number or a `0x` hexadecimal number, at most 32 bits. -/
def IsFwmark (s : List UInt8) (n : Nat) : Prop :=
  (EqNoCase s b!"off" ∧ n = 0) ∨
  (n < 2 ^ 32 ∧ (IsDecimal s n ∨ ∃ h, s = b!"0x" ++ h ∧ IsHexNum h n))

/-- The documented keepalive syntax: `off` or a decimal number at most 65535. -/
def IsKeepalive (s : List UInt8) (n : Nat) : Prop :=
  (EqNoCase s b!"off" ∧ n = 0) ∨ (IsDecimal s n ∧ n ≤ 65535)

end WG.Spec
