import Verif.Base.Bytes
/-!
Independent specifications of base64 (RFC 4648 section 4), hexadecimal and ASCII character classes.
No C bit tricks: table lookups and natural-number arithmetic only.
-/
namespace WG.Spec

/-- RFC 4648 Table 1: the base64 alphabet. -/
def b64Alphabet : List UInt8 :=
  b!"ABCDEFGHIJKLMNOPQRSTUVWXYZabcdefghijklmnopqrstuvwxyz0123456789+/"

/-- The alphabet character of a 6-bit value. -/
def b64Char (n : Nat) : UInt8 := b64Alphabet.getD n 0

/-- RFC 4648 section 4: 24-bit groups, most significant bits first; the final short group is padded with
zero bits to a whole number of characters and with `=` to four characters. -/
def rfc4648 : List UInt8 → List UInt8
  | a :: b :: c :: r =>
    let n := a.toNat * 65536 + b.toNat * 256 + c.toNat
    b64Char (n / 262144) :: b64Char (n / 4096 % 64) :: b64Char (n / 64 % 64) :: b64Char (n % 64) :: rfc4648 r
  | [a, b] =>
    let n := (a.toNat * 256 + b.toNat) * 4
    [b64Char (n / 4096), b64Char (n / 64 % 64), b64Char (n % 64), c!"="]
  | [a] =>
    let n := a.toNat * 16
    [b64Char (n / 64), b64Char (n % 64), c!"=", c!"="]
  | [] => []

/-- Lowercase hexadecimal digits. -/
def hexAlphabet : List UInt8 := b!"0123456789abcdef"

/-- Two lowercase hex digits per byte, high digit first. -/
def hexString (l : List UInt8) : List UInt8 :=
  l.flatMap fun b => [hexAlphabet.getD (b.toNat / 16) 0, hexAlphabet.getD (b.toNat % 16) 0]

/-- ASCII lower-casing of one byte. -/
def lower (c : UInt8) : UInt8 := if 65 ≤ c ∧ c ≤ 90 then c + 32 else c

/-- ASCII white space: HT, LF, VT, FF, CR, space. -/
def isSpace (c : UInt8) : Bool := (9 ≤ c ∧ c ≤ 13) ∨ c = 32
/-- ASCII decimal digits. -/
def isDigit (c : UInt8) : Bool := 48 ≤ c ∧ c ≤ 57
/-- ASCII letters. -/
def isAlpha (c : UInt8) : Bool := (65 ≤ c ∧ c ≤ 90) ∨ (97 ≤ c ∧ c ≤ 122)

end WG.Spec
