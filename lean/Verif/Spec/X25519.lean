import Mathlib.Data.ZMod.Basic
/-!
X25519 as defined in RFC 7748, section 5: the function on byte strings, over the integers modulo 2^255 - 19.
-/
namespace WG.Spec.X25519

/-- The modulus 2^255 - 19. -/
def p : ℕ := 2 ^ 255 - 19

/-- The field (as a ring: integers modulo `p`). -/
abbrev F := ZMod p

/-- `decodeLittleEndian`. -/
def decodeLE : List UInt8 → ℕ
  | [] => 0
  | b :: t => b.toNat + 256 * decodeLE t

/-- `decodeUCoordinate`: the most significant bit is ignored. -/
def decodeU (u : Vector UInt8 32) : F := ((decodeLE u.toList % 2 ^ 255 : ℕ) : F)

/-- `encodeUCoordinate`: the number below `p` in little-endian order. -/
def encodeU (x : F) : Vector UInt8 32 := Vector.ofFn fun i => UInt8.ofNat (x.val / 256 ^ i.val)

/-- `decodeScalar25519`: the three lowest bits are cleared, the highest bit is cleared, the second highest is set. -/
def decodeScalar (k : Vector UInt8 32) : ℕ := decodeLE k.toList % 2 ^ 254 / 8 * 8 + 2 ^ 254

/-- The variables of the loop. -/
structure St where
  x2 : F
  z2 : F
  x3 : F
  z3 : F
  swap : Bool

/-- `cswap`. -/
def cswap (b : Bool) (s : St) : St := if b then { s with x2 := s.x3, z2 := s.z3, x3 := s.x2, z3 := s.z2 } else s

/-- The body of the loop after the swap. -/
def formulas (x1 : F) (s : St) : St :=
  let A := s.x2 + s.z2
  let AA := A ^ 2
  let B := s.x2 - s.z2
  let BB := B ^ 2
  let E := AA - BB
  let C := s.x3 + s.z3
  let D := s.x3 - s.z3
  let DA := D * A
  let CB := C * B
  { s with x3 := (DA + CB) ^ 2, z3 := x1 * (DA - CB) ^ 2, x2 := AA * BB, z2 := E * (AA + 121665 * E) }

/-- The loop: for `t` from `n - 1` down to 0. -/
def loop (k : ℕ) (x1 : F) : ℕ → St → St
  | 0, s => s
  | t + 1, s =>
    let kt := k.testBit t
    loop k x1 t { formulas x1 (cswap (s.swap ^^ kt) s) with swap := kt }

/-- The function on numbers. -/
def mult (k : ℕ) (u : F) : F :=
  let s := loop k u 255 { x2 := 1, z2 := 0, x3 := u, z3 := 1, swap := false }
  let s := cswap s.swap s
  s.x2 * s.z2 ^ (p - 2)

/-- X25519(k, u). -/
def x25519 (k u : Vector UInt8 32) : Vector UInt8 32 := encodeU (mult (decodeScalar k) (decodeU u))

/-- The base point 9. -/
def basePoint : Vector UInt8 32 := Vector.ofFn fun i => if i.val = 0 then 9 else 0

end WG.Spec.X25519
