import Verif.Base.Bytes
/-! Model of src/ctype.h. -/
namespace WG

/-- ctype.h:13-17 `char_is_space`. `d` is an `unsigned char`, so only the low byte of `c - 9` matters;
the shifts are on `unsigned int` (shift counts are below 32). -/
def charIsSpace (c : BitVec 32) : Bool :=
  let d : BitVec 32 := (c - 9).setWidth 8 |>.setWidth 32
  (((0x80001F#32 >>> (d &&& 31).toNat) &&& (1#32 >>> (d >>> 5).toNat)) != 0)

/-- ctype.h:19-22 `char_is_digit`; `sizeof(c) * 8 - 1 = 31`. -/
def charIsDigit (c : BitVec 32) : Bool :=
  (((48 - 1 - c) &&& (c - (57 + 1))) >>> 31) != 0

/-- ctype.h:24-27 `char_is_alpha`. -/
def charIsAlpha (c : BitVec 32) : Bool :=
  (((97 - 1 - (c ||| 32)) &&& ((c ||| 32) - (122 + 1))) >>> 31) != 0

/-- `char_is_space(*p)` for a `char`, with char signed or not. -/
def isSpaceC (sc : Bool) (c : UInt8) : Bool := charIsSpace (charToInt sc c)
/-- `char_is_digit(*p)` for a `char`. -/
def isDigitC (sc : Bool) (c : UInt8) : Bool := charIsDigit (charToInt sc c)
/-- `char_is_alpha(*p)` for a `char`. -/
def isAlphaC (sc : Bool) (c : UInt8) : Bool := charIsAlpha (charToInt sc c)

end WG
