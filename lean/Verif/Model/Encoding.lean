import Verif.Base.Bytes
/-! Model of src/encoding.c, bit for bit (`int` is `BitVec 32`). -/
namespace WG

/-- encoding.c:16-20, one output character of `encode_base64`; `i` is `input[i]` promoted to `int`. -/
def encChar (i : BitVec 32) : UInt8 :=
  toU8 (i + 65
    + ((asr (25 - i) 8) &&& 6)
    - ((asr (51 - i) 8) &&& 75)
    - ((asr (61 - i) 8) &&& 15)
    + ((asr (62 - i) 8) &&& 3))

/-- encoding.c:11-22 `encode_base64`: the four `input[]` values are `uint8_t`. -/
def encodeBase64 (s0 s1 s2 : UInt8) : List UInt8 :=
  let a := u8ToInt s0; let b := u8ToInt s1; let c := u8ToInt s2
  let input : List UInt8 :=
    [ toU8 ((a >>> 2) &&& 63),
      toU8 (((a <<< 4) ||| (b >>> 4)) &&& 63),
      toU8 (((b <<< 2) ||| (c >>> 6)) &&& 63),
      toU8 (c &&& 63) ]
  input.map fun i => encChar (u8ToInt i)

/-- encoding.c:24-33 `key_to_base64`; the result is the C string before the NUL written at index 44. -/
def keyToBase64 (k : Key) : CStr :=
  let g (i : Nat) : UInt8 := k.toList.getD i 0
  (((List.range 10).flatMap fun i => encodeBase64 (g (i * 3)) (g (i * 3 + 1)) (g (i * 3 + 2)))
    ++ encodeBase64 (g (10 * 3 + 0)) (g (10 * 3 + 1)) 0).set 43 61

/-- encoding.c:40-46, the value of one source character before the shift: its 6-bit value, or -1. -/
def decChar (sc : Bool) (ch : UInt8) : BitVec 32 :=
  let s := charToInt sc ch
  (-1)
    + ((asr ((65 - 1 - s) &&& (s - (90 + 1))) 8) &&& (s - 64))
    + ((asr ((97 - 1 - s) &&& (s - (122 + 1))) 8) &&& (s - 70))
    + ((asr ((48 - 1 - s) &&& (s - (57 + 1))) 8) &&& (s + 5))
    + ((asr ((43 - 1 - s) &&& (s - (43 + 1))) 8) &&& 63)
    + ((asr ((47 - 1 - s) &&& (s - (47 + 1))) 8) &&& 64)

/-- encoding.c:35-48 `decode_base64`. The left shift of a negative `int` (an invalid character) is
undefined in ISO C and two's complement in GCC/Clang, which is what is modelled; `decodeBase64UB`
records when the strict standard gives no meaning. -/
def decodeBase64 (sc : Bool) (c0 c1 c2 c3 : UInt8) : BitVec 32 :=
  (((0#32 ||| (decChar sc c0 <<< 18)) ||| (decChar sc c1 <<< 12)) ||| (decChar sc c2 <<< 6)) ||| (decChar sc c3 <<< 0)

/-- encoding.c:46: ISO C leaves `negative << n` undefined. -/
def decodeBase64UB (sc : Bool) (c0 c1 c2 c3 : UInt8) : Bool :=
  (decChar sc c0).msb || (decChar sc c1).msb || (decChar sc c2).msb || (decChar sc c3).msb

/-- encoding.c:50-72 `key_from_base64`. `none` is `return false` (every caller then discards or clears the
buffer: config.c:109-113, pubkey.c:42-45, so its content after a failure is not modelled).
`val 10` is the last, partial group (line 66). -/
def keyFromBase64 (sc : Bool) (s : CStr) : Option Key :=
  let g (i : Nat) : UInt8 := s.getD i 0
  if s.length ≠ 44 || g 43 ≠ 61 then none
  else
    let val (i : Nat) : BitVec 32 :=
      if i < 10 then decodeBase64 sc (g (i * 4)) (g (i * 4 + 1)) (g (i * 4 + 2)) (g (i * 4 + 3))
      else decodeBase64 sc (g (i * 4)) (g (i * 4 + 1)) (g (i * 4 + 2)) 65
    let ret : UInt8 := (List.range 10).foldl (fun r i => r ||| toU8 (val i >>> 31)) 0
    let ret : UInt8 := ret ||| toU8 ((val 10 >>> 31) ||| (val 10 &&& 0xff))
    let key : Key := Vector.ofFn fun j : Fin 32 => toU8 ((asr (val (j / 3)) (16 - 8 * (j % 3))) &&& 0xff)
    if (1 &&& asr (u8ToInt ret - 1) 8) ≠ 0 then some key else none

/-- encoding.c:79-80, one hex digit; arithmetic on `unsigned int`. -/
def hexDigit (n : BitVec 32) : UInt8 :=
  toU8 (87 + n + (((n - 10) >>> 8) &&& ~~~38))

/-- encoding.c:74-83 `key_to_hex`. -/
def keyToHex (k : Key) : CStr :=
  k.toList.flatMap fun b => [hexDigit (u8ToInt b >>> 4), hexDigit (u8ToInt b &&& 0xf)]

/-- encoding.c:94-100 (and 103-109): one hex character gives its contribution to `ret` and `c_val`. -/
def hexVal (c : UInt8) : UInt8 × UInt8 :=
  let ci := u8ToInt c
  let cNum : UInt8 := toU8 (ci ^^^ 48)
  let cNum0 : UInt8 := toU8 ((u8ToInt cNum - 10) >>> 8)
  let cAlpha : UInt8 := toU8 ((ci &&& ~~~32) - 55)
  let cAlpha0 : UInt8 := toU8 (((u8ToInt cAlpha - 10) ^^^ (u8ToInt cAlpha - 16)) >>> 8)
  (toU8 (asr (u8ToInt (cNum0 ||| cAlpha0) - 1) 8), (cNum0 &&& cNum) ||| (cAlpha0 &&& cAlpha))

/-- encoding.c:85-114 `key_from_hex`. -/
def keyFromHex (s : CStr) : Option Key :=
  let g (i : Nat) : UInt8 := s.getD i 0
  if s.length ≠ 64 then none
  else
    let ret : UInt8 := (List.range 32).foldl
      (fun r i => (r ||| (hexVal (g (2 * i))).1) ||| (hexVal (g (2 * i + 1))).1) 0
    let key : Key := Vector.ofFn fun j : Fin 32 =>
      let cAcc : UInt8 := toU8 (u8ToInt (hexVal (g (2 * j))).2 * 16)
      cAcc ||| (hexVal (g (2 * j + 1))).2
    if (1 &&& asr (u8ToInt ret - 1) 8) ≠ 0 then some key else none

/-- encoding.c:116-125 `key_is_zero`. -/
def keyIsZero (k : Key) : Bool :=
  let acc : UInt8 := k.toList.foldl (fun a b => a ||| b) 0
  (1 &&& asr (u8ToInt acc - 1) 8) ≠ 0

end WG
