import Verif.Model.EmbCurve
/-!
Model of contrib/keygen-html/wireguard.js ("js" below is that file): the keys that keygen.html shows.

JavaScript numbers are IEEE doubles. A number is modelled by the integer it is; `ck` says that the result of an operation is an integer of at
most 2^53 in absolute value, where `+`, `-`, `*` are exact; `none` is everything else (a rounded result, an index outside an array, which in
JavaScript reads `undefined` and ignores writes). Bitwise operators convert to 32-bit integers first (modulo 2^32), and give one. A store to
a `Uint8Array` keeps the low eight bits. -0 and 0 are not distinguished (no operation used does). The arrays are cells of a memory named by
`Reg` as in `Model/EmbCurve`, whose arrays and loops are used.
-/
namespace WG.Js
open WG.Emb (rd wr Arr Reg Mem ld st forUp forDown arr keyArr toKey)

/-- The result of an operation on doubles that is exact. -/
def ck (v : Int) : Option Int := if -2 ^ 53 ≤ v ∧ v ≤ 2 ^ 53 then some v else none

/-- `v | 0`: conversion to a 32-bit integer. -/
def toInt32 (v : Int) : Int := (BitVec.ofInt 32 v).toInt
/-- `&` -/
def and32 (a b : Int) : Int := (BitVec.ofInt 32 a &&& BitVec.ofInt 32 b).toInt
/-- `^` -/
def xor32 (a b : Int) : Int := (BitVec.ofInt 32 a ^^^ BitVec.ofInt 32 b).toInt
/-- `~` -/
def not32 (a : Int) : Int := (~~~ BitVec.ofInt 32 a).toInt
/-- `>>` -/
def sar32 (a : Int) (k : Nat) : Int := toInt32 a >>> k

/-- js:40-46 `carry`. `Math.floor(o[i] / 65536)`: the division by a power of two is exact. -/
def carry (o : Reg) (m : Mem) : Option Mem :=
  forUp 0 16 (fun i m => do
    let q := (← ld m o i) / 65536
    let x ← ck ((if i < 15 then 1 else 38) * q)
    let y ← ck ((← ld m o ((i + 1) % 16)) + x)
    let m ← st m o ((i + 1) % 16) y
    st m o i (and32 (← ld m o i) 0xffff)) m

/-- js:48-55 `cswap` -/
def cswap (p q : Reg) (b : Int) (m : Mem) : Option Mem := do
  let c := not32 (← ck (b - 1))
  forUp 0 16 (fun i m => do
    let t := and32 c (xor32 (← ld m p i) (← ld m q i))
    let m ← st m p i (xor32 (← ld m p i) t)
    st m q i (xor32 (← ld m q i) t)) m

/-- js:29-32, the end of one round of the loop of `pack`. -/
def packEnd (m : Mem) : Option Mem := do
  let x ← ck ((← ld m .pt 15) - 0x7fff)
  let x ← ck (x - and32 (sar32 (← ld m .pm 14) 16) 1)
  let m ← st m .pm 15 x
  let b := and32 (sar32 (← ld m .pm 15) 16) 1
  let m ← st m .pm 14 (and32 (← ld m .pm 14) 0xffff)
  cswap .pt .pm (1 - b) m

/-- js:24-32, one round of the loop of `pack`. -/
def packRound (m : Mem) : Option Mem := do
  let x ← ck ((← ld m .pt 0) - 0xffed)
  let m ← st m .pm 0 x
  let m ← forUp 1 14 (fun i m => do
    let x ← ck ((← ld m .pt i) - 0xffff)
    let x ← ck (x - and32 (sar32 (← ld m .pm (i - 1)) 16) 1)
    let m ← st m .pm i x
    st m .pm (i - 1) (and32 (← ld m .pm (i - 1)) 0xffff)) m
  packEnd m

/-- js:16-38 `pack`: the bytes of `o` afterwards. The new arrays `m` and `t` hold zeros. -/
def pack (n : Reg) (m : Mem) (out : Nat → UInt8) : Option (Nat → UInt8) := do
  let m := Function.update m .pm (fun _ => 0)
  let m := Function.update m .pt (m n)
  let m ← carry .pt m
  let m ← carry .pt m
  let m ← carry .pt m
  let m ← forUp 0 2 (fun _ m => packRound m) m
  forUp 0 16 (fun i o => do
    let o ← wr 32 o (2 * i) (UInt8.ofInt (and32 (← ld m .pt i) 0xff))
    wr 32 o (2 * i + 1) (UInt8.ofInt (sar32 (← ld m .pt i) 8))) out

/-- js:57-60 `add` -/
def add (o x y : Reg) (m : Mem) : Option Mem :=
  forUp 0 16 (fun i m => do
    let v ← ck ((← ld m x i) + (← ld m y i))
    st m o i (toInt32 v)) m

/-- js:62-65 `subtract` -/
def subtract (o x y : Reg) (m : Mem) : Option Mem :=
  forUp 0 16 (fun i m => do
    let v ← ck ((← ld m x i) - (← ld m y i))
    st m o i (toInt32 v)) m

/-- js:67-79 `multmod` -/
def multmod (o x y : Reg) (m : Mem) : Option Mem := do
  let t : Arr := fun _ => 0
  let t ← forUp 0 16 (fun i t =>
    forUp 0 16 (fun j t => do
      let v ← ck ((← ld m x i) * (← ld m y j))
      let v ← ck ((← rd 31 t (i + j)) + v)
      wr 31 t (i + j) v) t) t
  let t ← forUp 0 15 (fun i t => do
    let v ← ck (38 * (← rd 31 t (i + 16)))
    let v ← ck ((← rd 31 t i) + v)
    wr 31 t i v) t
  let m := Function.update m o t
  let m ← carry o m
  carry o m

/-- js:81-92 `invert` -/
def invert (o x : Reg) (m : Mem) : Option Mem := do
  let m := Function.update m .ic (m x)
  let m ← forDown 254 (fun a m => do
    let m ← multmod .ic .ic .ic m
    if a ≠ 2 ∧ a ≠ 4 then multmod .ic .ic x m else some m) m
  some (Function.update m o (m .ic))

/-- js:94-97 `clamp` -/
def clamp (z : Nat → UInt8) : Option (Nat → UInt8) := do
  let z ← wr 32 z 31 (((← rd 32 z 31) &&& 127) ||| 64)
  wr 32 z 0 ((← rd 32 z 0) &&& 248)

/-- js:113-135, the body of the loop of `generatePublicKey`. -/
def ladderStep (z : Nat → UInt8) (i : Nat) (m : Mem) : Option Mem := do
  let r : Int := (((← rd 32 z (i >>> 3)).toNat >>> (i &&& 7)) &&& 1 : Nat)
  let m ← cswap .a .b r m
  let m ← cswap .c .d r m
  let m ← add .e .a .c m
  let m ← subtract .a .a .c m
  let m ← add .c .b .d m
  let m ← subtract .b .b .d m
  let m ← multmod .d .e .e m
  let m ← multmod .f .a .a m
  let m ← multmod .a .c .a m
  let m ← multmod .c .b .e m
  let m ← add .e .a .c m
  let m ← subtract .a .a .c m
  let m ← multmod .b .a .a m
  let m ← subtract .c .d .f m
  let m ← multmod .a .c .k121665 m
  let m ← add .a .a .d m
  let m ← multmod .c .c .a m
  let m ← multmod .a .d .f m
  let m ← multmod .d .b .k9 m
  let m ← multmod .b .e .e m
  let m ← cswap .a .b r m
  cswap .c .d r m

/-- js:7-14, 101-108: the initial contents; new arrays hold zeros. -/
def initial : Mem
  | .a => arr [1]
  | .b => arr [9]
  | .d => arr [1]
  | .k121665 => arr [0xdb41, 1]
  | .k9 => arr [9]
  | _ => arr []

/-- js:99-141 `generatePublicKey`; the result is packed into the copy of the private key. -/
def generatePublicKey (privateKey : Key) : Option Key := do
  let z ← clamp (keyArr privateKey)
  let m ← forDown 255 (ladderStep z) initial
  let m ← invert .c .c m
  let m ← multmod .a .a .c m
  let o ← pack .a m z
  some (toKey o)

/-- js:143-153 `generatePrivateKey`; `random` is what `getRandomValues` stores. -/
def generatePrivateKey (random : Key) : Option Key := do
  let z ← clamp (keyArr random)
  some (toKey z)

/-! ### Base 64. Here indices outside of an array happen. -/

/-- Reading an element outside of an array gives `undefined`, which is 0 to a bitwise operator and in a `Uint8Array`. -/
def at0 (l : List UInt8) (i : Nat) : UInt8 := l.getD i 0

/-- js:158-162: the character of a value; all numbers are small 32-bit integers, the store keeps eight bits. -/
def char64 (v : UInt8) : UInt8 :=
  let x : Int := v.toNat
  UInt8.ofInt (x + 65 + and32 (sar32 (25 - x) 8) 6 - and32 (sar32 (51 - x) 8) 75 - and32 (sar32 (61 - x) 8) 15 + and32 (sar32 (62 - x) 8) 3)

/-- js:156: the four values of three bytes. `<<` of a byte by at most 4 does not leave 32 bits. -/
def values64 (src : List UInt8) : List UInt8 :=
  let s (i : Nat) : Nat := (at0 src i).toNat
  [(s 0 >>> 2) &&& 63, ((s 0 <<< 4) ||| (s 1 >>> 4)) &&& 63, ((s 1 <<< 2) ||| (s 2 >>> 6)) &&& 63, s 2 &&& 63].map UInt8.ofNat

/-- js:155-163 `encodeBase64(base64.subarray(off), src)`: writes behind the end are ignored (`subarray` is cut there). -/
def encodeBase64 (base64 : List UInt8) (off : Nat) (src : List UInt8) : List UInt8 :=
  (List.range 4).foldl (fun b i => b.set (off + i) (char64 (at0 (values64 src) i))) base64

/-- js:165-172 `keyToBase64`. The loop is for i = 0, …, 10, as 32 / 3 is between 10 and 11; the call after it is with i = 11. -/
def keyToBase64 (key : List UInt8) : List UInt8 :=
  let b := (List.range 11).foldl (fun b i => encodeBase64 b (i * 4) (key.drop (i * 3))) (List.replicate 44 0)
  let b := encodeBase64 b (11 * 4) [at0 key (11 * 3), at0 key (11 * 3 + 1), 0]
  b.set 43 61

/-- js:174-183 `generateKeypair`: the public and the private key. -/
def generateKeypair (random : Key) : Option (CStr × CStr) := do
  let privateKey ← generatePrivateKey random
  let publicKey ← generatePublicKey privateKey
  some (keyToBase64 publicKey.toList, keyToBase64 privateKey.toList)

end WG.Js
