import Mathlib.Logic.Function.Basic
import Verif.Base.Bytes
/-!
Model of the key functions of contrib/embeddable-wg-library/wireguard.c (the embeddable library; "emb" below is that file):
the arithmetic behind `wg_generate_public_key`, on arrays of sixteen `int64_t`.

`none` is undefined behaviour: a signed overflow or an access outside an array. An `int64_t` is an integer, checked at each addition,
subtraction and multiplication. `>>` of a negative value is the arithmetic shift (implementation-defined; what gcc and clang do), and
bitwise operations are those of two's complement. The arrays are cells of a memory named by `Reg`, so that the calls with the same array as
input and output (`multmod(c, c, c)`) are modelled as they are: the reads see what was written. Arrays that C leaves uninitialized have
arbitrary contents. The loop counters are natural numbers (at most 255). The erasing of temporaries (`memzero_explicit`) is not modelled.
-/
namespace WG.Emb

/-- The result of an `int64_t` operation. -/
def ck (v : Int) : Option Int := if -2 ^ 63 ≤ v ∧ v < 2 ^ 63 then some v else none

/-- `&` on `int64_t`. -/
def and64 (a b : Int) : Int := (BitVec.ofInt 64 a &&& BitVec.ofInt 64 b).toInt
/-- `^` on `int64_t`. -/
def xor64 (a b : Int) : Int := (BitVec.ofInt 64 a ^^^ BitVec.ofInt 64 b).toInt
/-- `~` on `int64_t`. -/
def not64 (a : Int) : Int := (~~~ BitVec.ofInt 64 a).toInt

/-- An array. -/
abbrev Arr := Nat → Int
/-- Reading element `i` of an array of `n`. -/
def rd (n : Nat) (a : Nat → α) (i : Nat) : Option α := if i < n then some (a i) else none
/-- Writing element `i` of an array of `n`. -/
def wr (n : Nat) (a : Nat → α) (i : Nat) (v : α) : Option (Nat → α) := if i < n then some (Function.update a i v) else none

/-- The arrays of type `fe`: the variables of `wg_generate_public_key`, its two constants, the local `c` of `invert`, the locals `t` and `m`
of `pack`. -/
inductive Reg where
  | a | b | c | d | e | f | k121665 | k9 | ic | pt | pm
deriving DecidableEq

/-- The contents of the arrays. -/
abbrev Mem := Reg → Arr

/-- `r[i]`. -/
def ld (m : Mem) (r : Reg) (i : Nat) : Option Int := rd 16 (m r) i
/-- `r[i] = v`. -/
def st (m : Mem) (r : Reg) (i : Nat) (v : Int) : Option Mem := (wr 16 (m r) i v).map (Function.update m r)

/-- `for (i = lo; i < lo + n; ++i) body`. -/
def forUp (lo : Nat) : Nat → (Nat → σ → Option σ) → σ → Option σ
  | 0, _, s => some s
  | n + 1, body, s => do let s ← body lo s; forUp (lo + 1) n body s

/-- `for (i = n - 1; i >= 0; --i) body`. -/
def forDown : Nat → (Nat → σ → Option σ) → σ → Option σ
  | 0, _, s => some s
  | n + 1, body, s => do let s ← body n s; forDown n body s

/-- emb:1569-1577 `carry`. -/
def carry (o : Reg) (m : Mem) : Option Mem :=
  forUp 0 16 (fun i m => do
    let q := (← ld m o i) >>> 16
    let x ← ck ((if i = 15 then 38 else 1) * q)
    let y ← ck ((← ld m o ((i + 1) % 16)) + x)
    let m ← st m o ((i + 1) % 16) y
    st m o i (and64 (← ld m o i) 0xffff)) m

/-- emb:1579-1593 `cswap`. `b - 1` and `~` are computed in `int` and converted: the value is the same. -/
def cswap (p q : Reg) (b : Int) (m : Mem) : Option Mem :=
  let c := not64 (b - 1)
  forUp 0 16 (fun i m => do
    let t := and64 c (xor64 (← ld m p i) (← ld m q i))
    let m ← st m p i (xor64 (← ld m p i) t)
    st m q i (xor64 (← ld m q i) t)) m

/-- emb:1610-1613, the end of one round of the loop of `pack`. -/
def packEnd (m : Mem) : Option Mem := do
  let x ← ck ((← ld m .pt 15) - 0x7fff)
  let x ← ck (x - and64 ((← ld m .pm 14) >>> 16) 1)
  let m ← st m .pm 15 x
  let b := and64 ((← ld m .pm 15) >>> 16) 1
  let m ← st m .pm 14 (and64 (← ld m .pm 14) 0xffff)
  cswap .pt .pm (1 - b) m

/-- emb:1605-1613, one round of the loop of `pack`: subtract 2^255 - 19 if that does not borrow. -/
def packRound (m : Mem) : Option Mem := do
  let x ← ck ((← ld m .pt 0) - 0xffed)
  let m ← st m .pm 0 x
  let m ← forUp 1 14 (fun i m => do
    let x ← ck ((← ld m .pt i) - 0xffff)
    let x ← ck (x - and64 ((← ld m .pm (i - 1)) >>> 16) 1)
    let m ← st m .pm i x
    st m .pm (i - 1) (and64 (← ld m .pm (i - 1)) 0xffff)) m
  packEnd m

/-- emb:1595-1623 `pack`: the thirty-two bytes written. A store to a `uint8_t` keeps the low eight bits. -/
def pack (n : Reg) (m : Mem) (out : Nat → UInt8) : Option (Nat → UInt8) := do
  let m := Function.update m .pt (m n)
  let m ← carry .pt m
  let m ← carry .pt m
  let m ← carry .pt m
  let m ← forUp 0 2 (fun _ m => packRound m) m
  forUp 0 16 (fun i o => do
    let o ← wr 32 o (2 * i) (UInt8.ofInt (and64 (← ld m .pt i) 0xff))
    wr 32 o (2 * i + 1) (UInt8.ofInt ((← ld m .pt i) >>> 8))) out

/-- emb:1625-1631 `add`. -/
def add (o x y : Reg) (m : Mem) : Option Mem :=
  forUp 0 16 (fun i m => do
    let v ← ck ((← ld m x i) + (← ld m y i))
    st m o i v) m

/-- emb:1633-1639 `subtract`. -/
def subtract (o x y : Reg) (m : Mem) : Option Mem :=
  forUp 0 16 (fun i m => do
    let v ← ck ((← ld m x i) - (← ld m y i))
    st m o i v) m

/-- emb:1641-1657 `multmod`. -/
def multmod (o x y : Reg) (m : Mem) : Option Mem := do
  let t : Arr := fun _ => 0
  let t ← forUp 0 16 (fun i t =>
    forUp 0 16 (fun j t => do
      let v ← ck ((← ld m x i) * (← ld m y j))
      let v ← ck ((← rd 31 t (i + j)) + v)
      wr 31 t (i + j) v) t) t
  let t ← forUp 0 15 (fun i t => do
    let v ← ck (38 * (← rd 31 t (i + 16)))
    let v ← ck ((← rd 31 t i) + v)
    wr 31 t i v) t
  let m := Function.update m o t
  let m ← carry o m
  carry o m

/-- emb:1659-1673 `invert`. -/
def invert (o x : Reg) (m : Mem) : Option Mem := do
  let m := Function.update m .ic (m x)
  let m ← forDown 254 (fun a m => do
    let m ← multmod .ic .ic .ic m
    if a ≠ 2 ∧ a ≠ 4 then multmod .ic .ic x m else some m) m
  some (Function.update m o (m .ic))

/-- emb:1675-1679 `clamp_key`. -/
def clampKey (z : Nat → UInt8) : Option (Nat → UInt8) := do
  let z ← wr 32 z 31 (((← rd 32 z 31) &&& 127) ||| 64)
  wr 32 z 0 ((← rd 32 z 0) &&& 248)

/-- emb:1690-1714, the body of the loop of `wg_generate_public_key`. -/
def ladderStep (z : Nat → UInt8) (i : Nat) (m : Mem) : Option Mem := do
  let r : Int := (((← rd 32 z (i >>> 3)).toNat >>> (i &&& 7)) &&& 1 : Nat)
  let m ← cswap .a .b r m
  let m ← cswap .c .d r m
  let m ← add .e .a .c m
  let m ← subtract .a .a .c m
  let m ← add .c .b .d m
  let m ← subtract .b .b .d m
  let m ← multmod .d .e .e m
  let m ← multmod .f .a .a m
  let m ← multmod .a .c .a m
  let m ← multmod .c .b .e m
  let m ← add .e .a .c m
  let m ← subtract .a .a .c m
  let m ← multmod .b .a .a m
  let m ← subtract .c .d .f m
  let m ← multmod .a .c .k121665 m
  let m ← add .a .a .d m
  let m ← multmod .c .c .a m
  let m ← multmod .a .d .f m
  let m ← multmod .d .b .k9 m
  let m ← multmod .b .e .e m
  let m ← cswap .a .b r m
  cswap .c .d r m

/-- An array initializer: the missing elements are 0. -/
def arr (l : List Int) : Arr := fun i => l.getD i 0

/-- emb:1685, 1703 and 1707: the initial contents; the arrays without an initializer hold `junk`. -/
def initial (junk : Mem) : Mem
  | .a => arr [1]
  | .b => arr [9]
  | .c => arr [0]
  | .d => arr [1]
  | .k121665 => arr [0xdb41, 1]
  | .k9 => arr [9]
  | r => junk r

/-- The bytes of a key as an array. -/
def keyArr (k : Key) : Nat → UInt8 := fun i => k.toList.getD i 0
/-- An array of thirty-two bytes as a key. -/
def toKey (o : Nat → UInt8) : Key := Vector.ofFn fun i => o i.val

/-- emb:1681-1727 `wg_generate_public_key`. `junk` and `out` are the contents of uninitialized arrays and of the output before. -/
def generatePublicKey (junk : Mem) (out : Nat → UInt8) (privateKey : Key) : Option Key := do
  let z ← clampKey (keyArr privateKey)
  let m ← forDown 255 (ladderStep z) (initial junk)
  let m ← invert .c .c m
  let m ← multmod .a .a .c m
  let o ← pack .a m out
  some (toKey o)

end WG.Emb
