import Verif.Model.Curve64
import Verif.Model.Curve32Gen
/-!
Model of the rest of src/curve25519-fiat32.h, the code chosen where the compiler has no 128-bit integers. The straight-line field
arithmetic is in Curve32Gen (generated from the C text). A `u32` or `u64` variable is a natural number; every arithmetic operation
is reduced as in C. Functions that write to an array are modelled as functions returning the new contents: each reads all its
inputs before it writes (or copies them). The erasing of temporaries (`memzero_explicit`) is not modelled.
-/
namespace WG.C32

/-- fiat32.h:308-422 `fe_mul_impl`. -/
def mul (a b : Fe) : Fe := carry (fold (mulWide a b))
/-- fiat32.h:440-544 `fe_sqr_impl`. -/
def sqr (a : Fe) : Fe := carry (fold (sqrWide a))
/-- fiat32.h:631-745 `fe_mul_121666_impl`. -/
def mul121666 (a : Fe) : Fe := carry (fold (mulWide121666 a))

/-- curve25519.c:64-69 `get_unaligned_le32` at offset `i`. -/
def getLe32 (b : Vector UInt8 32) (i : Nat) : Nat :=
  let g := fun j => (b.toList.getD j 0).toNat
  g i + 256 * g (i + 1) + 65536 * g (i + 2) + 16777216 * g (i + 3)

/-- fiat32.h:27-48 `fe_frombytes_impl`. -/
def frombytes (s : Vector UInt8 32) : Fe :=
  let a0 := getLe32 s 0
  let a1 := getLe32 s 4
  let a2 := getLe32 s 8
  let a3 := getLe32 s 12
  let a4 := getLe32 s 16
  let a5 := getLe32 s 20
  let a6 := getLe32 s 24
  let a7 := getLe32 s 28
  ⟨a0 &&& ((1 <<< 26) - 1),
   (a0 >>> 26) ||| w32 ((a1 &&& ((1 <<< 19) - 1)) <<< 6),
   (a1 >>> 19) ||| w32 ((a2 &&& ((1 <<< 13) - 1)) <<< 13),
   (a2 >>> 13) ||| w32 ((a3 &&& ((1 <<< 6) - 1)) <<< 19),
   a3 >>> 6,
   a4 &&& ((1 <<< 25) - 1),
   (a4 >>> 25) ||| w32 ((a5 &&& ((1 <<< 19) - 1)) <<< 7),
   (a5 >>> 19) ||| w32 ((a6 &&& ((1 <<< 12) - 1)) <<< 13),
   (a6 >>> 12) ||| w32 ((a7 &&& ((1 <<< 6) - 1)) <<< 20),
   (a7 >>> 6) &&& ((1 <<< 25) - 1)⟩

/-- fiat32.h:55-64 `addcarryx_u25`: the carry and `*low`. -/
def addcarryx25 (c a b : Nat) : Nat × Nat :=
  let x := w32 (w32 (a + b) + c)
  ((x >>> 25) &&& 1, x &&& ((1 <<< 25) - 1))

/-- fiat32.h:66-75 `addcarryx_u26`. -/
def addcarryx26 (c a b : Nat) : Nat × Nat :=
  let x := w32 (w32 (a + b) + c)
  ((x >>> 26) &&& 1, x &&& ((1 <<< 26) - 1))

/-- fiat32.h:77-86 `subborrow_u25`: the borrow and `*low`. -/
def subborrow25 (c a b : Nat) : Nat × Nat :=
  let x := sub32 (sub32 a b) c
  (x >>> 31, x &&& ((1 <<< 25) - 1))

/-- fiat32.h:88-97 `subborrow_u26`. -/
def subborrow26 (c a b : Nat) : Nat × Nat :=
  let x := sub32 (sub32 a b) c
  (x >>> 31, x &&& ((1 <<< 26) - 1))

/-- fiat32.h:99-103 `cmovznz32`. -/
def cmovznz32 (t z nz : Nat) : Nat :=
  let t := if t = 0 then 0 else 2 ^ 32 - 1
  (t &&& nz) ||| ((2 ^ 32 - 1 - t) &&& z)

/-- fiat32.h:105-161 `fe_freeze`. -/
def freeze (a : Fe) : Fe :=
  let s0 := subborrow26 0 a.l0 0x3ffffed
  let s1 := subborrow25 s0.1 a.l1 0x1ffffff
  let s2 := subborrow26 s1.1 a.l2 0x3ffffff
  let s3 := subborrow25 s2.1 a.l3 0x1ffffff
  let s4 := subborrow26 s3.1 a.l4 0x3ffffff
  let s5 := subborrow25 s4.1 a.l5 0x1ffffff
  let s6 := subborrow26 s5.1 a.l6 0x3ffffff
  let s7 := subborrow25 s6.1 a.l7 0x1ffffff
  let s8 := subborrow26 s7.1 a.l8 0x3ffffff
  let s9 := subborrow25 s8.1 a.l9 0x1ffffff
  let x49 := cmovznz32 s9.1 0 0xffffffff
  let r0 := addcarryx26 0 s0.2 (x49 &&& 0x3ffffed)
  let r1 := addcarryx25 r0.1 s1.2 (x49 &&& 0x1ffffff)
  let r2 := addcarryx26 r1.1 s2.2 (x49 &&& 0x3ffffff)
  let r3 := addcarryx25 r2.1 s3.2 (x49 &&& 0x1ffffff)
  let r4 := addcarryx26 r3.1 s4.2 (x49 &&& 0x3ffffff)
  let r5 := addcarryx25 r4.1 s5.2 (x49 &&& 0x1ffffff)
  let r6 := addcarryx26 r5.1 s6.2 (x49 &&& 0x3ffffff)
  let r7 := addcarryx25 r6.1 s7.2 (x49 &&& 0x1ffffff)
  let r8 := addcarryx26 r7.1 s8.2 (x49 &&& 0x3ffffff)
  let r9 := addcarryx25 r8.1 s9.2 (x49 &&& 0x1ffffff)
  ⟨r0.2, r1.2, r2.2, r3.2, r4.2, r5.2, r6.2, r7.2, r8.2, r9.2⟩

/-- fiat32.h:163-199 `fe_tobytes`, the stores: byte `i` as a number before its conversion to `u8`. -/
def storeNat (h : Fe) : Nat → Nat
  | 0 => h.l0 >>> 0
  | 1 => h.l0 >>> 8
  | 2 => h.l0 >>> 16
  | 3 => (h.l0 >>> 24) ||| w32 (h.l1 <<< 2)
  | 4 => h.l1 >>> 6
  | 5 => h.l1 >>> 14
  | 6 => (h.l1 >>> 22) ||| w32 (h.l2 <<< 3)
  | 7 => h.l2 >>> 5
  | 8 => h.l2 >>> 13
  | 9 => (h.l2 >>> 21) ||| w32 (h.l3 <<< 5)
  | 10 => h.l3 >>> 3
  | 11 => h.l3 >>> 11
  | 12 => (h.l3 >>> 19) ||| w32 (h.l4 <<< 6)
  | 13 => h.l4 >>> 2
  | 14 => h.l4 >>> 10
  | 15 => h.l4 >>> 18
  | 16 => h.l5 >>> 0
  | 17 => h.l5 >>> 8
  | 18 => h.l5 >>> 16
  | 19 => (h.l5 >>> 24) ||| w32 (h.l6 <<< 1)
  | 20 => h.l6 >>> 7
  | 21 => h.l6 >>> 15
  | 22 => (h.l6 >>> 23) ||| w32 (h.l7 <<< 3)
  | 23 => h.l7 >>> 5
  | 24 => h.l7 >>> 13
  | 25 => (h.l7 >>> 21) ||| w32 (h.l8 <<< 4)
  | 26 => h.l8 >>> 4
  | 27 => h.l8 >>> 12
  | 28 => (h.l8 >>> 20) ||| w32 (h.l9 <<< 6)
  | 29 => h.l9 >>> 2
  | 30 => h.l9 >>> 10
  | _ => h.l9 >>> 18

/-- fiat32.h:163-199 `fe_tobytes`. -/
def tobytes (f : Fe) : Vector UInt8 32 :=
  let h := freeze f
  Vector.ofFn fun i => UInt8.ofNat (storeNat h i.val)

/-- `fe_sq_tt` in a loop: `n + 1` squarings (fiat32.h:570-620). -/
def sqrTimes (r : Fe) : Nat → Fe
  | 0 => sqr r
  | n + 1 => sqr (sqrTimes r n)

/-- fiat32.h:556-605 `fe_loose_invert`, also 607-612 `fe_invert`. A `fe_sq` followed by a loop from 1 to `n` squares `n` times. -/
def invert (z : Fe) : Fe :=
  let t0 := sqr z
  let t1 := sqrTimes t0 1
  let t1 := mul z t1
  let t0 := mul t0 t1
  let t2 := sqrTimes t0 0
  let t1 := mul t1 t2
  let t2 := sqrTimes t1 4
  let t1 := mul t2 t1
  let t2 := sqrTimes t1 9
  let t2 := mul t2 t1
  let t3 := sqrTimes t2 19
  let t2 := mul t3 t2
  let t2 := sqrTimes t2 9
  let t1 := mul t2 t1
  let t2 := sqrTimes t1 49
  let t2 := mul t2 t1
  let t3 := sqrTimes t2 99
  let t2 := mul t3 t2
  let t2 := sqrTimes t2 49
  let t1 := mul t2 t1
  let t1 := sqrTimes t1 4
  mul t1 t0

/-- fiat32.h:619-629 `fe_cswap` for one index. -/
def swapStep (f g b : Nat) : Nat × Nat :=
  let x := f ^^^ g
  let x := x &&& b
  (f ^^^ x, g ^^^ x)

/-- fiat32.h:619-629 `fe_cswap`. -/
def cswap (f g : Fe) (b : Nat) : Fe × Fe :=
  let b := sub32 0 b
  let r0 := swapStep f.l0 g.l0 b
  let r1 := swapStep f.l1 g.l1 b
  let r2 := swapStep f.l2 g.l2 b
  let r3 := swapStep f.l3 g.l3 b
  let r4 := swapStep f.l4 g.l4 b
  let r5 := swapStep f.l5 g.l5 b
  let r6 := swapStep f.l6 g.l6 b
  let r7 := swapStep f.l7 g.l7 b
  let r8 := swapStep f.l8 g.l8 b
  let r9 := swapStep f.l9 g.l9 b
  (⟨r0.1, r1.1, r2.1, r3.1, r4.1, r5.1, r6.1, r7.1, r8.1, r9.1⟩, ⟨r0.2, r1.2, r2.2, r3.2, r4.2, r5.2, r6.2, r7.2, r8.2, r9.2⟩)

/-- The variables of the loop of `curve25519_generic`. -/
structure St where
  x2 : Fe
  z2 : Fe
  x3 : Fe
  z3 : Fe
  swap : Nat

/-- The two `fe_cswap` of `curve25519_generic` (fiat32.h:815-816, 847-848). -/
def swapBoth (s : St) (b : Nat) : St :=
  let x := cswap s.x2 s.x3 b
  let z := cswap s.z2 s.z3 b
  { s with x2 := x.1, x3 := x.2, z2 := z.1, z3 := z.2 }

/-- fiat32.h:825-842, the field operations of one turn of the loop of `curve25519_generic`. -/
def ladderStep (x1 : Fe) (s : St) : St :=
  let tmp0l := sub s.x3 s.z3
  let tmp1l := sub s.x2 s.z2
  let x2l := add s.x2 s.z2
  let z2l := add s.x3 s.z3
  let z3 := mul tmp0l x2l
  let z2 := mul z2l tmp1l
  let tmp0 := sqr tmp1l
  let tmp1 := sqr x2l
  let x3l := add z3 z2
  let z2l := sub z3 z2
  let x2 := mul tmp1 tmp0
  let tmp1l := sub tmp1 tmp0
  let z2 := sqr z2l
  let z3 := mul121666 tmp1l
  let x3 := sqr x3l
  let tmp0l := add tmp0 z3
  let z3 := mul x1 z2
  let z2 := mul tmp1l tmp0l
  { s with x2 := x2, z2 := z2, x3 := x3, z3 := z3 }

/-- fiat32.h:797-843, one turn of the loop of `curve25519_generic`. -/
def turn (e : Vector UInt8 32) (x1 : Fe) (pos : Nat) (s : St) : St :=
  let b := 1 &&& ((e.toList.getD (pos / 8) 0).toNat >>> (pos &&& 7))
  let swap := s.swap ^^^ b
  let s := swapBoth s swap
  ladderStep x1 { s with swap := b }

/-- The constant 1 (`fe_1`), fiat32.h:215-220. -/
def one : Fe := ⟨1, 0, 0, 0, 0, 0, 0, 0, 0, 0⟩
/-- The constant 0 (`fe_0`), fiat32.h:209-213. -/
def zero : Fe := ⟨0, 0, 0, 0, 0, 0, 0, 0, 0, 0⟩

/-- fiat32.h:791-843, the loop of `curve25519_generic` with its initial values. -/
def ladder (e : Vector UInt8 32) (x1 : Fe) : St := C64.downFrom (turn e x1) 255 ⟨one, zero, x1, one, 0⟩

/-- fiat32.h:752-863 `curve25519_generic`, also curve25519.c:94-97 `curve25519`. -/
def curve25519 (secret basepoint : Vector UInt8 32) : Vector UInt8 32 :=
  let s := ladder (C64.clamp secret) (frombytes basepoint)
  let s := swapBoth s s.swap
  let z2 := invert s.z2
  tobytes (mul s.x2 z2)

/-- curve25519.c:87-92 `curve25519_generate_public` in the build with this code. -/
def generatePublic (secret : Vector UInt8 32) : Vector UInt8 32 :=
  curve25519 secret (Vector.ofFn fun i => if i.val = 0 then 9 else 0)

end WG.C32
