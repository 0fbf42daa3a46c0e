import Verif.Base.Bytes
/-!
Model of src/curve25519-hacl64.h (and src/curve25519.h, src/curve25519.c for it). A `u64` or `u128` variable is a natural number;
every arithmetic operation is reduced as in C. Functions that write to an array are modelled as functions returning the new
contents: the arrays passed as input and output are either distinct, or the input is copied (`fmul_fmul` copies `input` and reads all
of `input21` before it writes) or updated element by element from the same index, so the result is the same.
The erasing of temporaries (`memzero_explicit`) is not modelled.
-/
namespace WG.C64

/-- Reduction to a `u64`. -/
def w64 (n : Nat) : Nat := n % 2 ^ 64
/-- Reduction to a `u128`. -/
def w128 (n : Nat) : Nat := n % 2 ^ 128
/-- Subtraction of `u64`. -/
def sub64 (a b : Nat) : Nat := (a + 2 ^ 64 - b) % 2 ^ 64
/-- Complement of a `u64`. -/
def not64 (a : Nat) : Nat := 2 ^ 64 - 1 - a

/-- `0x7ffffffffffff`. -/
def m51 : Nat := 0x7ffffffffffff

/-- An array of five `u64` (or `u128`). -/
structure Fe where
  l0 : Nat
  l1 : Nat
  l2 : Nat
  l3 : Nat
  l4 : Nat
deriving DecidableEq

/-- hacl64.h:15-23 `u64_eq_mask`. -/
def eqMask (a b : Nat) : Nat :=
  let x := a ^^^ b
  let minus_x := w64 (not64 x + 1)
  let x_or_minus_x := x ||| minus_x
  let xnx := x_or_minus_x >>> 63
  sub64 xnx 1

/-- hacl64.h:25-37 `u64_gte_mask`. -/
def gteMask (x y : Nat) : Nat :=
  let x_xor_y := x ^^^ y
  let x_sub_y := sub64 x y
  let x_sub_y_xor_y := x_sub_y ^^^ y
  let q := x_xor_y ||| x_sub_y_xor_y
  let x_xor_q := x ^^^ q
  let x_xor_q_ := x_xor_q >>> 63
  sub64 x_xor_q_ 1

/-- hacl64.h:39-47 `modulo_carry_top`. -/
def moduloCarryTop (b : Fe) : Fe := { b with l4 := b.l4 &&& m51, l0 := w64 (b.l0 + w64 (19 * (b.l4 >>> 51))) }

/-- hacl64.h:49-71 `fproduct_copy_from_wide_`. -/
def copyFromWide (t : Fe) : Fe := ⟨w64 t.l0, w64 t.l1, w64 t.l2, w64 t.l3, w64 t.l4⟩

/-- hacl64.h:73-81 `fproduct_sum_scalar_multiplication_`. -/
def sumScalarMul (t input : Fe) (s : Nat) : Fe :=
  ⟨w128 (t.l0 + w128 (input.l0 * s)), w128 (t.l1 + w128 (input.l1 * s)), w128 (t.l2 + w128 (input.l2 * s)),
   w128 (t.l3 + w128 (input.l3 * s)), w128 (t.l4 + w128 (input.l4 * s))⟩

/-- hacl64.h:83-121 `fproduct_carry_wide_`: the carry from each of the first four elements to the next. -/
def carryWide (t : Fe) : Fe :=
  let t0 := w64 t.l0 &&& m51
  let t1 := w128 (t.l1 + t.l0 >>> 51)
  let t1' := w64 t1 &&& m51
  let t2 := w128 (t.l2 + t1 >>> 51)
  let t2' := w64 t2 &&& m51
  let t3 := w128 (t.l3 + t2 >>> 51)
  let t3' := w64 t3 &&& m51
  let t4 := w128 (t.l4 + t3 >>> 51)
  ⟨t0, t1', t2', t3', t4⟩

/-- hacl64.h:123-150 `fmul_shift_reduce`. -/
def shiftReduce (o : Fe) : Fe := ⟨w64 (19 * o.l4), o.l0, o.l1, o.l2, o.l3⟩

/-- hacl64.h:152-181 `fmul_mul_shift_reduce_`, with `output` zero before. -/
def mulShiftReduce (a b : Fe) : Fe :=
  let t := sumScalarMul ⟨0, 0, 0, 0, 0⟩ a b.l0
  let a := shiftReduce a
  let t := sumScalarMul t a b.l1
  let a := shiftReduce a
  let t := sumScalarMul t a b.l2
  let a := shiftReduce a
  let t := sumScalarMul t a b.l3
  let a := shiftReduce a
  sumScalarMul t a b.l4

/-- hacl64.h:198-204 (and 269-275, 447-453): the top carry of a `u128` array, times 19, to the bottom. -/
def wideTop (t : Fe) : Fe := { t with l4 := t.l4 &&& m51, l0 := w128 (t.l0 + w128 (19 * w64 (t.l4 >>> 51))) }

/-- hacl64.h:206-211 (and 277-282): the carry of the first element to the second. -/
def lowCarry (o : Fe) : Fe := { o with l0 := o.l0 &&& m51, l1 := w64 (o.l1 + o.l0 >>> 51) }

/-- hacl64.h:183-213 `fmul_fmul`, also `fmul` (456-459). -/
def fmul (a b : Fe) : Fe := lowCarry (copyFromWide (wideTop (carryWide (mulShiftReduce a b))))

/-- hacl64.h:215-242 `fsquare_fsquare__`. -/
def squareWide (r : Fe) : Fe :=
  let d0 := w64 (r.l0 * 2)
  let d1 := w64 (r.l1 * 2)
  let d2 := w64 (w64 (r.l2 * 2) * 19)
  let d419 := w64 (r.l4 * 19)
  let d4 := w64 (d419 * 2)
  ⟨w128 (w128 (w128 (r.l0 * r.l0) + w128 (d4 * r.l1)) + w128 (d2 * r.l3)),
   w128 (w128 (w128 (d0 * r.l1) + w128 (d4 * r.l2)) + w128 (w64 (r.l3 * 19) * r.l3)),
   w128 (w128 (w128 (d0 * r.l2) + w128 (r.l1 * r.l1)) + w128 (d4 * r.l3)),
   w128 (w128 (w128 (d0 * r.l3) + w128 (d1 * r.l2)) + w128 (r.l4 * d419)),
   w128 (w128 (w128 (d0 * r.l4) + w128 (d1 * r.l3)) + w128 (r.l2 * r.l2))⟩

/-- hacl64.h:244-283 `fsquare_fsquare_`. -/
def square (r : Fe) : Fe := lowCarry (copyFromWide (wideTop (carryWide (squareWide r))))

/-- hacl64.h:285-309 `fsquare_fsquare_times_`, `fsquare_fsquare_times`, `fsquare_fsquare_times_inplace` (with `count1` at least 1,
as in every call; here `times n` squares `n + 1` times). -/
def squareTimes (r : Fe) : Nat → Fe
  | 0 => square r
  | n + 1 => square (squareTimes r n)

/-- hacl64.h:311-358 `crecip_crecip`, also `crecip` (461-464). -/
def crecip (z : Fe) : Fe :=
  let a0 := squareTimes z 0
  let t00 := squareTimes a0 1
  let b0 := fmul t00 z
  let a0 := fmul b0 a0
  let t00 := squareTimes a0 0
  let b0 := fmul t00 b0
  let t00 := squareTimes b0 4
  let b1 := fmul t00 b0
  let t01 := squareTimes b1 9
  let c0 := fmul t01 b1
  let t01 := squareTimes c0 19
  let t01 := fmul t01 c0
  let t01 := squareTimes t01 9
  let b1 := fmul t01 b1
  let t01 := squareTimes b1 49
  let c := fmul t01 b1
  let t0 := squareTimes c 99
  let t0 := fmul t0 c
  let t0 := squareTimes t0 49
  let t0 := fmul t0 b1
  let t0 := squareTimes t0 4
  fmul t0 a0

/-- hacl64.h:360-367 `fsum`. -/
def fsum (a b : Fe) : Fe := ⟨w64 (a.l0 + b.l0), w64 (a.l1 + b.l1), w64 (a.l2 + b.l2), w64 (a.l3 + b.l3), w64 (a.l4 + b.l4)⟩

/-- hacl64.h:369-413 `fdifference`: the new value of `a`. -/
def fdifference (a b : Fe) : Fe :=
  ⟨sub64 (w64 (b.l0 + 0x3fffffffffff68)) a.l0, sub64 (w64 (b.l1 + 0x3ffffffffffff8)) a.l1, sub64 (w64 (b.l2 + 0x3ffffffffffff8)) a.l2,
   sub64 (w64 (b.l3 + 0x3ffffffffffff8)) a.l3, sub64 (w64 (b.l4 + 0x3ffffffffffff8)) a.l4⟩

/-- hacl64.h:415-454 `fscalar`. -/
def fscalar (b : Fe) (s : Nat) : Fe :=
  copyFromWide (wideTop (carryWide ⟨w128 (b.l0 * s), w128 (b.l1 * s), w128 (b.l2 * s), w128 (b.l3 * s), w128 (b.l4 * s)⟩))

/-- A point: the arrays `x` and `z`. -/
structure Pt where
  x : Fe
  z : Fe
deriving DecidableEq

/-- hacl64.h:466-477 `point_swap_conditional_step` for one index: both new elements. -/
def swapStep (a b swap1 : Nat) : Nat × Nat :=
  let x := swap1 &&& (a ^^^ b)
  (a ^^^ x, b ^^^ x)

/-- hacl64.h:479-486 `point_swap_conditional5`. -/
def swap5 (a b : Fe) (swap1 : Nat) : Fe × Fe :=
  let r4 := swapStep a.l4 b.l4 swap1
  let r3 := swapStep a.l3 b.l3 swap1
  let r2 := swapStep a.l2 b.l2 swap1
  let r1 := swapStep a.l1 b.l1 swap1
  let r0 := swapStep a.l0 b.l0 swap1
  (⟨r0.1, r1.1, r2.1, r3.1, r4.1⟩, ⟨r0.2, r1.2, r2.2, r3.2, r4.2⟩)

/-- hacl64.h:488-493 `point_swap_conditional`. -/
def swapConditional (a b : Pt) (iswap : Nat) : Pt × Pt :=
  let swap1 := sub64 0 iswap
  let x := swap5 a.x b.x swap1
  let z := swap5 a.z b.z swap1
  (⟨x.1, z.1⟩, ⟨x.2, z.2⟩)

/-- hacl64.h:501-562 `addanddouble_fmonty`: the new `pp` and `ppq`. -/
def addAndDouble (p pq : Pt) (qx : Fe) : Pt × Pt :=
  let origx := p.x
  let x := fsum p.x p.z
  let z := fdifference p.z origx
  let origxprime := pq.x
  let xprime := fsum pq.x pq.z
  let zprime := fdifference pq.z origxprime
  let xxprime := fmul xprime z
  let zzprime := fmul x zprime
  let origxprime := xxprime
  let xxprime := fsum xxprime zzprime
  let zzprime := fdifference zzprime origxprime
  let x3 := squareTimes xxprime 0
  let zzzprime := squareTimes zzprime 0
  let z3 := fmul zzzprime qx
  let xx := squareTimes x 0
  let zz := squareTimes z 0
  let x2 := fmul xx zz
  let zz := fdifference zz xx
  let zzz := fscalar zz 121665
  let zzz := fsum zzz xx
  let z2 := fmul zzz zz
  (⟨x2, z2⟩, ⟨x3, z3⟩)

/-- hacl64.h:564-574 `ladder_smallloop_cmult_small_loop_step`; `byt` is a `u8`. -/
def loopStep (s : Pt × Pt) (qx : Fe) (byt : Nat) : Pt × Pt :=
  let bit := byt >>> 7
  let s := swapConditional s.1 s.2 bit
  let s := addAndDouble s.1 s.2 qx
  swapConditional s.1 s.2 bit

/-- hacl64.h:576-584 `ladder_smallloop_cmult_small_loop_double_step`. -/
def doubleStep (s : Pt × Pt) (qx : Fe) (byt : Nat) : Pt × Pt := loopStep (loopStep s qx byt) qx ((byt <<< 1) % 256)

/-- hacl64.h:586-595 `ladder_smallloop_cmult_small_loop`. -/
def smallLoop (qx : Fe) : Nat → Nat → Pt × Pt → Pt × Pt
  | 0, _, s => s
  | i + 1, byt, s => smallLoop qx i ((byt <<< 2) % 256) (doubleStep s qx byt)

/-- A loop `while (n--) s = f(n, s)`. -/
def downFrom {α : Type} (f : Nat → α → α) : Nat → α → α
  | 0, s => s
  | i + 1, s => downFrom f i (f i s)

/-- hacl64.h:597-607 `ladder_bigloop_cmult_big_loop`: the bytes from the last to the first. -/
def bigLoop (n1 : Vector UInt8 32) (qx : Fe) (n : Nat) (s : Pt × Pt) : Pt × Pt :=
  downFrom (fun i s => smallLoop qx 4 (n1.toList.getD i 0).toNat s) n s

/-- hacl64.h:609-620 `ladder_cmult`. -/
def ladder (n1 : Vector UInt8 32) (q : Pt) : Pt :=
  (bigLoop n1 q.x 32 (⟨⟨1, 0, 0, 0, 0⟩, ⟨0, 0, 0, 0, 0⟩⟩, q)).1

/-- curve25519.c:64-69 `get_unaligned_le64` at offset `i`. -/
def getLe64 (b : Vector UInt8 32) (i : Nat) : Nat := go 8 i
where
  /-- The number of `n` bytes. -/
  go : Nat → Nat → Nat
    | 0, _ => 0
    | n + 1, i => (b.toList.getD i 0).toNat + 256 * go n (i + 1)

/-- hacl64.h:622-644 `format_fexpand`. -/
def fexpand (b : Vector UInt8 32) : Fe :=
  ⟨getLe64 b 0 &&& m51, getLe64 b 6 >>> 3 &&& m51, getLe64 b 12 >>> 6 &&& m51, getLe64 b 19 >>> 1 &&& m51, getLe64 b 24 >>> 12 &&& m51⟩

/-- hacl64.h:646-666 `format_fcontract_first_carry_pass` and 674-694 `format_fcontract_second_carry_pass`. -/
def carryPass (t : Fe) : Fe :=
  let t1 := w64 (t.l1 + t.l0 >>> 51)
  let t2 := w64 (t.l2 + t1 >>> 51)
  let t3 := w64 (t.l3 + t2 >>> 51)
  let t4 := w64 (t.l4 + t3 >>> 51)
  ⟨t.l0 &&& m51, t1 &&& m51, t2 &&& m51, t3 &&& m51, t4⟩

/-- hacl64.h:713-738 `format_fcontract_trim`. -/
def trim (a : Fe) : Fe :=
  let mask0 := gteMask a.l0 0x7ffffffffffed
  let mask1 := eqMask a.l1 0x7ffffffffffff
  let mask2 := eqMask a.l2 0x7ffffffffffff
  let mask3 := eqMask a.l3 0x7ffffffffffff
  let mask4 := eqMask a.l4 0x7ffffffffffff
  let mask := (((mask0 &&& mask1) &&& mask2) &&& mask3) &&& mask4
  ⟨sub64 a.l0 (0x7ffffffffffed &&& mask), sub64 a.l1 (0x7ffffffffffff &&& mask), sub64 a.l2 (0x7ffffffffffff &&& mask),
   sub64 a.l3 (0x7ffffffffffff &&& mask), sub64 a.l4 (0x7ffffffffffff &&& mask)⟩

/-- curve25519.c:70-74 `put_unaligned_le64`: the `i`-th byte. -/
def byteOf (n i : Nat) : UInt8 := UInt8.ofNat (n >>> (8 * i))

/-- hacl64.h:740-759 `format_fcontract_store`. -/
def store (t : Fe) : Vector UInt8 32 :=
  let o0 := w64 (t.l1 <<< 51) ||| t.l0
  let o1 := w64 (t.l2 <<< 38) ||| t.l1 >>> 13
  let o2 := w64 (t.l3 <<< 25) ||| t.l2 >>> 26
  let o3 := w64 (t.l4 <<< 12) ||| t.l3 >>> 39
  Vector.ofFn fun i => byteOf (if i.val < 8 then o0 else if i.val < 16 then o1 else if i.val < 24 then o2 else o3) (i.val % 8)

/-- hacl64.h:668-672, 696-711, 761-767 `format_fcontract`. -/
def fcontract (a : Fe) : Vector UInt8 32 :=
  store (trim (lowCarry (moduloCarryTop (carryPass (moduloCarryTop (carryPass a))))))

/-- hacl64.h:769-779 `format_scalar_of_point`. -/
def scalarOfPoint (p : Pt) : Vector UInt8 32 := fcontract (fmul p.x (crecip p.z))

/-- curve25519.h:18-22 `curve25519_clamp_secret`. -/
def clamp (s : Vector UInt8 32) : Vector UInt8 32 := (s.set 0 (s[0] &&& 248)).set 31 ((s[31] &&& 127) ||| 64)

/-- hacl64.h:781-811 `curve25519_generic`, also curve25519.c:94-97 `curve25519`. -/
def curve25519 (secret basepoint : Vector UInt8 32) : Vector UInt8 32 :=
  scalarOfPoint (ladder (clamp secret) ⟨fexpand basepoint, ⟨1, 0, 0, 0, 0⟩⟩)

/-- curve25519.c:87-92 `curve25519_generate_public`. -/
def generatePublic (secret : Vector UInt8 32) : Vector UInt8 32 :=
  curve25519 secret (Vector.ofFn fun i => if i.val = 0 then 9 else 0)

end WG.C64
