import Verif.Base.Bytes
/-!
Generated by tools/fiat32.py from src/curve25519-fiat32.h: the straight-line field arithmetic of the 32-bit code, with the variable
names of the C text. `w32`, `w64` are the reductions of the C types, `sub32` the subtraction of `u32`.
-/
namespace WG.C32

/-- Reduction to a `u32`. -/
def w32 (n : Nat) : Nat := n % 2 ^ 32
/-- Reduction to a `u64`. -/
def w64 (n : Nat) : Nat := n % 2 ^ 64
/-- Subtraction of `u32`. -/
def sub32 (a b : Nat) : Nat := (a + 2 ^ 32 - b) % 2 ^ 32

/-- fiat32.h:20, 25 `struct fe`, `struct fe_loose`: an array of ten `u32`. -/
structure Fe where
  l0 : Nat
  l1 : Nat
  l2 : Nat
  l3 : Nat
  l4 : Nat
  l5 : Nat
  l6 : Nat
  l7 : Nat
  l8 : Nat
  l9 : Nat
deriving DecidableEq

/-- The 19 coefficients of a product. -/
structure Wide where
  c0 : Nat
  c1 : Nat
  c2 : Nat
  c3 : Nat
  c4 : Nat
  c5 : Nat
  c6 : Nat
  c7 : Nat
  c8 : Nat
  c9 : Nat
  c10 : Nat
  c11 : Nat
  c12 : Nat
  c13 : Nat
  c14 : Nat
  c15 : Nat
  c16 : Nat
  c17 : Nat
  c18 : Nat

/-- fiat32.h:222-255 `fe_add_impl`. -/
def add (in1 in2 : Fe) : Fe :=
  let x20 := in1.l9
  let x21 := in1.l8
  let x19 := in1.l7
  let x17 := in1.l6
  let x15 := in1.l5
  let x13 := in1.l4
  let x11 := in1.l3
  let x9 := in1.l2
  let x7 := in1.l1
  let x5 := in1.l0
  let x38 := in2.l9
  let x39 := in2.l8
  let x37 := in2.l7
  let x35 := in2.l6
  let x33 := in2.l5
  let x31 := in2.l4
  let x29 := in2.l3
  let x27 := in2.l2
  let x25 := in2.l1
  let x23 := in2.l0
  ⟨(w32 (x5 + x23)),
   (w32 (x7 + x25)),
   (w32 (x9 + x27)),
   (w32 (x11 + x29)),
   (w32 (x13 + x31)),
   (w32 (x15 + x33)),
   (w32 (x17 + x35)),
   (w32 (x19 + x37)),
   (w32 (x21 + x39)),
   (w32 (x20 + x38))⟩

/-- fiat32.h:265-298 `fe_sub_impl`. -/
def sub (in1 in2 : Fe) : Fe :=
  let x20 := in1.l9
  let x21 := in1.l8
  let x19 := in1.l7
  let x17 := in1.l6
  let x15 := in1.l5
  let x13 := in1.l4
  let x11 := in1.l3
  let x9 := in1.l2
  let x7 := in1.l1
  let x5 := in1.l0
  let x38 := in2.l9
  let x39 := in2.l8
  let x37 := in2.l7
  let x35 := in2.l6
  let x33 := in2.l5
  let x31 := in2.l4
  let x29 := in2.l3
  let x27 := in2.l2
  let x25 := in2.l1
  let x23 := in2.l0
  ⟨(sub32 (w32 (134217690 + x5)) x23),
   (sub32 (w32 (67108862 + x7)) x25),
   (sub32 (w32 (134217726 + x9)) x27),
   (sub32 (w32 (67108862 + x11)) x29),
   (sub32 (w32 (134217726 + x13)) x31),
   (sub32 (w32 (67108862 + x15)) x33),
   (sub32 (w32 (134217726 + x17)) x35),
   (sub32 (w32 (67108862 + x19)) x37),
   (sub32 (w32 (134217726 + x21)) x39),
   (sub32 (w32 (67108862 + x20)) x38)⟩

/-- fiat32.h:308-422 `fe_mul_impl`, the 19 products. -/
def mulWide (in1 in2 : Fe) : Wide :=
  let x20 := in1.l9
  let x21 := in1.l8
  let x19 := in1.l7
  let x17 := in1.l6
  let x15 := in1.l5
  let x13 := in1.l4
  let x11 := in1.l3
  let x9 := in1.l2
  let x7 := in1.l1
  let x5 := in1.l0
  let x38 := in2.l9
  let x39 := in2.l8
  let x37 := in2.l7
  let x35 := in2.l6
  let x33 := in2.l5
  let x31 := in2.l4
  let x29 := in2.l3
  let x27 := in2.l2
  let x25 := in2.l1
  let x23 := in2.l0
  let x40 := (w64 (x23 * x5))
  let x41 := (w64 ((w64 (x23 * x7)) + (w64 (x25 * x5))))
  let x42 := (w64 ((w64 ((w64 ((w32 (2 * x25)) * x7)) + (w64 (x23 * x9)))) + (w64 (x27 * x5))))
  let x43 := (w64 ((w64 ((w64 ((w64 (x25 * x9)) + (w64 (x27 * x7)))) + (w64 (x23 * x11)))) + (w64 (x29 * x5))))
  let x44 := (w64 ((w64 ((w64 ((w64 (x27 * x9)) + (w64 (2 * (w64 ((w64 (x25 * x11)) + (w64 (x29 * x7)))))))) + (w64 (x23 * x13)))) + (w64 (x31 * x5))))
  let x45 := (w64 ((w64 ((w64 ((w64 ((w64 ((w64 (x27 * x11)) + (w64 (x29 * x9)))) + (w64 (x25 * x13)))) + (w64 (x31 * x7)))) + (w64 (x23 * x15)))) + (w64 (x33 * x5))))
  let x46 := (w64 ((w64 ((w64 ((w64 ((w64 (2 * (w64 ((w64 ((w64 (x29 * x11)) + (w64 (x25 * x15)))) + (w64 (x33 * x7)))))) + (w64 (x27 * x13)))) + (w64 (x31 * x9)))) + (w64 (x23 * x17)))) + (w64 (x35 * x5))))
  let x47 := (w64 ((w64 ((w64 ((w64 ((w64 ((w64 ((w64 ((w64 (x29 * x13)) + (w64 (x31 * x11)))) + (w64 (x27 * x15)))) + (w64 (x33 * x9)))) + (w64 (x25 * x17)))) + (w64 (x35 * x7)))) + (w64 (x23 * x19)))) + (w64 (x37 * x5))))
  let x48 := (w64 ((w64 ((w64 ((w64 ((w64 ((w64 (x31 * x13)) + (w64 (2 * (w64 ((w64 ((w64 ((w64 (x29 * x15)) + (w64 (x33 * x11)))) + (w64 (x25 * x19)))) + (w64 (x37 * x7)))))))) + (w64 (x27 * x17)))) + (w64 (x35 * x9)))) + (w64 (x23 * x21)))) + (w64 (x39 * x5))))
  let x49 := (w64 ((w64 ((w64 ((w64 ((w64 ((w64 ((w64 ((w64 ((w64 ((w64 (x31 * x15)) + (w64 (x33 * x13)))) + (w64 (x29 * x17)))) + (w64 (x35 * x11)))) + (w64 (x27 * x19)))) + (w64 (x37 * x9)))) + (w64 (x25 * x21)))) + (w64 (x39 * x7)))) + (w64 (x23 * x20)))) + (w64 (x38 * x5))))
  let x50 := (w64 ((w64 ((w64 ((w64 ((w64 (2 * (w64 ((w64 ((w64 ((w64 ((w64 (x33 * x15)) + (w64 (x29 * x19)))) + (w64 (x37 * x11)))) + (w64 (x25 * x20)))) + (w64 (x38 * x7)))))) + (w64 (x31 * x17)))) + (w64 (x35 * x13)))) + (w64 (x27 * x21)))) + (w64 (x39 * x9))))
  let x51 := (w64 ((w64 ((w64 ((w64 ((w64 ((w64 ((w64 ((w64 (x33 * x17)) + (w64 (x35 * x15)))) + (w64 (x31 * x19)))) + (w64 (x37 * x13)))) + (w64 (x29 * x21)))) + (w64 (x39 * x11)))) + (w64 (x27 * x20)))) + (w64 (x38 * x9))))
  let x52 := (w64 ((w64 ((w64 ((w64 (x35 * x17)) + (w64 (2 * (w64 ((w64 ((w64 ((w64 (x33 * x19)) + (w64 (x37 * x15)))) + (w64 (x29 * x20)))) + (w64 (x38 * x11)))))))) + (w64 (x31 * x21)))) + (w64 (x39 * x13))))
  let x53 := (w64 ((w64 ((w64 ((w64 ((w64 ((w64 (x35 * x19)) + (w64 (x37 * x17)))) + (w64 (x33 * x21)))) + (w64 (x39 * x15)))) + (w64 (x31 * x20)))) + (w64 (x38 * x13))))
  let x54 := (w64 ((w64 ((w64 (2 * (w64 ((w64 ((w64 (x37 * x19)) + (w64 (x33 * x20)))) + (w64 (x38 * x15)))))) + (w64 (x35 * x21)))) + (w64 (x39 * x17))))
  let x55 := (w64 ((w64 ((w64 ((w64 (x37 * x21)) + (w64 (x39 * x19)))) + (w64 (x35 * x20)))) + (w64 (x38 * x17))))
  let x56 := (w64 ((w64 (x39 * x21)) + (w64 (2 * (w64 ((w64 (x37 * x20)) + (w64 (x38 * x19))))))))
  let x57 := (w64 ((w64 (x39 * x20)) + (w64 (x38 * x21))))
  let x58 := (w64 ((w32 (2 * x38)) * x20))
  ⟨x40, x41, x42, x43, x44, x45, x46, x47, x48, x49, x50, x51, x52, x53, x54, x55, x56, x57, x58⟩

/-- fiat32.h:440-544 `fe_sqr_impl`, the 19 products. -/
def sqrWide (in1 : Fe) : Wide :=
  let x17 := in1.l9
  let x18 := in1.l8
  let x16 := in1.l7
  let x14 := in1.l6
  let x12 := in1.l5
  let x10 := in1.l4
  let x8 := in1.l3
  let x6 := in1.l2
  let x4 := in1.l1
  let x2 := in1.l0
  let x19 := (w64 (x2 * x2))
  let x20 := (w64 ((w32 (2 * x2)) * x4))
  let x21 := (w64 (2 * (w64 ((w64 (x4 * x4)) + (w64 (x2 * x6))))))
  let x22 := (w64 (2 * (w64 ((w64 (x4 * x6)) + (w64 (x2 * x8))))))
  let x23 := (w64 ((w64 ((w64 (x6 * x6)) + (w64 ((w32 (4 * x4)) * x8)))) + (w64 ((w32 (2 * x2)) * x10))))
  let x24 := (w64 (2 * (w64 ((w64 ((w64 (x6 * x8)) + (w64 (x4 * x10)))) + (w64 (x2 * x12))))))
  let x25 := (w64 (2 * (w64 ((w64 ((w64 ((w64 (x8 * x8)) + (w64 (x6 * x10)))) + (w64 (x2 * x14)))) + (w64 ((w32 (2 * x4)) * x12))))))
  let x26 := (w64 (2 * (w64 ((w64 ((w64 ((w64 (x8 * x10)) + (w64 (x6 * x12)))) + (w64 (x4 * x14)))) + (w64 (x2 * x16))))))
  let x27 := (w64 ((w64 (x10 * x10)) + (w64 (2 * (w64 ((w64 ((w64 (x6 * x14)) + (w64 (x2 * x18)))) + (w64 (2 * (w64 ((w64 (x4 * x16)) + (w64 (x8 * x12))))))))))))
  let x28 := (w64 (2 * (w64 ((w64 ((w64 ((w64 ((w64 (x10 * x12)) + (w64 (x8 * x14)))) + (w64 (x6 * x16)))) + (w64 (x4 * x18)))) + (w64 (x2 * x17))))))
  let x29 := (w64 (2 * (w64 ((w64 ((w64 ((w64 (x12 * x12)) + (w64 (x10 * x14)))) + (w64 (x6 * x18)))) + (w64 (2 * (w64 ((w64 (x8 * x16)) + (w64 (x4 * x17))))))))))
  let x30 := (w64 (2 * (w64 ((w64 ((w64 ((w64 (x12 * x14)) + (w64 (x10 * x16)))) + (w64 (x8 * x18)))) + (w64 (x6 * x17))))))
  let x31 := (w64 ((w64 (x14 * x14)) + (w64 (2 * (w64 ((w64 (x10 * x18)) + (w64 (2 * (w64 ((w64 (x12 * x16)) + (w64 (x8 * x17))))))))))))
  let x32 := (w64 (2 * (w64 ((w64 ((w64 (x14 * x16)) + (w64 (x12 * x18)))) + (w64 (x10 * x17))))))
  let x33 := (w64 (2 * (w64 ((w64 ((w64 (x16 * x16)) + (w64 (x14 * x18)))) + (w64 ((w32 (2 * x12)) * x17))))))
  let x34 := (w64 (2 * (w64 ((w64 (x16 * x18)) + (w64 (x14 * x17))))))
  let x35 := (w64 ((w64 (x18 * x18)) + (w64 ((w32 (4 * x16)) * x17))))
  let x36 := (w64 ((w32 (2 * x18)) * x17))
  let x37 := (w64 ((w32 (2 * x17)) * x17))
  ⟨x19, x20, x21, x22, x23, x24, x25, x26, x27, x28, x29, x30, x31, x32, x33, x34, x35, x36, x37⟩

/-- fiat32.h:631-745 `fe_mul_121666_impl`, the 19 products. -/
def mulWide121666 (in1 : Fe) : Wide :=
  let x20 := in1.l9
  let x21 := in1.l8
  let x19 := in1.l7
  let x17 := in1.l6
  let x15 := in1.l5
  let x13 := in1.l4
  let x11 := in1.l3
  let x9 := in1.l2
  let x7 := in1.l1
  let x5 := in1.l0
  let x38 := 0
  let x39 := 0
  let x37 := 0
  let x35 := 0
  let x33 := 0
  let x31 := 0
  let x29 := 0
  let x27 := 0
  let x25 := 0
  let x23 := 121666
  let x40 := (w64 (x23 * x5))
  let x41 := (w64 ((w64 (x23 * x7)) + (w64 (x25 * x5))))
  let x42 := (w64 ((w64 ((w64 ((w32 (2 * x25)) * x7)) + (w64 (x23 * x9)))) + (w64 (x27 * x5))))
  let x43 := (w64 ((w64 ((w64 ((w64 (x25 * x9)) + (w64 (x27 * x7)))) + (w64 (x23 * x11)))) + (w64 (x29 * x5))))
  let x44 := (w64 ((w64 ((w64 ((w64 (x27 * x9)) + (w64 (2 * (w64 ((w64 (x25 * x11)) + (w64 (x29 * x7)))))))) + (w64 (x23 * x13)))) + (w64 (x31 * x5))))
  let x45 := (w64 ((w64 ((w64 ((w64 ((w64 ((w64 (x27 * x11)) + (w64 (x29 * x9)))) + (w64 (x25 * x13)))) + (w64 (x31 * x7)))) + (w64 (x23 * x15)))) + (w64 (x33 * x5))))
  let x46 := (w64 ((w64 ((w64 ((w64 ((w64 (2 * (w64 ((w64 ((w64 (x29 * x11)) + (w64 (x25 * x15)))) + (w64 (x33 * x7)))))) + (w64 (x27 * x13)))) + (w64 (x31 * x9)))) + (w64 (x23 * x17)))) + (w64 (x35 * x5))))
  let x47 := (w64 ((w64 ((w64 ((w64 ((w64 ((w64 ((w64 ((w64 (x29 * x13)) + (w64 (x31 * x11)))) + (w64 (x27 * x15)))) + (w64 (x33 * x9)))) + (w64 (x25 * x17)))) + (w64 (x35 * x7)))) + (w64 (x23 * x19)))) + (w64 (x37 * x5))))
  let x48 := (w64 ((w64 ((w64 ((w64 ((w64 ((w64 (x31 * x13)) + (w64 (2 * (w64 ((w64 ((w64 ((w64 (x29 * x15)) + (w64 (x33 * x11)))) + (w64 (x25 * x19)))) + (w64 (x37 * x7)))))))) + (w64 (x27 * x17)))) + (w64 (x35 * x9)))) + (w64 (x23 * x21)))) + (w64 (x39 * x5))))
  let x49 := (w64 ((w64 ((w64 ((w64 ((w64 ((w64 ((w64 ((w64 ((w64 ((w64 (x31 * x15)) + (w64 (x33 * x13)))) + (w64 (x29 * x17)))) + (w64 (x35 * x11)))) + (w64 (x27 * x19)))) + (w64 (x37 * x9)))) + (w64 (x25 * x21)))) + (w64 (x39 * x7)))) + (w64 (x23 * x20)))) + (w64 (x38 * x5))))
  let x50 := (w64 ((w64 ((w64 ((w64 ((w64 (2 * (w64 ((w64 ((w64 ((w64 ((w64 (x33 * x15)) + (w64 (x29 * x19)))) + (w64 (x37 * x11)))) + (w64 (x25 * x20)))) + (w64 (x38 * x7)))))) + (w64 (x31 * x17)))) + (w64 (x35 * x13)))) + (w64 (x27 * x21)))) + (w64 (x39 * x9))))
  let x51 := (w64 ((w64 ((w64 ((w64 ((w64 ((w64 ((w64 ((w64 (x33 * x17)) + (w64 (x35 * x15)))) + (w64 (x31 * x19)))) + (w64 (x37 * x13)))) + (w64 (x29 * x21)))) + (w64 (x39 * x11)))) + (w64 (x27 * x20)))) + (w64 (x38 * x9))))
  let x52 := (w64 ((w64 ((w64 ((w64 (x35 * x17)) + (w64 (2 * (w64 ((w64 ((w64 ((w64 (x33 * x19)) + (w64 (x37 * x15)))) + (w64 (x29 * x20)))) + (w64 (x38 * x11)))))))) + (w64 (x31 * x21)))) + (w64 (x39 * x13))))
  let x53 := (w64 ((w64 ((w64 ((w64 ((w64 ((w64 (x35 * x19)) + (w64 (x37 * x17)))) + (w64 (x33 * x21)))) + (w64 (x39 * x15)))) + (w64 (x31 * x20)))) + (w64 (x38 * x13))))
  let x54 := (w64 ((w64 ((w64 (2 * (w64 ((w64 ((w64 (x37 * x19)) + (w64 (x33 * x20)))) + (w64 (x38 * x15)))))) + (w64 (x35 * x21)))) + (w64 (x39 * x17))))
  let x55 := (w64 ((w64 ((w64 ((w64 (x37 * x21)) + (w64 (x39 * x19)))) + (w64 (x35 * x20)))) + (w64 (x38 * x17))))
  let x56 := (w64 ((w64 (x39 * x21)) + (w64 (2 * (w64 ((w64 (x37 * x20)) + (w64 (x38 * x19))))))))
  let x57 := (w64 ((w64 (x39 * x20)) + (w64 (x38 * x21))))
  let x58 := (w64 ((w32 (2 * x38)) * x20))
  ⟨x40, x41, x42, x43, x44, x45, x46, x47, x48, x49, x50, x51, x52, x53, x54, x55, x56, x57, x58⟩

/-- fiat32.h:308-422 `fe_mul_impl`, x59 to x85 (the same in `fe_sqr_impl` and `fe_mul_121666_impl` up to names): the upper products times 19
to the lower ones. -/
def fold (w : Wide) : Fe :=
  let x40 := w.c0
  let x41 := w.c1
  let x42 := w.c2
  let x43 := w.c3
  let x44 := w.c4
  let x45 := w.c5
  let x46 := w.c6
  let x47 := w.c7
  let x48 := w.c8
  let x49 := w.c9
  let x50 := w.c10
  let x51 := w.c11
  let x52 := w.c12
  let x53 := w.c13
  let x54 := w.c14
  let x55 := w.c15
  let x56 := w.c16
  let x57 := w.c17
  let x58 := w.c18
  let x59 := (w64 (x48 + (w64 (x58 <<< 4))))
  let x60 := (w64 (x59 + (w64 (x58 <<< 1))))
  let x61 := (w64 (x60 + x58))
  let x62 := (w64 (x47 + (w64 (x57 <<< 4))))
  let x63 := (w64 (x62 + (w64 (x57 <<< 1))))
  let x64 := (w64 (x63 + x57))
  let x65 := (w64 (x46 + (w64 (x56 <<< 4))))
  let x66 := (w64 (x65 + (w64 (x56 <<< 1))))
  let x67 := (w64 (x66 + x56))
  let x68 := (w64 (x45 + (w64 (x55 <<< 4))))
  let x69 := (w64 (x68 + (w64 (x55 <<< 1))))
  let x70 := (w64 (x69 + x55))
  let x71 := (w64 (x44 + (w64 (x54 <<< 4))))
  let x72 := (w64 (x71 + (w64 (x54 <<< 1))))
  let x73 := (w64 (x72 + x54))
  let x74 := (w64 (x43 + (w64 (x53 <<< 4))))
  let x75 := (w64 (x74 + (w64 (x53 <<< 1))))
  let x76 := (w64 (x75 + x53))
  let x77 := (w64 (x42 + (w64 (x52 <<< 4))))
  let x78 := (w64 (x77 + (w64 (x52 <<< 1))))
  let x79 := (w64 (x78 + x52))
  let x80 := (w64 (x41 + (w64 (x51 <<< 4))))
  let x81 := (w64 (x80 + (w64 (x51 <<< 1))))
  let x82 := (w64 (x81 + x51))
  let x83 := (w64 (x40 + (w64 (x50 <<< 4))))
  let x84 := (w64 (x83 + (w64 (x50 <<< 1))))
  let x85 := (w64 (x84 + x50))
  ⟨x85, x82, x79, x76, x73, x70, x67, x64, x61, x49⟩

/-- fiat32.h:308-422 `fe_mul_impl`, from x86 on (the same in `fe_sqr_impl` and `fe_mul_121666_impl` up to names): the carries. -/
def carry (t : Fe) : Fe :=
  let x85 := t.l0
  let x82 := t.l1
  let x79 := t.l2
  let x76 := t.l3
  let x73 := t.l4
  let x70 := t.l5
  let x67 := t.l6
  let x64 := t.l7
  let x61 := t.l8
  let x49 := t.l9
  let x86 := (x85 >>> 26)
  let x87 := ((w32 x85) &&& 67108863)
  let x88 := (w64 (x86 + x82))
  let x89 := (x88 >>> 25)
  let x90 := ((w32 x88) &&& 33554431)
  let x91 := (w64 (x89 + x79))
  let x92 := (x91 >>> 26)
  let x93 := ((w32 x91) &&& 67108863)
  let x94 := (w64 (x92 + x76))
  let x95 := (x94 >>> 25)
  let x96 := ((w32 x94) &&& 33554431)
  let x97 := (w64 (x95 + x73))
  let x98 := (x97 >>> 26)
  let x99 := ((w32 x97) &&& 67108863)
  let x100 := (w64 (x98 + x70))
  let x101 := (x100 >>> 25)
  let x102 := ((w32 x100) &&& 33554431)
  let x103 := (w64 (x101 + x67))
  let x104 := (x103 >>> 26)
  let x105 := ((w32 x103) &&& 67108863)
  let x106 := (w64 (x104 + x64))
  let x107 := (x106 >>> 25)
  let x108 := ((w32 x106) &&& 33554431)
  let x109 := (w64 (x107 + x61))
  let x110 := (x109 >>> 26)
  let x111 := ((w32 x109) &&& 67108863)
  let x112 := (w64 (x110 + x49))
  let x113 := (x112 >>> 25)
  let x114 := ((w32 x112) &&& 33554431)
  let x115 := (w64 (x87 + (w64 (19 * x113))))
  let x116 := (w32 (x115 >>> 26))
  let x117 := ((w32 x115) &&& 67108863)
  let x118 := (w32 (x116 + x90))
  let x119 := (x118 >>> 25)
  let x120 := (x118 &&& 33554431)
  ⟨x117, x120, (w32 (x119 + x93)), x96, x99, x102, x105, x108, x111, x114⟩

end WG.C32
