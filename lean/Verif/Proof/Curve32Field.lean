import Mathlib.Tactic.LinearCombination
import Mathlib.Tactic.Ring
import Verif.Model.Curve32
import Verif.Proof.Curve64Field
/-! Field arithmetic of the 32-bit code: bounds of the limbs and values modulo p. -/
namespace WG.C32
open Spec.X25519

theorem and26 (n : Nat) : n &&& 67108863 = n % 2 ^ 26 := Nat.and_two_pow_sub_one_eq_mod n 26
theorem and25 (n : Nat) : n &&& 33554431 = n % 2 ^ 25 := Nat.and_two_pow_sub_one_eq_mod n 25
theorem shr (n k : Nat) : n >>> k = n / 2 ^ k := Nat.shiftRight_eq_div_pow n k

/-- The value of ten limbs: the exponents are 25.5 times the index, rounded up. -/
def val (f : Fe) : Nat :=
  f.l0 + 2 ^ 26 * f.l1 + 2 ^ 51 * f.l2 + 2 ^ 77 * f.l3 + 2 ^ 102 * f.l4 + 2 ^ 128 * f.l5 + 2 ^ 153 * f.l6 + 2 ^ 179 * f.l7 +
    2 ^ 204 * f.l8 + 2 ^ 230 * f.l9

/-- The value of ten limbs, in the field. -/
def fv (f : Fe) : F :=
  (f.l0 : F) + 2 ^ 26 * f.l1 + 2 ^ 51 * f.l2 + 2 ^ 77 * f.l3 + 2 ^ 102 * f.l4 + 2 ^ 128 * f.l5 + 2 ^ 153 * f.l6 + 2 ^ 179 * f.l7 +
    2 ^ 204 * f.l8 + 2 ^ 230 * f.l9

theorem fv_val (f : Fe) : fv f = (val f : F) := by
  unfold fv val
  simp only [Nat.cast_add, Nat.cast_mul, Nat.cast_pow, Nat.cast_ofNat]

/-- The output of a multiplication. -/
def Red (f : Fe) : Prop :=
  f.l0 < 2 ^ 26 ∧ f.l1 < 2 ^ 25 ∧ f.l2 ≤ 2 ^ 26 ∧ f.l3 < 2 ^ 25 ∧ f.l4 < 2 ^ 26 ∧ f.l5 < 2 ^ 25 ∧ f.l6 < 2 ^ 26 ∧ f.l7 < 2 ^ 25 ∧
    f.l8 < 2 ^ 26 ∧ f.l9 < 2 ^ 25

/-- What a multiplication accepts. -/
def Loose (f : Fe) : Prop :=
  f.l0 ≤ 3 * 2 ^ 26 ∧ f.l1 ≤ 3 * 2 ^ 25 ∧ f.l2 ≤ 3 * 2 ^ 26 ∧ f.l3 ≤ 3 * 2 ^ 25 ∧ f.l4 ≤ 3 * 2 ^ 26 ∧ f.l5 ≤ 3 * 2 ^ 25 ∧
    f.l6 ≤ 3 * 2 ^ 26 ∧ f.l7 ≤ 3 * 2 ^ 25 ∧ f.l8 ≤ 3 * 2 ^ 26 ∧ f.l9 ≤ 3 * 2 ^ 25

theorem Red.loose {f : Fe} (h : Red f) : Loose f := by
  unfold Red at h; unfold Loose; omega

theorem add_spec (a b : Fe) (ha : Red a) (hb : Red b) : Loose (add a b) ∧ fv (add a b) = fv a + fv b := by
  obtain ⟨a0, a1, a2, a3, a4, a5, a6, a7, a8, a9⟩ := a
  obtain ⟨b0, b1, b2, b3, b4, b5, b6, b7, b8, b9⟩ := b
  unfold Red at ha hb
  simp only at ha hb
  simp only [add, w32]
  rw [Nat.mod_eq_of_lt (show a0 + b0 < 2 ^ 32 by omega), Nat.mod_eq_of_lt (show a1 + b1 < 2 ^ 32 by omega),
    Nat.mod_eq_of_lt (show a2 + b2 < 2 ^ 32 by omega), Nat.mod_eq_of_lt (show a3 + b3 < 2 ^ 32 by omega),
    Nat.mod_eq_of_lt (show a4 + b4 < 2 ^ 32 by omega), Nat.mod_eq_of_lt (show a5 + b5 < 2 ^ 32 by omega),
    Nat.mod_eq_of_lt (show a6 + b6 < 2 ^ 32 by omega), Nat.mod_eq_of_lt (show a7 + b7 < 2 ^ 32 by omega),
    Nat.mod_eq_of_lt (show a8 + b8 < 2 ^ 32 by omega), Nat.mod_eq_of_lt (show a9 + b9 < 2 ^ 32 by omega)]
  refine ⟨by unfold Loose; simp only; omega, ?_⟩
  simp only [fv, Nat.cast_add]
  ring

theorem sub32_eq (k a b : Nat) (ha : a ≤ 2 ^ 26) (hb : b ≤ k) (hk : k < 2 ^ 28) : sub32 (w32 (k + a)) b = k + a - b := by
  unfold sub32 w32; omega

theorem sub_spec (a b : Fe) (ha : Red a) (hb : Red b) : Loose (sub a b) ∧ fv (sub a b) = fv a - fv b := by
  obtain ⟨a0, a1, a2, a3, a4, a5, a6, a7, a8, a9⟩ := a
  obtain ⟨b0, b1, b2, b3, b4, b5, b6, b7, b8, b9⟩ := b
  unfold Red at ha hb
  simp only at ha hb
  simp only [sub]
  rw [sub32_eq _ a0 b0 (by omega) (by omega) (by omega), sub32_eq _ a1 b1 (by omega) (by omega) (by omega),
    sub32_eq _ a2 b2 (by omega) (by omega) (by omega), sub32_eq _ a3 b3 (by omega) (by omega) (by omega),
    sub32_eq _ a4 b4 (by omega) (by omega) (by omega), sub32_eq _ a5 b5 (by omega) (by omega) (by omega),
    sub32_eq _ a6 b6 (by omega) (by omega) (by omega), sub32_eq _ a7 b7 (by omega) (by omega) (by omega),
    sub32_eq _ a8 b8 (by omega) (by omega) (by omega), sub32_eq _ a9 b9 (by omega) (by omega) (by omega)]
  refine ⟨by unfold Loose; simp only; omega, ?_⟩
  simp only [fv]
  rw [Nat.cast_sub (by omega : b0 ≤ _), Nat.cast_sub (by omega : b1 ≤ _), Nat.cast_sub (by omega : b2 ≤ _),
    Nat.cast_sub (by omega : b3 ≤ _), Nat.cast_sub (by omega : b4 ≤ _), Nat.cast_sub (by omega : b5 ≤ _),
    Nat.cast_sub (by omega : b6 ≤ _), Nat.cast_sub (by omega : b7 ≤ _), Nat.cast_sub (by omega : b8 ≤ _),
    Nat.cast_sub (by omega : b9 ≤ _)]
  push_cast
  linear_combination 2 * C64.two255

theorem w64_l (a b : Nat) : w64 (w64 a + b) = w64 (a + b) := by unfold w64; omega
theorem w64_r (a b : Nat) : w64 (a + w64 b) = w64 (a + b) := by unfold w64; omega
theorem w64_2 (a : Nat) : w64 (2 * w64 a) = w64 (2 * a) := by unfold w64; omega
theorem w64_shl (a k : Nat) : w64 (w64 a <<< k) = w64 (2 ^ k * a) := by
  unfold w64; rw [Nat.shiftLeft_eq, Nat.mul_comm, Nat.mul_mod_mod]

theorem w32_2e {a : Nat} (h : a ≤ 3 * 2 ^ 26) : w32 (2 * a) = 2 * a := Nat.mod_eq_of_lt (by omega)
theorem w32_2o {a : Nat} (h : a ≤ 3 * 2 ^ 25) : w32 (2 * a) = 2 * a := Nat.mod_eq_of_lt (by omega)
theorem w32_4o {a : Nat} (h : a ≤ 3 * 2 ^ 25) : w32 (4 * a) = 4 * a := Nat.mod_eq_of_lt (by omega)

/-- Squaring computes the same products as multiplying. -/
theorem sqrWide_eq (a : Fe) (ha : Loose a) : sqrWide a = mulWide a a := by
  obtain ⟨a0, a1, a2, a3, a4, a5, a6, a7, a8, a9⟩ := a
  obtain ⟨h0, h1, h2, h3, h4, h5, h6, h7, h8, h9⟩ := ha
  simp only at h0 h1 h2 h3 h4 h5 h6 h7 h8 h9
  simp only [sqrWide, mulWide, w32_2e h0, w32_2o h1, w32_2o h5, w32_2e h8, w32_2o h9, w32_4o h1, w32_4o h7, w64_l, w64_r, w64_2, Wide.mk.injEq]
  refine ⟨?_, ?_, ?_, ?_, ?_, ?_, ?_, ?_, ?_, ?_, ?_, ?_, ?_, ?_, ?_, ?_, ?_, ?_, ?_⟩ <;> first | trivial | (apply congrArg w64; ring)

theorem mul121666_eq (a : Fe) : mul121666 a = mul a ⟨121666, 0, 0, 0, 0, 0, 0, 0, 0, 0⟩ := rfl

theorem ee {a b : Nat} (ha : a ≤ 3 * 2 ^ 26) (hb : b ≤ 3 * 2 ^ 26) : a * b ≤ 9 * 2 ^ 52 :=
  le_trans (Nat.mul_le_mul ha hb) (by norm_num)
theorem eo {a b : Nat} (ha : a ≤ 3 * 2 ^ 26) (hb : b ≤ 3 * 2 ^ 25) : a * b ≤ 9 * 2 ^ 51 :=
  le_trans (Nat.mul_le_mul ha hb) (by norm_num)
theorem oe {a b : Nat} (ha : a ≤ 3 * 2 ^ 25) (hb : b ≤ 3 * 2 ^ 26) : a * b ≤ 9 * 2 ^ 51 :=
  le_trans (Nat.mul_le_mul ha hb) (by norm_num)
theorem oo {a b : Nat} (ha : a ≤ 3 * 2 ^ 25) (hb : b ≤ 3 * 2 ^ 25) : a * b ≤ 9 * 2 ^ 50 :=
  le_trans (Nat.mul_le_mul ha hb) (by norm_num)

theorem w64_id {n : Nat} (h : n < 2 ^ 64) : w64 n = n := Nat.mod_eq_of_lt h

/-- The ten sums of products, the upper ones times 19. -/
def conv (a b : Fe) : Fe :=
  ⟨a.l0 * b.l0 + 38 * (a.l1 * b.l9) + 19 * (a.l2 * b.l8) + 38 * (a.l3 * b.l7) + 19 * (a.l4 * b.l6) + 38 * (a.l5 * b.l5) + 19 * (a.l6 * b.l4) + 38 * (a.l7 * b.l3) + 19 * (a.l8 * b.l2) + 38 * (a.l9 * b.l1),
   a.l0 * b.l1 + a.l1 * b.l0 + 19 * (a.l2 * b.l9) + 19 * (a.l3 * b.l8) + 19 * (a.l4 * b.l7) + 19 * (a.l5 * b.l6) + 19 * (a.l6 * b.l5) + 19 * (a.l7 * b.l4) + 19 * (a.l8 * b.l3) + 19 * (a.l9 * b.l2),
   a.l0 * b.l2 + 2 * (a.l1 * b.l1) + a.l2 * b.l0 + 38 * (a.l3 * b.l9) + 19 * (a.l4 * b.l8) + 38 * (a.l5 * b.l7) + 19 * (a.l6 * b.l6) + 38 * (a.l7 * b.l5) + 19 * (a.l8 * b.l4) + 38 * (a.l9 * b.l3),
   a.l0 * b.l3 + a.l1 * b.l2 + a.l2 * b.l1 + a.l3 * b.l0 + 19 * (a.l4 * b.l9) + 19 * (a.l5 * b.l8) + 19 * (a.l6 * b.l7) + 19 * (a.l7 * b.l6) + 19 * (a.l8 * b.l5) + 19 * (a.l9 * b.l4),
   a.l0 * b.l4 + 2 * (a.l1 * b.l3) + a.l2 * b.l2 + 2 * (a.l3 * b.l1) + a.l4 * b.l0 + 38 * (a.l5 * b.l9) + 19 * (a.l6 * b.l8) + 38 * (a.l7 * b.l7) + 19 * (a.l8 * b.l6) + 38 * (a.l9 * b.l5),
   a.l0 * b.l5 + a.l1 * b.l4 + a.l2 * b.l3 + a.l3 * b.l2 + a.l4 * b.l1 + a.l5 * b.l0 + 19 * (a.l6 * b.l9) + 19 * (a.l7 * b.l8) + 19 * (a.l8 * b.l7) + 19 * (a.l9 * b.l6),
   a.l0 * b.l6 + 2 * (a.l1 * b.l5) + a.l2 * b.l4 + 2 * (a.l3 * b.l3) + a.l4 * b.l2 + 2 * (a.l5 * b.l1) + a.l6 * b.l0 + 38 * (a.l7 * b.l9) + 19 * (a.l8 * b.l8) + 38 * (a.l9 * b.l7),
   a.l0 * b.l7 + a.l1 * b.l6 + a.l2 * b.l5 + a.l3 * b.l4 + a.l4 * b.l3 + a.l5 * b.l2 + a.l6 * b.l1 + a.l7 * b.l0 + 19 * (a.l8 * b.l9) + 19 * (a.l9 * b.l8),
   a.l0 * b.l8 + 2 * (a.l1 * b.l7) + a.l2 * b.l6 + 2 * (a.l3 * b.l5) + a.l4 * b.l4 + 2 * (a.l5 * b.l3) + a.l6 * b.l2 + 2 * (a.l7 * b.l1) + a.l8 * b.l0 + 38 * (a.l9 * b.l9),
   a.l0 * b.l9 + a.l1 * b.l8 + a.l2 * b.l7 + a.l3 * b.l6 + a.l4 * b.l5 + a.l5 * b.l4 + a.l6 * b.l3 + a.l7 * b.l2 + a.l8 * b.l1 + a.l9 * b.l0⟩

theorem conv_bound (a b : Fe) (ha : Loose a) (hb : Loose b) :
    (conv a b).l0 < 2 ^ 63 ∧ (conv a b).l1 < 2 ^ 63 ∧ (conv a b).l2 < 2 ^ 63 ∧ (conv a b).l3 < 2 ^ 63 ∧ (conv a b).l4 < 2 ^ 63 ∧ (conv a b).l5 < 2 ^ 63 ∧ (conv a b).l6 < 2 ^ 63 ∧ (conv a b).l7 < 2 ^ 63 ∧ (conv a b).l8 < 2 ^ 63 ∧ (conv a b).l9 < 46 * 2 ^ 52 := by
  obtain ⟨h0, h1, h2, h3, h4, h5, h6, h7, h8, h9⟩ := ha
  obtain ⟨g0, g1, g2, g3, g4, g5, g6, g7, g8, g9⟩ := hb
  simp only [conv]
  refine ⟨?_, ?_, ?_, ?_, ?_, ?_, ?_, ?_, ?_, ?_⟩
  · have := ee h0 g0
    have := oo h1 g9
    have := ee h2 g8
    have := oo h3 g7
    have := ee h4 g6
    have := oo h5 g5
    have := ee h6 g4
    have := oo h7 g3
    have := ee h8 g2
    have := oo h9 g1
    omega
  · have := eo h0 g1
    have := oe h1 g0
    have := eo h2 g9
    have := oe h3 g8
    have := eo h4 g7
    have := oe h5 g6
    have := eo h6 g5
    have := oe h7 g4
    have := eo h8 g3
    have := oe h9 g2
    omega
  · have := ee h0 g2
    have := oo h1 g1
    have := ee h2 g0
    have := oo h3 g9
    have := ee h4 g8
    have := oo h5 g7
    have := ee h6 g6
    have := oo h7 g5
    have := ee h8 g4
    have := oo h9 g3
    omega
  · have := eo h0 g3
    have := oe h1 g2
    have := eo h2 g1
    have := oe h3 g0
    have := eo h4 g9
    have := oe h5 g8
    have := eo h6 g7
    have := oe h7 g6
    have := eo h8 g5
    have := oe h9 g4
    omega
  · have := ee h0 g4
    have := oo h1 g3
    have := ee h2 g2
    have := oo h3 g1
    have := ee h4 g0
    have := oo h5 g9
    have := ee h6 g8
    have := oo h7 g7
    have := ee h8 g6
    have := oo h9 g5
    omega
  · have := eo h0 g5
    have := oe h1 g4
    have := eo h2 g3
    have := oe h3 g2
    have := eo h4 g1
    have := oe h5 g0
    have := eo h6 g9
    have := oe h7 g8
    have := eo h8 g7
    have := oe h9 g6
    omega
  · have := ee h0 g6
    have := oo h1 g5
    have := ee h2 g4
    have := oo h3 g3
    have := ee h4 g2
    have := oo h5 g1
    have := ee h6 g0
    have := oo h7 g9
    have := ee h8 g8
    have := oo h9 g7
    omega
  · have := eo h0 g7
    have := oe h1 g6
    have := eo h2 g5
    have := oe h3 g4
    have := eo h4 g3
    have := oe h5 g2
    have := eo h6 g1
    have := oe h7 g0
    have := eo h8 g9
    have := oe h9 g8
    omega
  · have := ee h0 g8
    have := oo h1 g7
    have := ee h2 g6
    have := oo h3 g5
    have := ee h4 g4
    have := oo h5 g3
    have := ee h6 g2
    have := oo h7 g1
    have := ee h8 g0
    have := oo h9 g9
    omega
  · have := eo h0 g9
    have := oe h1 g8
    have := eo h2 g7
    have := oe h3 g6
    have := eo h4 g5
    have := oe h5 g4
    have := eo h6 g3
    have := oe h7 g2
    have := eo h8 g1
    have := oe h9 g0
    omega

theorem fold_mulWide (a b : Fe) (ha : Loose a) (hb : Loose b) : fold (mulWide a b) = conv a b := by
  have hc := conv_bound a b ha hb
  obtain ⟨c0, c1, c2, c3, c4, c5, c6, c7, c8, c9⟩ := hc
  obtain ⟨h0, h1, h2, h3, h4, h5, h6, h7, h8, h9⟩ := ha
  obtain ⟨g0, g1, g2, g3, g4, g5, g6, g7, g8, g9⟩ := hb
  simp only [conv] at c0 c1 c2 c3 c4 c5 c6 c7 c8 c9
  simp only [mulWide, fold, conv, w32_2o g1, w32_2o g9, w64_l, w64_r, w64_2, w64_shl, Fe.mk.injEq]
  refine ⟨?_, ?_, ?_, ?_, ?_, ?_, ?_, ?_, ?_, ?_⟩
  · rw [← w64_id (lt_trans c0 (by norm_num))]
    apply congrArg w64; ring
  · rw [← w64_id (lt_trans c1 (by norm_num))]
    apply congrArg w64; ring
  · rw [← w64_id (lt_trans c2 (by norm_num))]
    apply congrArg w64; ring
  · rw [← w64_id (lt_trans c3 (by norm_num))]
    apply congrArg w64; ring
  · rw [← w64_id (lt_trans c4 (by norm_num))]
    apply congrArg w64; ring
  · rw [← w64_id (lt_trans c5 (by norm_num))]
    apply congrArg w64; ring
  · rw [← w64_id (lt_trans c6 (by norm_num))]
    apply congrArg w64; ring
  · rw [← w64_id (lt_trans c7 (by norm_num))]
    apply congrArg w64; ring
  · rw [← w64_id (lt_trans c8 (by norm_num))]
    apply congrArg w64; ring
  · rw [← w64_id (lt_trans c9 (by norm_num))]
    apply congrArg w64; ring

theorem conv_fv (a b : Fe) : fv (conv a b) = fv a * fv b := by
  simp only [fv, conv]
  push_cast
  linear_combination (-1 : F) * (2 ^ 0 * (2 * ((a.l1 : F) * b.l9) + (a.l2 : F) * b.l8 + 2 * ((a.l3 : F) * b.l7) + (a.l4 : F) * b.l6 + 2 * ((a.l5 : F) * b.l5) + (a.l6 : F) * b.l4 + 2 * ((a.l7 : F) * b.l3) + (a.l8 : F) * b.l2 + 2 * ((a.l9 : F) * b.l1)) + 2 ^ 26 * ((a.l2 : F) * b.l9 + (a.l3 : F) * b.l8 + (a.l4 : F) * b.l7 + (a.l5 : F) * b.l6 + (a.l6 : F) * b.l5 + (a.l7 : F) * b.l4 + (a.l8 : F) * b.l3 + (a.l9 : F) * b.l2) + 2 ^ 51 * (2 * ((a.l3 : F) * b.l9) + (a.l4 : F) * b.l8 + 2 * ((a.l5 : F) * b.l7) + (a.l6 : F) * b.l6 + 2 * ((a.l7 : F) * b.l5) + (a.l8 : F) * b.l4 + 2 * ((a.l9 : F) * b.l3)) + 2 ^ 77 * ((a.l4 : F) * b.l9 + (a.l5 : F) * b.l8 + (a.l6 : F) * b.l7 + (a.l7 : F) * b.l6 + (a.l8 : F) * b.l5 + (a.l9 : F) * b.l4) + 2 ^ 102 * (2 * ((a.l5 : F) * b.l9) + (a.l6 : F) * b.l8 + 2 * ((a.l7 : F) * b.l7) + (a.l8 : F) * b.l6 + 2 * ((a.l9 : F) * b.l5)) + 2 ^ 128 * ((a.l6 : F) * b.l9 + (a.l7 : F) * b.l8 + (a.l8 : F) * b.l7 + (a.l9 : F) * b.l6) + 2 ^ 153 * (2 * ((a.l7 : F) * b.l9) + (a.l8 : F) * b.l8 + 2 * ((a.l9 : F) * b.l7)) + 2 ^ 179 * ((a.l8 : F) * b.l9 + (a.l9 : F) * b.l8) + 2 ^ 204 * (2 * ((a.l9 : F) * b.l9))) * C64.two255

/-- The carries: the value decreases by a multiple of p and the limbs are reduced. -/
theorem carry_spec (t : Fe) (h0 : t.l0 < 2 ^ 63) (h1 : t.l1 < 2 ^ 63) (h2 : t.l2 < 2 ^ 63) (h3 : t.l3 < 2 ^ 63) (h4 : t.l4 < 2 ^ 63)
    (h5 : t.l5 < 2 ^ 63) (h6 : t.l6 < 2 ^ 63) (h7 : t.l7 < 2 ^ 63) (h8 : t.l8 < 2 ^ 63) (h9 : t.l9 < 46 * 2 ^ 52) :
    Red (carry t) ∧ ∃ k, val (carry t) + k * (2 ^ 255 - 19) = val t := by
  obtain ⟨t0, t1, t2, t3, t4, t5, t6, t7, t8, t9⟩ := t
  simp only at h0 h1 h2 h3 h4 h5 h6 h7 h8 h9
  simp only [carry, and26, and25, shr, w64, w32, val, Red]
  have m : ∀ n : Nat, n % 2 ^ 32 % 2 ^ 26 = n % 2 ^ 26 := by intro n; omega
  have m' : ∀ n : Nat, n % 2 ^ 32 % 2 ^ 25 = n % 2 ^ 25 := by intro n; omega
  simp only [m, m']
  generalize hq0 : t0 / 2 ^ 26 = q0 at *
  generalize hr0 : t0 % 2 ^ 26 = r0 at *
  have v0 : t0 = 2 ^ 26 * q0 + r0 ∧ r0 < 2 ^ 26 ∧ q0 < 2 ^ 38 := by omega
  clear hq0 hr0
  rw [Nat.mod_eq_of_lt (show q0 + t1 < 2 ^ 64 by omega)]
  generalize hu1 : q0 + t1 = u1 at *
  generalize hq1 : u1 / 2 ^ 25 = q1 at *
  generalize hr1 : u1 % 2 ^ 25 = r1 at *
  have v1 : u1 = 2 ^ 25 * q1 + r1 ∧ r1 < 2 ^ 25 ∧ q1 < 2 ^ 39 := by omega
  clear hq1 hr1
  rw [Nat.mod_eq_of_lt (show q1 + t2 < 2 ^ 64 by omega)]
  generalize hu2 : q1 + t2 = u2 at *
  generalize hq2 : u2 / 2 ^ 26 = q2 at *
  generalize hr2 : u2 % 2 ^ 26 = r2 at *
  have v2 : u2 = 2 ^ 26 * q2 + r2 ∧ r2 < 2 ^ 26 ∧ q2 < 2 ^ 38 := by omega
  clear hq2 hr2
  rw [Nat.mod_eq_of_lt (show q2 + t3 < 2 ^ 64 by omega)]
  generalize hu3 : q2 + t3 = u3 at *
  generalize hq3 : u3 / 2 ^ 25 = q3 at *
  generalize hr3 : u3 % 2 ^ 25 = r3 at *
  have v3 : u3 = 2 ^ 25 * q3 + r3 ∧ r3 < 2 ^ 25 ∧ q3 < 2 ^ 39 := by omega
  clear hq3 hr3
  rw [Nat.mod_eq_of_lt (show q3 + t4 < 2 ^ 64 by omega)]
  generalize hu4 : q3 + t4 = u4 at *
  generalize hq4 : u4 / 2 ^ 26 = q4 at *
  generalize hr4 : u4 % 2 ^ 26 = r4 at *
  have v4 : u4 = 2 ^ 26 * q4 + r4 ∧ r4 < 2 ^ 26 ∧ q4 < 2 ^ 38 := by omega
  clear hq4 hr4
  rw [Nat.mod_eq_of_lt (show q4 + t5 < 2 ^ 64 by omega)]
  generalize hu5 : q4 + t5 = u5 at *
  generalize hq5 : u5 / 2 ^ 25 = q5 at *
  generalize hr5 : u5 % 2 ^ 25 = r5 at *
  have v5 : u5 = 2 ^ 25 * q5 + r5 ∧ r5 < 2 ^ 25 ∧ q5 < 2 ^ 39 := by omega
  clear hq5 hr5
  rw [Nat.mod_eq_of_lt (show q5 + t6 < 2 ^ 64 by omega)]
  generalize hu6 : q5 + t6 = u6 at *
  generalize hq6 : u6 / 2 ^ 26 = q6 at *
  generalize hr6 : u6 % 2 ^ 26 = r6 at *
  have v6 : u6 = 2 ^ 26 * q6 + r6 ∧ r6 < 2 ^ 26 ∧ q6 < 2 ^ 38 := by omega
  clear hq6 hr6
  rw [Nat.mod_eq_of_lt (show q6 + t7 < 2 ^ 64 by omega)]
  generalize hu7 : q6 + t7 = u7 at *
  generalize hq7 : u7 / 2 ^ 25 = q7 at *
  generalize hr7 : u7 % 2 ^ 25 = r7 at *
  have v7 : u7 = 2 ^ 25 * q7 + r7 ∧ r7 < 2 ^ 25 ∧ q7 < 2 ^ 39 := by omega
  clear hq7 hr7
  rw [Nat.mod_eq_of_lt (show q7 + t8 < 2 ^ 64 by omega)]
  generalize hu8 : q7 + t8 = u8 at *
  generalize hq8 : u8 / 2 ^ 26 = q8 at *
  generalize hr8 : u8 % 2 ^ 26 = r8 at *
  have v8 : u8 = 2 ^ 26 * q8 + r8 ∧ r8 < 2 ^ 26 ∧ q8 < 2 ^ 38 := by omega
  clear hq8 hr8
  rw [Nat.mod_eq_of_lt (show q8 + t9 < 2 ^ 64 by omega)]
  generalize hu9 : q8 + t9 = u9 at *
  generalize hq9 : u9 / 2 ^ 25 = q9 at *
  generalize hr9 : u9 % 2 ^ 25 = r9 at *
  have v9 : u9 = 2 ^ 25 * q9 + r9 ∧ r9 < 2 ^ 25 ∧ q9 < 2 ^ 33 := by omega
  clear hq9 hr9
  rw [Nat.mod_eq_of_lt (show 19 * q9 < 2 ^ 64 by omega), Nat.mod_eq_of_lt (show r0 + 19 * q9 < 2 ^ 64 by omega)]
  generalize hx : r0 + 19 * q9 = x at *
  have hx' : x < 2 ^ 38 := by omega
  generalize hq : x / 2 ^ 26 = q at *
  generalize hr : x % 2 ^ 26 = r at *
  have hv : x = 2 ^ 26 * q + r ∧ r < 2 ^ 26 ∧ q < 2 ^ 12 := by omega
  clear hq hr
  rw [Nat.mod_eq_of_lt (show q < 2 ^ 32 by omega), Nat.mod_eq_of_lt (show q + r1 < 2 ^ 32 by omega)]
  generalize hy : q + r1 = y at *
  generalize hqy : y / 2 ^ 25 = qy at *
  generalize hry : y % 2 ^ 25 = ry at *
  have hvy : y = 2 ^ 25 * qy + ry ∧ ry < 2 ^ 25 ∧ qy ≤ 1 := by omega
  clear hqy hry
  rw [Nat.mod_eq_of_lt (show qy + r2 < 2 ^ 32 by omega)]
  refine ⟨by omega, q9, ?_⟩
  omega

theorem mul_spec (a b : Fe) (ha : Loose a) (hb : Loose b) : Red (mul a b) ∧ fv (mul a b) = fv a * fv b := by
  unfold mul
  rw [fold_mulWide a b ha hb, ← conv_fv]
  obtain ⟨c0, c1, c2, c3, c4, c5, c6, c7, c8, c9⟩ := conv_bound a b ha hb
  obtain ⟨h, k, hk⟩ := carry_spec _ c0 c1 c2 c3 c4 c5 c6 c7 c8 c9
  refine ⟨h, ?_⟩
  rw [fv_val, fv_val, ← hk]
  have : ((2 ^ 255 - 19 : ℕ) : F) = 0 := ZMod.natCast_self p
  rw [Nat.cast_add, Nat.cast_mul, this, mul_zero, add_zero]

theorem sqr_spec (a : Fe) (ha : Loose a) : Red (sqr a) ∧ fv (sqr a) = fv a * fv a := by
  unfold sqr
  rw [sqrWide_eq a ha]
  exact mul_spec a a ha ha

theorem mul121666_spec (a : Fe) (ha : Loose a) : Red (mul121666 a) ∧ fv (mul121666 a) = 121666 * fv a := by
  have hb : Loose ⟨121666, 0, 0, 0, 0, 0, 0, 0, 0, 0⟩ := by unfold Loose; norm_num
  have h := mul_spec a _ ha hb
  rw [← mul121666_eq] at h
  refine ⟨h.1, ?_⟩
  rw [h.2]
  have : fv ⟨121666, 0, 0, 0, 0, 0, 0, 0, 0, 0⟩ = 121666 := by simp [fv]
  rw [this, mul_comm]

end WG.C32
