import Mathlib.Tactic.LinearCombination
import Mathlib.Tactic.Ring
import Verif.Model.Curve64
import Verif.Proof.CurvePrime
/-! Field arithmetic of the 64-bit code: bounds of the limbs and values modulo p. -/
namespace WG.C64
open Spec.X25519

theorem and_m51 (n : Nat) : n &&& m51 = n % 2 ^ 51 := by
  have := Nat.and_two_pow_sub_one_eq_mod n 51
  exact this

theorem shr (n k : Nat) : n >>> k = n / 2 ^ k := Nat.shiftRight_eq_div_pow n k

/-- The value of five limbs. -/
def val (f : Fe) : Nat := f.l0 + 2 ^ 51 * f.l1 + 2 ^ 102 * f.l2 + 2 ^ 153 * f.l3 + 2 ^ 204 * f.l4

/-- The value of five limbs, in the field. -/
def fv (f : Fe) : F := (f.l0 : F) + 2 ^ 51 * f.l1 + 2 ^ 102 * f.l2 + 2 ^ 153 * f.l3 + 2 ^ 204 * f.l4

theorem fv_val (f : Fe) : fv f = (val f : F) := by
  unfold fv val
  simp only [Nat.cast_add, Nat.cast_mul, Nat.cast_pow, Nat.cast_ofNat]

theorem two255 : (2 : F) ^ 255 = 19 := by
  have h : ((2 ^ 255 : ℕ) : F) = ((p + 19 : ℕ) : F) := by congr 1
  rw [Nat.cast_pow, Nat.cast_add, ZMod.natCast_self, zero_add] at h
  exact h

/-- The output of a multiplication. -/
def Red (f : Fe) : Prop := f.l0 < 2 ^ 51 ∧ f.l1 < 2 ^ 51 + 2 ^ 13 ∧ f.l2 < 2 ^ 51 ∧ f.l3 < 2 ^ 51 ∧ f.l4 < 2 ^ 51

/-- What a multiplication accepts. -/
def Loose (f : Fe) : Prop :=
  f.l0 ≤ 9 * 2 ^ 51 + 2 ^ 14 ∧ f.l1 ≤ 9 * 2 ^ 51 + 2 ^ 14 ∧ f.l2 ≤ 9 * 2 ^ 51 + 2 ^ 14 ∧ f.l3 ≤ 9 * 2 ^ 51 + 2 ^ 14 ∧
    f.l4 ≤ 9 * 2 ^ 51 + 2 ^ 14

theorem Red.loose {f : Fe} (h : Red f) : Loose f := by
  unfold Red at h; unfold Loose; omega

/-- The carries over a wide array. -/
theorem reduce (t : Fe) (h0 : t.l0 < 2 ^ 120) (h1 : t.l1 < 2 ^ 120) (h2 : t.l2 < 2 ^ 120) (h3 : t.l3 < 2 ^ 120)
    (h4 : t.l4 < 410 * 2 ^ 102) :
    ∃ k, val (copyFromWide (wideTop (carryWide t))) + k * (2 ^ 255 - 19) = val t ∧ 19 * k + 2 ^ 51 < 2 ^ 64 ∧ k ≤ t.l4 / 2 ^ 51 + 2 ^ 20 ∧
      (copyFromWide (wideTop (carryWide t))).l0 < 2 ^ 51 + 19 * k ∧ (copyFromWide (wideTop (carryWide t))).l1 < 2 ^ 51 ∧
      (copyFromWide (wideTop (carryWide t))).l2 < 2 ^ 51 ∧ (copyFromWide (wideTop (carryWide t))).l3 < 2 ^ 51 ∧
      (copyFromWide (wideTop (carryWide t))).l4 < 2 ^ 51 := by
  obtain ⟨t0, t1, t2, t3, t4⟩ := t
  simp only at h0 h1 h2 h3 h4
  simp only [carryWide, wideTop, copyFromWide, and_m51, shr, w64, w128, val]
  have e1 : (t1 + t0 / 2 ^ 51) % 2 ^ 128 = t1 + t0 / 2 ^ 51 := Nat.mod_eq_of_lt (by omega)
  rw [e1]
  generalize hq0 : t0 / 2 ^ 51 = q0 at *
  generalize ht1 : t1 + q0 = u1 at *
  have e2 : (t2 + u1 / 2 ^ 51) % 2 ^ 128 = t2 + u1 / 2 ^ 51 := Nat.mod_eq_of_lt (by omega)
  rw [e2]
  generalize hq1 : u1 / 2 ^ 51 = q1 at *
  generalize ht2 : t2 + q1 = u2 at *
  have e3 : (t3 + u2 / 2 ^ 51) % 2 ^ 128 = t3 + u2 / 2 ^ 51 := Nat.mod_eq_of_lt (by omega)
  rw [e3]
  generalize hq2 : u2 / 2 ^ 51 = q2 at *
  generalize ht3 : t3 + q2 = u3 at *
  have b3 : u3 / 2 ^ 51 < 2 ^ 70 := by omega
  have e4 : (t4 + u3 / 2 ^ 51) % 2 ^ 128 = t4 + u3 / 2 ^ 51 := Nat.mod_eq_of_lt (by omega)
  rw [e4]
  generalize hq3 : u3 / 2 ^ 51 = q3 at *
  generalize ht4 : t4 + q3 = u4 at *
  have b4 : u4 < 411 * 2 ^ 102 := by omega
  have b5 : u4 / 2 ^ 51 < 411 * 2 ^ 51 := by omega
  have b6 : u4 / 2 ^ 51 ≤ t4 / 2 ^ 51 + 2 ^ 20 := by omega
  generalize hq4 : u4 / 2 ^ 51 = q4 at *
  have m0 : t0 % 2 ^ 64 % 2 ^ 51 = t0 - 2 ^ 51 * q0 := by omega
  have m1 : u1 % 2 ^ 64 % 2 ^ 51 = u1 - 2 ^ 51 * q1 := by omega
  have m2 : u2 % 2 ^ 64 % 2 ^ 51 = u2 - 2 ^ 51 * q2 := by omega
  have m3 : u3 % 2 ^ 64 % 2 ^ 51 = u3 - 2 ^ 51 * q3 := by omega
  have m4 : u4 % 2 ^ 51 = u4 - 2 ^ 51 * q4 := by omega
  rw [m0, m1, m2, m3, m4]
  have c0 : t0 - 2 ^ 51 * q0 < 2 ^ 51 ∧ 2 ^ 51 * q0 ≤ t0 := by omega
  have c1 : u1 - 2 ^ 51 * q1 < 2 ^ 51 ∧ 2 ^ 51 * q1 ≤ u1 := by omega
  have c2 : u2 - 2 ^ 51 * q2 < 2 ^ 51 ∧ 2 ^ 51 * q2 ≤ u2 := by omega
  have c3 : u3 - 2 ^ 51 * q3 < 2 ^ 51 ∧ 2 ^ 51 * q3 ≤ u3 := by omega
  have c4 : u4 - 2 ^ 51 * q4 < 2 ^ 51 ∧ 2 ^ 51 * q4 ≤ u4 := by omega
  clear hq0 hq1 hq2 hq3 hq4 m0 m1 m2 m3 m4 e1 e2 e3 e4
  generalize hr0 : t0 - 2 ^ 51 * q0 = r0 at *
  generalize hr1 : u1 - 2 ^ 51 * q1 = r1 at *
  generalize hr2 : u2 - 2 ^ 51 * q2 = r2 at *
  generalize hr3 : u3 - 2 ^ 51 * q3 = r3 at *
  generalize hr4 : u4 - 2 ^ 51 * q4 = r4 at *
  have f0 : (r0 + 19 * (q4 % 2 ^ 64) % 2 ^ 128) % 2 ^ 128 % 2 ^ 64 = r0 + 19 * q4 := by omega
  have f1 : r1 % 2 ^ 64 = r1 := by omega
  have f2 : r2 % 2 ^ 64 = r2 := by omega
  have f3 : r3 % 2 ^ 64 = r3 := by omega
  have f4 : r4 % 2 ^ 64 = r4 := by omega
  rw [f0, f1, f2, f3, f4]
  exact ⟨q4, by omega, by omega, b6, by omega, by omega, by omega, by omega, by omega⟩

theorem lowCarry_spec (o : Fe) (h0 : o.l0 < 2 ^ 64) (h1 : o.l1 < 2 ^ 51) :
    val (lowCarry o) = val o ∧ (lowCarry o).l0 < 2 ^ 51 ∧ (lowCarry o).l1 < 2 ^ 51 + 2 ^ 13 := by
  obtain ⟨t0, t1, t2, t3, t4⟩ := o
  simp only at h0 h1
  simp only [lowCarry, and_m51, shr, w64, val]
  have : (t1 + t0 / 2 ^ 51) % 2 ^ 64 = t1 + t0 / 2 ^ 51 := Nat.mod_eq_of_lt (by omega)
  rw [this]
  refine ⟨?_, ?_, ?_⟩ <;> omega

theorem reduce_red (t : Fe) (h0 : t.l0 < 2 ^ 120) (h1 : t.l1 < 2 ^ 120) (h2 : t.l2 < 2 ^ 120) (h3 : t.l3 < 2 ^ 120)
    (h4 : t.l4 < 410 * 2 ^ 102) :
    Red (lowCarry (copyFromWide (wideTop (carryWide t)))) ∧ fv (lowCarry (copyFromWide (wideTop (carryWide t)))) = fv t := by
  obtain ⟨k, hv, hk, -, b0, b1, b2, b3, b4⟩ := reduce t h0 h1 h2 h3 h4
  obtain ⟨v, l0, l1⟩ := lowCarry_spec _ (lt_trans b0 (by omega)) b1
  refine ⟨⟨l0, l1, b2, b3, b4⟩, ?_⟩
  rw [fv_val, fv_val, v, ← hv]
  have : ((2 ^ 255 - 19 : ℕ) : F) = 0 := ZMod.natCast_self p
  rw [Nat.cast_add, Nat.cast_mul, this, mul_zero, add_zero]

theorem mul_bound {a b : Nat} (ha : a ≤ 9 * 2 ^ 51 + 2 ^ 14) (hb : b ≤ 9 * 2 ^ 51 + 2 ^ 14) :
    a * b ≤ 82 * 2 ^ 102 - 2 ^ 101 := le_trans (Nat.mul_le_mul ha hb) (by norm_num)

theorem w64_19 {a : Nat} (ha : a ≤ 9 * 2 ^ 51 + 2 ^ 14) : w64 (19 * a) = 19 * a := Nat.mod_eq_of_lt (by omega)

theorem w64_19' {a : Nat} (ha : a ≤ 9 * 2 ^ 51 + 2 ^ 14) : w64 (a * 19) = 19 * a := by
  rw [mul_comm]; exact w64_19 ha

theorem mulWide_eq (a b : Fe) (ha : Loose a) (hb : Loose b) :
    mulShiftReduce a b =
     ⟨a.l0 * b.l0 + 19 * (a.l4 * b.l1) + 19 * (a.l3 * b.l2) + 19 * (a.l2 * b.l3) + 19 * (a.l1 * b.l4),
      a.l1 * b.l0 + a.l0 * b.l1 + 19 * (a.l4 * b.l2) + 19 * (a.l3 * b.l3) + 19 * (a.l2 * b.l4),
      a.l2 * b.l0 + a.l1 * b.l1 + a.l0 * b.l2 + 19 * (a.l4 * b.l3) + 19 * (a.l3 * b.l4),
      a.l3 * b.l0 + a.l2 * b.l1 + a.l1 * b.l2 + a.l0 * b.l3 + 19 * (a.l4 * b.l4),
      a.l4 * b.l0 + a.l3 * b.l1 + a.l2 * b.l2 + a.l1 * b.l3 + a.l0 * b.l4⟩ := by
  obtain ⟨a0, a1, a2, a3, a4⟩ := a
  obtain ⟨b0, b1, b2, b3, b4⟩ := b
  obtain ⟨ha0, ha1, ha2, ha3, ha4⟩ := ha
  obtain ⟨hb0, hb1, hb2, hb3, hb4⟩ := hb
  simp only at ha0 ha1 ha2 ha3 ha4 hb0 hb1 hb2 hb3 hb4
  simp only [mulShiftReduce, shiftReduce, sumScalarMul, w64_19 ha1, w64_19 ha2, w64_19 ha3, w64_19 ha4, mul_assoc, w128, Nat.zero_add]
  have h00 := mul_bound ha0 hb0
  have h01 := mul_bound ha0 hb1
  have h02 := mul_bound ha0 hb2
  have h03 := mul_bound ha0 hb3
  have h04 := mul_bound ha0 hb4
  have h10 := mul_bound ha1 hb0
  have h11 := mul_bound ha1 hb1
  have h12 := mul_bound ha1 hb2
  have h13 := mul_bound ha1 hb3
  have h14 := mul_bound ha1 hb4
  have h20 := mul_bound ha2 hb0
  have h21 := mul_bound ha2 hb1
  have h22 := mul_bound ha2 hb2
  have h23 := mul_bound ha2 hb3
  have h24 := mul_bound ha2 hb4
  have h30 := mul_bound ha3 hb0
  have h31 := mul_bound ha3 hb1
  have h32 := mul_bound ha3 hb2
  have h33 := mul_bound ha3 hb3
  have h34 := mul_bound ha3 hb4
  have h40 := mul_bound ha4 hb0
  have h41 := mul_bound ha4 hb1
  have h42 := mul_bound ha4 hb2
  have h43 := mul_bound ha4 hb3
  have h44 := mul_bound ha4 hb4
  clear ha0 ha1 ha2 ha3 ha4 hb0 hb1 hb2 hb3 hb4
  rw [Fe.mk.injEq]
  refine ⟨?_, ?_, ?_, ?_, ?_⟩
  · clear h01 h02 h03 h04 h10 h11 h12 h13 h20 h21 h22 h24 h30 h31 h33 h34 h40 h42 h43 h44
    omega
  · clear h00 h02 h03 h04 h11 h12 h13 h14 h20 h21 h22 h23 h30 h31 h32 h34 h40 h41 h43 h44
    omega
  · clear h00 h01 h03 h04 h10 h12 h13 h14 h21 h22 h23 h24 h30 h31 h32 h33 h40 h41 h42 h44
    omega
  · clear h00 h01 h02 h04 h10 h11 h13 h14 h20 h22 h23 h24 h31 h32 h33 h34 h40 h41 h42 h43
    omega
  · clear h00 h01 h02 h03 h10 h11 h12 h14 h20 h21 h23 h24 h30 h32 h33 h34 h41 h42 h43 h44
    omega

theorem fmul_spec (a b : Fe) (ha : Loose a) (hb : Loose b) : Red (fmul a b) ∧ fv (fmul a b) = fv a * fv b := by
  unfold fmul
  rw [mulWide_eq a b ha hb]
  obtain ⟨a0, a1, a2, a3, a4⟩ := a
  obtain ⟨b0, b1, b2, b3, b4⟩ := b
  obtain ⟨ha0, ha1, ha2, ha3, ha4⟩ := ha
  obtain ⟨hb0, hb1, hb2, hb3, hb4⟩ := hb
  simp only at ha0 ha1 ha2 ha3 ha4 hb0 hb1 hb2 hb3 hb4 ⊢
  have h00 := mul_bound ha0 hb0
  have h01 := mul_bound ha0 hb1
  have h02 := mul_bound ha0 hb2
  have h03 := mul_bound ha0 hb3
  have h04 := mul_bound ha0 hb4
  have h10 := mul_bound ha1 hb0
  have h11 := mul_bound ha1 hb1
  have h12 := mul_bound ha1 hb2
  have h13 := mul_bound ha1 hb3
  have h14 := mul_bound ha1 hb4
  have h20 := mul_bound ha2 hb0
  have h21 := mul_bound ha2 hb1
  have h22 := mul_bound ha2 hb2
  have h23 := mul_bound ha2 hb3
  have h24 := mul_bound ha2 hb4
  have h30 := mul_bound ha3 hb0
  have h31 := mul_bound ha3 hb1
  have h32 := mul_bound ha3 hb2
  have h33 := mul_bound ha3 hb3
  have h34 := mul_bound ha3 hb4
  have h40 := mul_bound ha4 hb0
  have h41 := mul_bound ha4 hb1
  have h42 := mul_bound ha4 hb2
  have h43 := mul_bound ha4 hb3
  have h44 := mul_bound ha4 hb4
  clear ha0 ha1 ha2 ha3 ha4 hb0 hb1 hb2 hb3 hb4
  have := reduce_red ⟨a0 * b0 + 19 * (a4 * b1) + 19 * (a3 * b2) + 19 * (a2 * b3) + 19 * (a1 * b4),
      a1 * b0 + a0 * b1 + 19 * (a4 * b2) + 19 * (a3 * b3) + 19 * (a2 * b4),
      a2 * b0 + a1 * b1 + a0 * b2 + 19 * (a4 * b3) + 19 * (a3 * b4),
      a3 * b0 + a2 * b1 + a1 * b2 + a0 * b3 + 19 * (a4 * b4),
      a4 * b0 + a3 * b1 + a2 * b2 + a1 * b3 + a0 * b4⟩ (by simp only; omega) (by simp only; omega) (by simp only; omega)
      (by simp only; omega) (by simp only; omega)
  refine ⟨this.1, ?_⟩
  rw [this.2]
  simp only [fv]
  push_cast
  have h := two255
  generalize (a0 : F) = a0, (a1 : F) = a1, (a2 : F) = a2, (a3 : F) = a3, (a4 : F) = a4, (b0 : F) = b0, (b1 : F) = b1, (b2 : F) = b2, (b3 : F) = b3, (b4 : F) = b4
  linear_combination (-(a4 * b1 + a3 * b2 + a2 * b3 + a1 * b4) - 2 ^ 51 * (a4 * b2 + a3 * b3 + a2 * b4) - 2 ^ 102 * (a4 * b3 + a3 * b4) - 2 ^ 153 * (a4 * b4)) * h

theorem square_eq (a : Fe) (ha : Loose a) : square a = fmul a a := by
  unfold square fmul
  rw [mulWide_eq a a ha ha]
  congr 4
  obtain ⟨a0, a1, a2, a3, a4⟩ := a
  obtain ⟨ha0, ha1, ha2, ha3, ha4⟩ := ha
  simp only at ha0 ha1 ha2 ha3 ha4
  have d0 : w64 (a0 * 2) = 2 * a0 := by unfold w64; omega
  have d1 : w64 (a1 * 2) = 2 * a1 := by unfold w64; omega
  have d2 : w64 (w64 (a2 * 2) * 19) = 38 * a2 := by unfold w64; omega
  have d4 : w64 (19 * (a4 * 2)) = 38 * a4 := by unfold w64; omega
  simp only [squareWide, d0, d1, d2, w64_19' ha4, w64_19' ha3, d4, mul_assoc, w128]
  have h00 := mul_bound ha0 ha0
  have h01 := mul_bound ha0 ha1
  have h02 := mul_bound ha0 ha2
  have h03 := mul_bound ha0 ha3
  have h04 := mul_bound ha0 ha4
  have h11 := mul_bound ha1 ha1
  have h12 := mul_bound ha1 ha2
  have h13 := mul_bound ha1 ha3
  have h14 := mul_bound ha1 ha4
  have h22 := mul_bound ha2 ha2
  have h23 := mul_bound ha2 ha3
  have h24 := mul_bound ha2 ha4
  have h33 := mul_bound ha3 ha3
  have h34 := mul_bound ha3 ha4
  have h44 := mul_bound ha4 ha4
  rw [mul_comm a1 a0, mul_comm a2 a0, mul_comm a3 a0, mul_comm a4 a0, mul_comm a2 a1, mul_comm a3 a1, mul_comm a4 a1,
    mul_comm a3 a2, mul_comm a4 a2, mul_comm a4 a3, Nat.mul_left_comm a4 19 a4]
  clear ha0 ha1 ha2 ha3 ha4 d0 d1 d2 d4
  rw [Fe.mk.injEq]
  refine ⟨?_, ?_, ?_, ?_, ?_⟩
  · clear h01 h02 h03 h04 h11 h12 h13 h22 h24 h33 h34 h44
    omega
  · clear h00 h02 h03 h04 h11 h12 h13 h14 h22 h23 h34 h44
    omega
  · clear h00 h01 h03 h04 h12 h13 h14 h22 h23 h24 h33 h44
    omega
  · clear h00 h01 h02 h04 h11 h13 h14 h22 h23 h24 h33 h34
    omega
  · clear h00 h01 h02 h03 h11 h12 h14 h23 h24 h33 h34 h44
    omega

theorem square_spec (a : Fe) (ha : Loose a) : Red (square a) ∧ fv (square a) = fv a ^ 2 := by
  rw [square_eq a ha, pow_two]; exact fmul_spec a a ha ha

theorem squareTimes_spec (a : Fe) (ha : Loose a) : ∀ n, Red (squareTimes a n) ∧ fv (squareTimes a n) = fv a ^ (2 ^ (n + 1)) := by
  intro n
  induction n with
  | zero => simpa [squareTimes] using square_spec a ha
  | succ n ih =>
    have := square_spec _ ih.1.loose
    refine ⟨this.1, ?_⟩
    show fv (square (squareTimes a n)) = _
    rw [this.2, ih.2, ← pow_mul, ← pow_succ]

theorem crecip_spec (z : Fe) (hz : Loose z) : Red (crecip z) ∧ fv (crecip z) = fv z ^ (p - 2) := by
  unfold crecip
  simp only
  have m := fun a b (ha : Red a) (hb : Red b) => fmul_spec a b ha.loose hb.loose
  have q := fun a n (ha : Red a) => squareTimes_spec a ha.loose n
  have s1 := squareTimes_spec z hz 0
  generalize squareTimes z 0 = a0 at *
  have s2 := q a0 1 s1.1
  generalize squareTimes a0 1 = t1 at *
  have s3 := fmul_spec t1 z s2.1.loose hz
  generalize fmul t1 z = b0 at *
  have s4 := m b0 a0 s3.1 s1.1
  generalize fmul b0 a0 = a1 at *
  have s5 := q a1 0 s4.1
  generalize squareTimes a1 0 = t2 at *
  have s6 := m t2 b0 s5.1 s3.1
  generalize fmul t2 b0 = b1 at *
  have s7 := q b1 4 s6.1
  generalize squareTimes b1 4 = t3 at *
  have s8 := m t3 b1 s7.1 s6.1
  generalize fmul t3 b1 = b2 at *
  have s9 := q b2 9 s8.1
  generalize squareTimes b2 9 = t4 at *
  have s10 := m t4 b2 s9.1 s8.1
  generalize fmul t4 b2 = c0 at *
  have s11 := q c0 19 s10.1
  generalize squareTimes c0 19 = t5 at *
  have s12 := m t5 c0 s11.1 s10.1
  generalize fmul t5 c0 = t6 at *
  have s13 := q t6 9 s12.1
  generalize squareTimes t6 9 = t7 at *
  have s14 := m t7 b2 s13.1 s8.1
  generalize fmul t7 b2 = b3 at *
  have s15 := q b3 49 s14.1
  generalize squareTimes b3 49 = t8 at *
  have s16 := m t8 b3 s15.1 s14.1
  generalize fmul t8 b3 = c1 at *
  have s17 := q c1 99 s16.1
  generalize squareTimes c1 99 = t9 at *
  have s18 := m t9 c1 s17.1 s16.1
  generalize fmul t9 c1 = t10 at *
  have s19 := q t10 49 s18.1
  generalize squareTimes t10 49 = t11 at *
  have s20 := m t11 b3 s19.1 s14.1
  generalize fmul t11 b3 = t12 at *
  have s21 := q t12 4 s20.1
  generalize squareTimes t12 4 = t13 at *
  have s22 := m t13 a1 s21.1 s4.1
  refine ⟨s22.1, ?_⟩
  rw [s22.2, s21.2, s20.2, s19.2, s18.2, s17.2, s16.2, s15.2, s14.2, s13.2, s12.2, s11.2, s10.2, s9.2, s8.2, s7.2, s6.2, s5.2, s4.2, s3.2, s2.2, s1.2]
  generalize fv z = x
  have e1 : x ^ (2 ^ (0 + 1)) = x ^ 2 := by norm_num
  have pm : ∀ i j : ℕ, x ^ i * x ^ j = x ^ (i + j) := fun i j => (pow_add x i j).symm
  have pp : ∀ i j : ℕ, (x ^ i) ^ j = x ^ (i * j) := fun i j => (pow_mul x i j).symm
  have p1 : ∀ i : ℕ, x ^ i * x = x ^ (i + 1) := fun i => (pow_succ x i).symm
  simp only [pp, pm, p1]
  congr 1

/-- What the sum accepts. -/
def Mid (f : Fe) : Prop := f.l0 < 2 ^ 51 + 2 ^ 26 ∧ f.l1 < 2 ^ 51 + 2 ^ 26 ∧ f.l2 < 2 ^ 51 + 2 ^ 26 ∧ f.l3 < 2 ^ 51 + 2 ^ 26 ∧ f.l4 < 2 ^ 51 + 2 ^ 26

theorem Red.mid {f : Fe} (h : Red f) : Mid f := by
  unfold Red at h; unfold Mid; omega

theorem fsum_spec (a b : Fe) (ha : Mid a) (hb : Mid b) :
    Loose (fsum a b) ∧ fv (fsum a b) = fv a + fv b := by
  obtain ⟨a0, a1, a2, a3, a4⟩ := a
  obtain ⟨b0, b1, b2, b3, b4⟩ := b
  obtain ⟨ha0, ha1, ha2, ha3, ha4⟩ := ha
  obtain ⟨hb0, hb1, hb2, hb3, hb4⟩ := hb
  simp only at ha0 ha1 ha2 ha3 ha4 hb0 hb1 hb2 hb3 hb4 ⊢
  have e0 : w64 (a0 + b0) = a0 + b0 := by unfold w64; omega
  have e1 : w64 (a1 + b1) = a1 + b1 := by unfold w64; omega
  have e2 : w64 (a2 + b2) = a2 + b2 := by unfold w64; omega
  have e3 : w64 (a3 + b3) = a3 + b3 := by unfold w64; omega
  have e4 : w64 (a4 + b4) = a4 + b4 := by unfold w64; omega
  simp only [fsum, e0, e1, e2, e3, e4, Loose, fv]
  refine ⟨by omega, ?_⟩
  push_cast; ring

theorem fdiff_spec (a b : Fe) (ha : Red a) (hb : Red b) :
    Loose (fdifference a b) ∧ fv (fdifference a b) = fv b - fv a := by
  obtain ⟨a0, a1, a2, a3, a4⟩ := a
  obtain ⟨b0, b1, b2, b3, b4⟩ := b
  obtain ⟨ha0, ha1, ha2, ha3, ha4⟩ := ha
  obtain ⟨hb0, hb1, hb2, hb3, hb4⟩ := hb
  simp only at ha0 ha1 ha2 ha3 ha4 hb0 hb1 hb2 hb3 hb4 ⊢
  have e0 : sub64 (w64 (b0 + 0x3fffffffffff68)) a0 = b0 + 0x3fffffffffff68 - a0 := by unfold w64 sub64; omega
  have e1 : sub64 (w64 (b1 + 0x3ffffffffffff8)) a1 = b1 + 0x3ffffffffffff8 - a1 := by unfold w64 sub64; omega
  have e2 : sub64 (w64 (b2 + 0x3ffffffffffff8)) a2 = b2 + 0x3ffffffffffff8 - a2 := by unfold w64 sub64; omega
  have e3 : sub64 (w64 (b3 + 0x3ffffffffffff8)) a3 = b3 + 0x3ffffffffffff8 - a3 := by unfold w64 sub64; omega
  have e4 : sub64 (w64 (b4 + 0x3ffffffffffff8)) a4 = b4 + 0x3ffffffffffff8 - a4 := by unfold w64 sub64; omega
  simp only [fdifference, e0, e1, e2, e3, e4, Loose, fv]
  refine ⟨by omega, ?_⟩
  rw [Nat.cast_sub (by omega), Nat.cast_sub (by omega), Nat.cast_sub (by omega), Nat.cast_sub (by omega), Nat.cast_sub (by omega)]
  push_cast
  have h := two255
  linear_combination 8 * h

theorem fscalar_spec (b : Fe) (hb : Loose b) :
    Mid (fscalar b 121665) ∧ fv (fscalar b 121665) = 121665 * fv b := by
  obtain ⟨b0, b1, b2, b3, b4⟩ := b
  obtain ⟨hb0, hb1, hb2, hb3, hb4⟩ := hb
  simp only at hb0 hb1 hb2 hb3 hb4
  have e0 : w128 (b0 * 121665) = b0 * 121665 := by unfold w128; omega
  have e1 : w128 (b1 * 121665) = b1 * 121665 := by unfold w128; omega
  have e2 : w128 (b2 * 121665) = b2 * 121665 := by unfold w128; omega
  have e3 : w128 (b3 * 121665) = b3 * 121665 := by unfold w128; omega
  have e4 : w128 (b4 * 121665) = b4 * 121665 := by unfold w128; omega
  simp only [fscalar, e0, e1, e2, e3, e4]
  obtain ⟨k, hv, hk, hk2, b0', b1', b2', b3', b4'⟩ := reduce ⟨b0 * 121665, b1 * 121665, b2 * 121665, b3 * 121665, b4 * 121665⟩
    (by simp only; omega) (by simp only; omega) (by simp only; omega) (by simp only; omega) (by simp only; omega)
  simp only at hk2
  refine ⟨⟨lt_of_lt_of_le b0' (by omega), by omega, by omega, by omega, by omega⟩, ?_⟩
  rw [fv_val, fv_val]
  have h0 : ((2 ^ 255 - 19 : ℕ) : F) = 0 := ZMod.natCast_self p
  have := congrArg (fun n : ℕ => (n : F)) hv
  simp only [Nat.cast_add, Nat.cast_mul] at this
  rw [h0, mul_zero, add_zero] at this
  rw [this]
  simp only [val]
  push_cast; ring

end WG.C64
