import Verif.Proof.Curve32Field
import Verif.Proof.Curve64Format
/-! The ladder of the 32-bit code is that of RFC 7748. -/
namespace WG.C32
open Spec.X25519 (F p decodeLE formulas loop mult)

theorem sqrTimes_spec (a : Fe) (ha : Loose a) : ∀ n, Red (sqrTimes a n) ∧ fv (sqrTimes a n) = fv a ^ (2 ^ (n + 1)) := by
  intro n
  induction n with
  | zero =>
    have := sqr_spec a ha
    refine ⟨this.1, ?_⟩
    rw [show sqrTimes a 0 = sqr a from rfl, this.2]; ring
  | succ n ih =>
    have := sqr_spec _ ih.1.loose
    refine ⟨this.1, ?_⟩
    show fv (sqr (sqrTimes a n)) = _
    rw [this.2, ih.2, pow_succ 2 (n + 1), pow_mul, sq]

theorem invert_spec (z : Fe) (hz : Loose z) : Red (invert z) ∧ fv (invert z) = fv z ^ (p - 2) := by
  unfold invert
  simp only
  have m := fun a b (ha : Red a) (hb : Red b) => mul_spec a b ha.loose hb.loose
  have q := fun a n (ha : Red a) => sqrTimes_spec a ha.loose n
  have s1 := sqr_spec z hz
  generalize sqr z = a0 at *
  have s2 := q a0 1 s1.1
  generalize sqrTimes a0 1 = t1 at *
  have s3 := mul_spec z t1 hz s2.1.loose
  generalize mul z t1 = b0 at *
  have s4 := m a0 b0 s1.1 s3.1
  generalize mul a0 b0 = a1 at *
  have s5 := q a1 0 s4.1
  generalize sqrTimes a1 0 = t2 at *
  have s6 := m b0 t2 s3.1 s5.1
  generalize mul b0 t2 = b1 at *
  have s7 := q b1 4 s6.1
  generalize sqrTimes b1 4 = t3 at *
  have s8 := m t3 b1 s7.1 s6.1
  generalize mul t3 b1 = b2 at *
  have s9 := q b2 9 s8.1
  generalize sqrTimes b2 9 = t4 at *
  have s10 := m t4 b2 s9.1 s8.1
  generalize mul t4 b2 = c0 at *
  have s11 := q c0 19 s10.1
  generalize sqrTimes c0 19 = t5 at *
  have s12 := m t5 c0 s11.1 s10.1
  generalize mul t5 c0 = t6 at *
  have s13 := q t6 9 s12.1
  generalize sqrTimes t6 9 = t7 at *
  have s14 := m t7 b2 s13.1 s8.1
  generalize mul t7 b2 = b3 at *
  have s15 := q b3 49 s14.1
  generalize sqrTimes b3 49 = t8 at *
  have s16 := m t8 b3 s15.1 s14.1
  generalize mul t8 b3 = c1 at *
  have s17 := q c1 99 s16.1
  generalize sqrTimes c1 99 = t9 at *
  have s18 := m t9 c1 s17.1 s16.1
  generalize mul t9 c1 = t10 at *
  have s19 := q t10 49 s18.1
  generalize sqrTimes t10 49 = t11 at *
  have s20 := m t11 b3 s19.1 s14.1
  generalize mul t11 b3 = t12 at *
  have s21 := q t12 4 s20.1
  generalize sqrTimes t12 4 = t13 at *
  have s22 := m t13 a1 s21.1 s4.1
  refine ⟨s22.1, ?_⟩
  rw [s22.2, s21.2, s20.2, s19.2, s18.2, s17.2, s16.2, s15.2, s14.2, s13.2, s12.2, s11.2, s10.2, s9.2, s8.2, s7.2, s6.2, s5.2, s4.2, s3.2, s2.2, s1.2]
  generalize fv z = x
  simp only [← pow_mul, ← pow_add, ← pow_succ', ← sq]
  congr 1

/-- The state of RFC 7748. -/
def toSt (s : St) : Spec.X25519.St := ⟨fv s.x2, fv s.z2, fv s.x3, fv s.z3, s.swap == 1⟩

/-- All four arrays are reduced, `swap` is a bit. -/
def RedS (s : St) : Prop := Red s.x2 ∧ Red s.z2 ∧ Red s.x3 ∧ Red s.z3 ∧ s.swap < 2

theorem swapStep_spec (a b : Nat) (ha : a < 2 ^ 32) (hb : b < 2 ^ 32) :
    swapStep a b (sub32 0 0) = (a, b) ∧ swapStep a b (sub32 0 1) = (b, a) := by
  constructor
  · have : sub32 0 0 = 0 := by decide
    simp [swapStep, this]
  · have e : sub32 0 1 = 2 ^ 32 - 1 := by decide
    have h : (a ^^^ b) &&& (2 ^ 32 - 1) = a ^^^ b := by
      rw [Nat.and_two_pow_sub_one_eq_mod]
      exact Nat.mod_eq_of_lt (Nat.xor_lt_two_pow ha hb)
    unfold swapStep
    simp only
    rw [e, h]
    simp only [Prod.mk.injEq]
    constructor
    · rw [← Nat.xor_assoc, Nat.xor_self, Nat.zero_xor]
    · rw [Nat.xor_comm a b, ← Nat.xor_assoc, Nat.xor_self, Nat.zero_xor]

theorem cswap_spec (a b : Fe) (ha : Red a) (hb : Red b) : cswap a b 0 = (a, b) ∧ cswap a b 1 = (b, a) := by
  obtain ⟨a0, a1, a2, a3, a4, a5, a6, a7, a8, a9⟩ := a
  obtain ⟨b0, b1, b2, b3, b4, b5, b6, b7, b8, b9⟩ := b
  unfold Red at ha hb
  simp only at ha hb
  have s0 := swapStep_spec a0 b0 (by omega) (by omega)
  have s1 := swapStep_spec a1 b1 (by omega) (by omega)
  have s2 := swapStep_spec a2 b2 (by omega) (by omega)
  have s3 := swapStep_spec a3 b3 (by omega) (by omega)
  have s4 := swapStep_spec a4 b4 (by omega) (by omega)
  have s5 := swapStep_spec a5 b5 (by omega) (by omega)
  have s6 := swapStep_spec a6 b6 (by omega) (by omega)
  have s7 := swapStep_spec a7 b7 (by omega) (by omega)
  have s8 := swapStep_spec a8 b8 (by omega) (by omega)
  have s9 := swapStep_spec a9 b9 (by omega) (by omega)
  constructor
  · simp only [cswap, s0.1, s1.1, s2.1, s3.1, s4.1, s5.1, s6.1, s7.1, s8.1, s9.1]
  · simp only [cswap, s0.2, s1.2, s2.2, s3.2, s4.2, s5.2, s6.2, s7.2, s8.2, s9.2]

theorem swapBoth_spec (s : St) (hs : RedS s) (b : Bool) :
    RedS (swapBoth s b.toNat) ∧ toSt (swapBoth s b.toNat) = Spec.X25519.cswap b (toSt s) := by
  obtain ⟨x2, z2, x3, z3, w⟩ := s
  obtain ⟨h1, h2, h3, h4, h5⟩ := hs
  simp only at h1 h2 h3 h4 h5
  have hx := cswap_spec x2 x3 h1 h3
  have hz := cswap_spec z2 z3 h2 h4
  cases b
  · simp only [Bool.toNat_false, swapBoth, hx.1, hz.1]
    exact ⟨⟨h1, h2, h3, h4, h5⟩, rfl⟩
  · simp only [Bool.toNat_true, swapBoth, hx.2, hz.2]
    exact ⟨⟨h3, h4, h1, h2, h5⟩, rfl⟩

theorem ladderStep_spec (x1 : Fe) (hq : Red x1) (s : St) (hs : RedS s) :
    RedS (ladderStep x1 s) ∧ toSt (ladderStep x1 s) = formulas (fv x1) (toSt s) := by
  obtain ⟨x2, z2, x3, z3, w⟩ := s
  obtain ⟨h1, h2, h3, h4, h5⟩ := hs
  simp only at h1 h2 h3 h4 h5
  simp only [ladderStep]
  have d := sub_spec x3 z3 h3 h4
  generalize sub x3 z3 = D at *
  have b := sub_spec x2 z2 h1 h2
  generalize sub x2 z2 = B at *
  have a := add_spec x2 z2 h1 h2
  generalize add x2 z2 = A at *
  have c := add_spec x3 z3 h3 h4
  generalize add x3 z3 = C at *
  have da := mul_spec D A d.1 a.1
  generalize mul D A = DA at *
  have cb := mul_spec C B c.1 b.1
  generalize mul C B = CB at *
  have bb := sqr_spec B b.1
  generalize sqr B = BB at *
  have aa := sqr_spec A a.1
  generalize sqr A = AA at *
  have sm := add_spec DA CB da.1 cb.1
  generalize add DA CB = S at *
  have t := sub_spec DA CB da.1 cb.1
  generalize sub DA CB = T at *
  have nx2 := mul_spec AA BB aa.1.loose bb.1.loose
  generalize mul AA BB = X2 at *
  have e := sub_spec AA BB aa.1 bb.1
  generalize sub AA BB = E at *
  have tt := sqr_spec T t.1
  generalize sqr T = TT at *
  have g := mul121666_spec E e.1
  generalize mul121666 E = G at *
  have nx3 := sqr_spec S sm.1
  generalize sqr S = X3 at *
  have h := add_spec BB G bb.1 g.1
  generalize add BB G = H at *
  have nz3 := mul_spec x1 TT hq.loose tt.1.loose
  generalize mul x1 TT = Z3 at *
  have nz2 := mul_spec E H e.1 h.1
  generalize mul E H = Z2 at *
  refine ⟨⟨nx2.1, nz2.1, nx3.1, nz3.1, h5⟩, ?_⟩
  simp only [toSt, formulas]
  rw [nx2.2, nz2.2, nx3.2, nz3.2, h.2, g.2, e.2, tt.2, t.2, sm.2, aa.2, bb.2, cb.2, da.2, c.2, a.2, b.2, d.2]
  rw [Spec.X25519.St.mk.injEq]
  refine ⟨?_, ?_, ?_, ?_, rfl⟩ <;> ring

theorem bit_eq (v : UInt8) (j : Nat) : 1 &&& (v.toNat >>> j) = (v.toNat.testBit j).toNat := by
  rw [Nat.and_comm, Nat.and_one_is_mod, Nat.testBit_eq_decide_div_mod_eq, shr]
  have h := Nat.mod_two_eq_zero_or_one (v.toNat / 2 ^ j)
  rcases h with h | h <;> rw [h] <;> rfl

theorem turn_spec (e : Vector UInt8 32) (x1 : Fe) (hq : Red x1) (pos : Nat) (s : St) (hs : RedS s) :
    RedS (turn e x1 pos s) ∧ toSt (turn e x1 pos s) =
      { formulas (fv x1) (Spec.X25519.cswap ((toSt s).swap ^^ (decodeLE e.toList).testBit pos) (toSt s)) with
        swap := (decodeLE e.toList).testBit pos } := by
  have hand : pos &&& 7 = pos % 8 := Nat.and_two_pow_sub_one_eq_mod pos 3
  have hb : 1 &&& ((e.toList.getD (pos / 8) 0).toNat >>> (pos &&& 7)) = ((decodeLE e.toList).testBit pos).toNat := by
    rw [hand, bit_eq, ← C64.decodeLE_bit _ _ _ (Nat.mod_lt _ (by norm_num)), Nat.div_add_mod]
  unfold turn
  simp only [hb]
  generalize (decodeLE e.toList).testBit pos = k
  have hx : s.swap ^^^ k.toNat = (((toSt s).swap ^^ k)).toNat := by
    have := hs.2.2.2.2
    simp only [toSt]
    generalize s.swap = w at *
    have : w = 0 ∨ w = 1 := by omega
    rcases this with rfl | rfl <;> cases k <;> rfl
  rw [hx]
  generalize ((toSt s).swap ^^ k) = y
  have h := swapBoth_spec s hs y
  generalize swapBoth s y.toNat = u at *
  obtain ⟨⟨u1, u2, u3, u4, u5⟩, hu⟩ := h
  have hr : RedS { u with swap := k.toNat } := ⟨u1, u2, u3, u4, by show k.toNat < 2; cases k <;> decide⟩
  have h' := ladderStep_spec x1 hq _ hr
  refine ⟨h'.1, ?_⟩
  rw [h'.2, ← hu]
  simp only [formulas, toSt]
  congr 1
  cases k <;> rfl

theorem downFrom_spec (e : Vector UInt8 32) (x1 : Fe) (hq : Red x1) : ∀ n s, RedS s →
    RedS (C64.downFrom (turn e x1) n s) ∧
      toSt (C64.downFrom (turn e x1) n s) = loop (decodeLE e.toList) (fv x1) n (toSt s) := by
  intro n
  induction n with
  | zero => intro s hs; exact ⟨hs, rfl⟩
  | succ n ih =>
    intro s hs
    have h := turn_spec e x1 hq n s hs
    rw [C64.downFrom]
    generalize turn e x1 n s = u at *
    have h' := ih u h.1
    refine ⟨h'.1, ?_⟩
    rw [h'.2, h.2]
    rfl

theorem ladder_spec (e : Vector UInt8 32) (x1 : Fe) (hq : Red x1) :
    Red (swapBoth (ladder e x1) (ladder e x1).swap).x2 ∧ Red (swapBoth (ladder e x1) (ladder e x1).swap).z2 ∧
    fv (swapBoth (ladder e x1) (ladder e x1).swap).x2 * fv (swapBoth (ladder e x1) (ladder e x1).swap).z2 ^ (p - 2) =
      mult (decodeLE e.toList) (fv x1) := by
  have h1 : Red one := by unfold Red one; norm_num
  have h0 : Red zero := by unfold Red zero; norm_num
  have h := downFrom_spec e x1 hq 255 ⟨one, zero, x1, one, 0⟩ ⟨h1, h0, hq, h1, by norm_num⟩
  rw [show C64.downFrom (turn e x1) 255 ⟨one, zero, x1, one, 0⟩ = ladder e x1 from rfl] at h
  have e1 : fv one = 1 := by simp [fv, one]
  have e0 : fv zero = 0 := by simp [fv, zero]
  rw [show toSt ⟨one, zero, x1, one, 0⟩ = ⟨1, 0, fv x1, 1, false⟩ by simp only [toSt, e1, e0]; rfl] at h
  unfold mult
  generalize loop (decodeLE e.toList) (fv x1) 255 ⟨1, 0, fv x1, 1, false⟩ = r at *
  generalize ladder e x1 = s at *
  obtain ⟨hs, hr⟩ := h
  have hw : s.swap = ((toSt s).swap).toNat := by
    have := hs.2.2.2.2
    simp only [toSt]
    generalize s.swap = w at *
    have : w = 0 ∨ w = 1 := by omega
    rcases this with rfl | rfl <;> rfl
  have hb := swapBoth_spec s hs (toSt s).swap
  rw [← hw, hr] at hb
  obtain ⟨⟨b1, b2, -⟩, hb⟩ := hb
  refine ⟨b1, b2, ?_⟩
  simp only
  rw [← hb]
  rfl

end WG.C32
