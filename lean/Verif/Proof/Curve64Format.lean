import Verif.Proof.Curve64Ladder
/-! Loading, reducing and storing field elements in the 64-bit code. -/
namespace WG.C64
open Spec.X25519

theorem getLe64_go (b : Vector UInt8 32) : ∀ n i, getLe64.go b n i = decodeLE b.toList / 256 ^ i % 256 ^ n := by
  intro n
  induction n with
  | zero => intro i; simp [getLe64.go, Nat.mod_one]
  | succ n ih =>
    intro i
    rw [getLe64.go, ih, ← decodeLE_byte, pow_succ 256 i, ← Nat.div_div_eq_div_mul]
    generalize decodeLE b.toList / 256 ^ i = N
    rw [pow_succ', Nat.mod_mul]

theorem getLe64_eq (b : Vector UInt8 32) (i : Nat) : getLe64 b i = decodeLE b.toList / 256 ^ i % 2 ^ 64 := by
  rw [getLe64, getLe64_go]; norm_num

theorem fexpand_spec (b : Vector UInt8 32) : Red (fexpand b) ∧ val (fexpand b) = decodeLE b.toList % 2 ^ 255 := by
  simp only [fexpand, and_m51, shr, getLe64_eq]
  generalize decodeLE b.toList = N
  have e0 : N / 256 ^ 0 % 2 ^ 64 % 2 ^ 51 = N % 2 ^ 51 := by omega
  have e1 : N / 256 ^ 6 % 2 ^ 64 / 2 ^ 3 % 2 ^ 51 = N / 2 ^ 51 % 2 ^ 51 := by omega
  have e2 : N / 256 ^ 12 % 2 ^ 64 / 2 ^ 6 % 2 ^ 51 = N / 2 ^ 102 % 2 ^ 51 := by omega
  have e3 : N / 256 ^ 19 % 2 ^ 64 / 2 ^ 1 % 2 ^ 51 = N / 2 ^ 153 % 2 ^ 51 := by omega
  have e4 : N / 256 ^ 24 % 2 ^ 64 / 2 ^ 12 % 2 ^ 51 = N / 2 ^ 204 % 2 ^ 51 := by omega
  rw [e0, e1, e2, e3, e4]
  have hm : ∀ n : Nat, n % 2 ^ 51 < 2 ^ 51 := fun n => Nat.mod_lt _ (by norm_num)
  refine ⟨⟨hm _, lt_of_lt_of_le (hm _) (by norm_num), hm _, hm _, hm _⟩, ?_⟩
  simp only [val]
  omega

theorem fexpand_fv (b : Vector UInt8 32) : fv (fexpand b) = decodeU b := by
  rw [fv_val, (fexpand_spec b).2]; rfl

/-- All limbs below 2^51. -/
def Tight (f : Fe) : Prop := f.l0 < 2 ^ 51 ∧ f.l1 < 2 ^ 51 ∧ f.l2 < 2 ^ 51 ∧ f.l3 < 2 ^ 51 ∧ f.l4 < 2 ^ 51

theorem carryPass_spec (t : Fe) (h0 : t.l0 < 2 ^ 52) (h1 : t.l1 < 2 ^ 52) (h2 : t.l2 < 2 ^ 52) (h3 : t.l3 < 2 ^ 52) (h4 : t.l4 < 2 ^ 52) :
    val (carryPass t) = val t ∧ (carryPass t).l0 < 2 ^ 51 ∧ (carryPass t).l1 < 2 ^ 51 ∧ (carryPass t).l2 < 2 ^ 51 ∧ (carryPass t).l3 < 2 ^ 51 ∧
      (carryPass t).l4 ≤ t.l4 + 2 := by
  obtain ⟨t0, t1, t2, t3, t4⟩ := t
  simp only at h0 h1 h2 h3 h4
  simp only [carryPass, and_m51, shr, w64, val]
  have e1 : (t1 + t0 / 2 ^ 51) % 2 ^ 64 = t1 + t0 / 2 ^ 51 := Nat.mod_eq_of_lt (by omega)
  rw [e1]
  generalize hq0 : t0 / 2 ^ 51 = q0 at *
  generalize ht1 : t1 + q0 = u1 at *
  have e2 : (t2 + u1 / 2 ^ 51) % 2 ^ 64 = t2 + u1 / 2 ^ 51 := Nat.mod_eq_of_lt (by omega)
  rw [e2]
  generalize hq1 : u1 / 2 ^ 51 = q1 at *
  generalize ht2 : t2 + q1 = u2 at *
  have e3 : (t3 + u2 / 2 ^ 51) % 2 ^ 64 = t3 + u2 / 2 ^ 51 := Nat.mod_eq_of_lt (by omega)
  rw [e3]
  generalize hq2 : u2 / 2 ^ 51 = q2 at *
  generalize ht3 : t3 + q2 = u3 at *
  have e4 : (t4 + u3 / 2 ^ 51) % 2 ^ 64 = t4 + u3 / 2 ^ 51 := Nat.mod_eq_of_lt (by omega)
  rw [e4]
  generalize hq3 : u3 / 2 ^ 51 = q3 at *
  refine ⟨?_, ?_, ?_, ?_, ?_, ?_⟩ <;> omega

theorem moduloCarryTop_spec (t : Fe) (h0 : t.l0 < 2 ^ 51) (h4 : t.l4 < 2 ^ 52) :
    val (moduloCarryTop t) + (t.l4 / 2 ^ 51) * (2 ^ 255 - 19) = val t ∧
      (moduloCarryTop t).l0 = t.l0 + 19 * (t.l4 / 2 ^ 51) ∧ (moduloCarryTop t).l1 = t.l1 ∧ (moduloCarryTop t).l2 = t.l2 ∧
      (moduloCarryTop t).l3 = t.l3 ∧ (moduloCarryTop t).l4 = t.l4 % 2 ^ 51 := by
  obtain ⟨t0, t1, t2, t3, t4⟩ := t
  simp only at h0 h4
  simp only [moduloCarryTop, and_m51, shr, w64, val]
  have e : (t0 + 19 * (t4 / 2 ^ 51) % 2 ^ 64) % 2 ^ 64 = t0 + 19 * (t4 / 2 ^ 51) := by omega
  rw [e]
  simp only [and_true]
  omega

theorem lowCarry_id (o : Fe) (h0 : o.l0 < 2 ^ 51) (h1 : o.l1 < 2 ^ 51) : lowCarry o = o := by
  obtain ⟨t0, t1, t2, t3, t4⟩ := o
  simp only at h0 h1
  simp only [lowCarry, and_m51, shr, w64, Fe.mk.injEq, and_true]
  omega

/-- The two carry passes: the limbs become the base 2^51 digits of a number below 2^255, equal modulo p. -/
theorem carries_spec (a : Fe) (ha : Red a) :
    Tight (lowCarry (moduloCarryTop (carryPass (moduloCarryTop (carryPass a))))) ∧
    ∃ k, val (lowCarry (moduloCarryTop (carryPass (moduloCarryTop (carryPass a))))) + k * (2 ^ 255 - 19) = val a := by
  obtain ⟨ha0, ha1, ha2, ha3, ha4⟩ := ha
  obtain ⟨v1, b0, b1, b2, b3, b4⟩ := carryPass_spec a (by omega) (by omega) (by omega) (by omega) (by omega)
  have hva : val a < 2 ^ 255 + 2 ^ 210 := by unfold val; omega
  generalize carryPass a = t at *
  obtain ⟨v2, c0, c1, c2, c3, c4⟩ := moduloCarryTop_spec t (by omega) (by omega)
  generalize moduloCarryTop t = u at *
  obtain ⟨v3, d0, d1, d2, d3, d4⟩ := carryPass_spec u (by omega) (by omega) (by omega) (by omega) (by omega)
  generalize carryPass u = v at *
  have d5 : v.l4 < 2 ^ 51 := by
    simp only [val] at v1 v2 v3 hva
    omega
  obtain ⟨v4, f0, f1, f2, f3, f4⟩ := moduloCarryTop_spec v (by omega) (by omega)
  generalize moduloCarryTop v = w at *
  have hz : v.l4 / 2 ^ 51 = 0 := by omega
  rw [hz] at v4 f0
  rw [Nat.zero_mul, Nat.add_zero] at v4
  rw [lowCarry_id w (by omega) (by omega)]
  refine ⟨by unfold Tight; omega, t.l4 / 2 ^ 51, ?_⟩
  rw [v4, v3, v2, v1]

theorem shr63 (n : Nat) (h : n < 2 ^ 64) : n >>> 63 = (n.testBit 63).toNat := by
  rw [shr, Nat.testBit_eq_decide_div_mod_eq]
  rcases Nat.lt_or_ge n (2 ^ 63) with h1 | h1
  · have : n / 2 ^ 63 = 0 := by omega
    rw [this]; rfl
  · have : n / 2 ^ 63 = 1 := by omega
    rw [this]; rfl

theorem bit63 (n : Nat) (h : n < 2 ^ 64) : n.testBit 63 = decide (2 ^ 63 ≤ n) := by
  rw [Nat.testBit_eq_decide_div_mod_eq]
  apply decide_eq_decide.2
  omega

theorem gteMask_spec (x y : Nat) (hx : x < 2 ^ 63) (hy : y < 2 ^ 63) : gteMask x y = if y ≤ x then 2 ^ 64 - 1 else 0 := by
  simp only [gteMask]
  have hs : sub64 x y < 2 ^ 64 := Nat.mod_lt _ (by norm_num)
  have hq : (x ^^^ y) ||| (sub64 x y ^^^ y) < 2 ^ 64 :=
    Nat.or_lt_two_pow (Nat.xor_lt_two_pow (by omega) (by omega)) (Nat.xor_lt_two_pow hs (by omega))
  rw [shr63 _ (Nat.xor_lt_two_pow (by omega) hq)]
  rw [Nat.testBit_xor, Nat.testBit_or, Nat.testBit_xor, Nat.testBit_xor, bit63 x (by omega), bit63 y (by omega), bit63 _ hs]
  have e1 : decide (2 ^ 63 ≤ x) = false := by simp; omega
  have e2 : decide (2 ^ 63 ≤ y) = false := by simp; omega
  rw [e1, e2]
  split
  · next h =>
    have : decide (2 ^ 63 ≤ sub64 x y) = false := by
      rw [decide_eq_false_iff_not]; unfold sub64; omega
    rw [this]; decide
  · next h =>
    have : decide (2 ^ 63 ≤ sub64 x y) = true := by
      rw [decide_eq_true_eq]; unfold sub64; omega
    rw [this]; decide

theorem eqMask_spec (x y : Nat) (hx : x < 2 ^ 63) (hy : y < 2 ^ 63) : eqMask x y = if x = y then 2 ^ 64 - 1 else 0 := by
  simp only [eqMask]
  have hz : x ^^^ y < 2 ^ 63 := Nat.xor_lt_two_pow hx hy
  have hw : w64 (not64 (x ^^^ y) + 1) < 2 ^ 64 := Nat.mod_lt _ (by norm_num)
  rw [shr63 _ (Nat.or_lt_two_pow (by omega) hw), Nat.testBit_or, bit63 _ (by omega), bit63 _ hw]
  have e1 : decide (2 ^ 63 ≤ x ^^^ y) = false := by rw [decide_eq_false_iff_not]; omega
  rw [e1]
  split
  · next h =>
    subst h
    rw [Nat.xor_self]; decide
  · next h =>
    have h0 : x ^^^ y ≠ 0 := by
      intro h'
      apply h
      have := congrArg (fun n => n ^^^ y) h'
      simpa [Nat.xor_assoc] using this
    have : decide (2 ^ 63 ≤ w64 (not64 (x ^^^ y) + 1)) = true := by
      rw [decide_eq_true_eq]; unfold w64 not64; omega
    rw [this]; decide

theorem and_ones (n : Nat) (h : n < 2 ^ 64) : n &&& (2 ^ 64 - 1) = n := by
  rw [Nat.and_two_pow_sub_one_eq_mod]; exact Nat.mod_eq_of_lt h

theorem and_maskIf (P Q : Prop) [Decidable P] [Decidable Q] :
    (if P then 2 ^ 64 - 1 else 0) &&& (if Q then 2 ^ 64 - 1 else 0) = if P ∧ Q then 2 ^ 64 - 1 else 0 := by
  by_cases hP : P <;> by_cases hQ : Q <;> simp [hP, hQ]

theorem trim_spec (a : Fe) (ha : Tight a) : Tight (trim a) ∧ val (trim a) = val a % p := by
  obtain ⟨a0, a1, a2, a3, a4⟩ := a
  obtain ⟨ha0, ha1, ha2, ha3, ha4⟩ := ha
  simp only at ha0 ha1 ha2 ha3 ha4
  simp only [trim]
  rw [gteMask_spec a0 _ (by omega) (by norm_num), eqMask_spec a1 _ (by omega) (by norm_num), eqMask_spec a2 _ (by omega) (by norm_num),
    eqMask_spec a3 _ (by omega) (by norm_num), eqMask_spec a4 _ (by omega) (by norm_num)]
  simp only [and_maskIf]
  have hp : p = 2 ^ 255 - 19 := rfl
  split
  · next h =>
    obtain ⟨⟨⟨⟨h0, h1⟩, h2⟩, h3⟩, h4⟩ := h
    rw [and_ones _ (by norm_num), and_ones _ (by norm_num)]
    have e0 : sub64 a0 0x7ffffffffffed = a0 - 0x7ffffffffffed := by unfold sub64; omega
    have e1 : sub64 a1 0x7ffffffffffff = 0 := by unfold sub64; omega
    have e2 : sub64 a2 0x7ffffffffffff = 0 := by unfold sub64; omega
    have e3 : sub64 a3 0x7ffffffffffff = 0 := by unfold sub64; omega
    have e4 : sub64 a4 0x7ffffffffffff = 0 := by unfold sub64; omega
    rw [e0, e1, e2, e3, e4, hp]
    simp only [Tight, val]
    refine ⟨by omega, by omega⟩
  · next h =>
    have e : ∀ x, x < 2 ^ 51 → sub64 x 0 = x := by intro x hx; unfold sub64; omega
    simp only [Nat.and_zero]
    rw [e _ ha0, e _ ha1, e _ ha2, e _ ha3, e _ ha4, hp]
    simp only [Tight, val]
    refine ⟨by omega, by omega⟩

theorem or_shift (a b k : Nat) (hb : b < 2 ^ k) : w64 (a <<< k) ||| b = (a * 2 ^ k) % 2 ^ 64 + b := by
  rcases Nat.lt_or_ge k 64 with hk | hk
  · have e : w64 (a <<< k) = (a % 2 ^ (64 - k)) <<< k := by
      rw [w64, Nat.shiftLeft_eq, Nat.shiftLeft_eq]
      conv_lhs => rw [show (2 : Nat) ^ 64 = 2 ^ (64 - k) * 2 ^ k by rw [← pow_add]; congr 1; omega]
      rw [Nat.mul_mod_mul_right]
    rw [e, ← Nat.shiftLeft_add_eq_or_of_lt hb, ← e, w64, Nat.shiftLeft_eq]
  · have e : (a * 2 ^ k) % 2 ^ 64 = 0 := by
      obtain ⟨j, rfl⟩ := Nat.exists_eq_add_of_le hk
      rw [pow_add, mul_left_comm]; exact Nat.mul_mod_right _ _
    rw [w64, Nat.shiftLeft_eq, e]; simp

theorem store_bytes (v o0 o1 o2 o3 : Nat) (b0 : o0 < 2 ^ 64) (b1 : o1 < 2 ^ 64) (b2 : o2 < 2 ^ 64) 
    (hv : v = o0 + 18446744073709551616 * o1 + 340282366920938463463374607431768211456 * o2 +
      6277101735386680763835789423207666416102355444464034512896 * o3) :
    (Vector.ofFn fun i : Fin 32 =>
      byteOf (if i.val < 8 then o0 else if i.val < 16 then o1 else if i.val < 24 then o2 else o3) (i.val % 8)) =
    Vector.ofFn fun i : Fin 32 => UInt8.ofNat (v / 256 ^ i.val) := by
  congr 1
  funext i
  apply UInt8.toNat_inj.1
  simp only [byteOf, shr, UInt8.toNat_ofNat']
  fin_cases i <;> norm_num <;> omega

theorem store_spec (t : Fe) (ht : Tight t) : store t = Vector.ofFn fun i : Fin 32 => UInt8.ofNat (val t / 256 ^ i.val) := by
  obtain ⟨a0, a1, a2, a3, a4⟩ := t
  obtain ⟨h0, h1, h2, h3, h4⟩ := ht
  simp only at h0 h1 h2 h3 h4
  simp only [store, shr]
  rw [or_shift a1 a0 51 h0, or_shift a2 (a1 / 2 ^ 13) 38 (by omega), or_shift a3 (a2 / 2 ^ 26) 25 (by omega),
    or_shift a4 (a3 / 2 ^ 39) 12 (by omega)]
  apply store_bytes
  · omega
  · omega
  · omega
  · simp only [val]; omega

theorem fcontract_spec (a : Fe) (ha : Red a) : fcontract a = encodeU (fv a) := by
  obtain ⟨ht, k, hk⟩ := carries_spec a ha
  unfold fcontract
  generalize lowCarry (moduloCarryTop (carryPass (moduloCarryTop (carryPass a)))) = u at *
  obtain ⟨h1, h2⟩ := trim_spec u ht
  rw [store_spec _ h1, h2]
  unfold encodeU
  have : (fv a).val = val u % p := by
    rw [fv_val, ZMod.val_natCast, ← hk]
    show (val u + k * p) % p = _
    rw [Nat.add_mul_mod_self_right]
  rw [this]

theorem bytes_ext (l : List UInt8) : decodeLE l < 256 ^ l.length := by
  induction l with
  | nil => simp [decodeLE]
  | cons b t ih =>
    have := b.toNat_lt
    simp only [decodeLE, List.length_cons, pow_succ]
    omega

theorem clamp_byte0 : ∀ b : UInt8, (b &&& 248).toNat = b.toNat / 8 * 8 := by
  have h : ∀ v : Fin 256, ((UInt8.ofNat v.val) &&& 248).toNat = (UInt8.ofNat v.val).toNat / 8 * 8 := by decide +kernel
  intro b; have := h ⟨b.toNat, b.toNat_lt⟩; simpa using this

theorem clamp_byte31 : ∀ b : UInt8, ((b &&& 127) ||| 64).toNat = b.toNat % 64 + 64 := by
  have h : ∀ v : Fin 256, (((UInt8.ofNat v.val) &&& 127) ||| 64).toNat = (UInt8.ofNat v.val).toNat % 64 + 64 := by decide +kernel
  intro b; have := h ⟨b.toNat, b.toNat_lt⟩; simpa using this

theorem decodeLE_append (a b : List UInt8) : decodeLE (a ++ b) = decodeLE a + 256 ^ a.length * decodeLE b := by
  induction a with
  | nil => simp [decodeLE]
  | cons x t ih => simp only [List.cons_append, decodeLE, ih, List.length_cons, pow_succ]; ring

theorem clamp_spec (k : Vector UInt8 32) : decodeLE (clamp k).toList = decodeScalar k := by
  obtain ⟨⟨l⟩, hl⟩ := k
  simp only [List.size_toArray] at hl
  rcases l with _ | ⟨b0, m⟩
  · simp at hl
  obtain ⟨m, b31, rfl⟩ : ∃ m' b, m = m' ++ [b] := by
    rcases List.eq_nil_or_concat m with rfl | ⟨m', b, rfl⟩
    · simp at hl
    · exact ⟨m', b, by simp⟩
  have hm : m.length = 30 := by simpa using hl
  have e : (clamp ⟨⟨b0 :: (m ++ [b31])⟩, hl⟩).toList = (b0 &&& 248) :: (m ++ [(b31 &&& 127) ||| 64]) := by
    simp only [clamp, Vector.toList, Vector.set, List.set_toArray, Vector.getElem_mk, List.getElem_toArray, List.set_cons_zero]
    rw [List.set_cons_succ, List.set_append_right _ _ (by omega), hm]
    simp [List.getElem_append_right, hm, List.getElem_cons]
  rw [e]
  simp only [decodeScalar, Vector.toList, decodeLE, decodeLE_append, hm, clamp_byte0, clamp_byte31]
  have hb := bytes_ext m
  rw [hm] at hb
  have h0 := b0.toNat_lt
  have h31 := b31.toNat_lt
  generalize decodeLE m = M at *
  generalize b0.toNat = x at *
  generalize b31.toNat = y at *
  omega

theorem decodeScalar_lt (k : Vector UInt8 32) : decodeScalar k < 2 ^ 255 := by
  unfold decodeScalar
  generalize decodeLE k.toList = N
  omega

theorem curve25519_eq (secret point : Vector UInt8 32) : curve25519 secret point = x25519 secret point := by
  unfold curve25519 scalarOfPoint x25519
  have hl := ladder_spec (clamp secret) (fexpand point) (fexpand_spec point).1 (by rw [clamp_spec]; exact decodeScalar_lt secret)
  rw [clamp_spec, fexpand_fv] at hl
  generalize ladder (clamp secret) ⟨fexpand point, ⟨1, 0, 0, 0, 0⟩⟩ = o at *
  obtain ⟨hx, hz, h⟩ := hl
  have hc := crecip_spec o.z hz.loose
  have hm := fmul_spec o.x (crecip o.z) hx.loose hc.1.loose
  rw [fcontract_spec _ hm.1, hm.2, hc.2, h]

end WG.C64
