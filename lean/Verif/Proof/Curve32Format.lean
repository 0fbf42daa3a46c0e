import Verif.Proof.Curve32Ladder
/-! Loading, reducing and storing field elements in the 32-bit code. -/
namespace WG.C32
open Spec.X25519 (F p decodeLE decodeU encodeU mult x25519)

theorem getLe32_eq (b : Vector UInt8 32) (i : Nat) : getLe32 b i = decodeLE b.toList / 256 ^ i % 2 ^ 32 := by
  unfold getLe32
  simp only [← C64.decodeLE_byte]
  rw [pow_add, pow_add, pow_add, ← Nat.div_div_eq_div_mul, ← Nat.div_div_eq_div_mul, ← Nat.div_div_eq_div_mul]
  generalize decodeLE b.toList / 256 ^ i = N
  omega

theorem and_ones (n k : Nat) : n &&& ((1 <<< k) - 1) = n % 2 ^ k := by
  rw [Nat.shiftLeft_eq, one_mul]; exact Nat.and_two_pow_sub_one_eq_mod n k

theorem or_shl (a b k : Nat) (hb : b < 2 ^ k) (ha : a * 2 ^ k < 2 ^ 32) : b ||| w32 (a <<< k) = b + a * 2 ^ k := by
  have e : w32 (a <<< k) = a <<< k := by rw [w32, Nat.shiftLeft_eq]; exact Nat.mod_eq_of_lt ha
  rw [e, Nat.or_comm, ← Nat.shiftLeft_add_eq_or_of_lt hb, Nat.shiftLeft_eq, Nat.add_comm]

theorem frombytes_spec (b : Vector UInt8 32) : Red (frombytes b) ∧ val (frombytes b) = decodeLE b.toList % 2 ^ 255 := by
  simp only [frombytes, and_ones, shr, getLe32_eq]
  generalize decodeLE b.toList = N
  have e0 : N / 256 ^ 0 % 2 ^ 32 = N % 2 ^ 32 := by omega
  rw [e0]
  generalize ha0 : N % 2 ^ 32 = a0
  generalize ha1 : N / 256 ^ 4 % 2 ^ 32 = a1
  generalize ha2 : N / 256 ^ 8 % 2 ^ 32 = a2
  generalize ha3 : N / 256 ^ 12 % 2 ^ 32 = a3
  generalize ha4 : N / 256 ^ 16 % 2 ^ 32 = a4
  generalize ha5 : N / 256 ^ 20 % 2 ^ 32 = a5
  generalize ha6 : N / 256 ^ 24 % 2 ^ 32 = a6
  generalize ha7 : N / 256 ^ 28 % 2 ^ 32 = a7
  have hN : N % 2 ^ 255 = a0 + 2 ^ 32 * a1 + 2 ^ 64 * a2 + 2 ^ 96 * a3 + 2 ^ 128 * a4 + 2 ^ 160 * a5 + 2 ^ 192 * a6 + 2 ^ 224 * (a7 % 2 ^ 31) := by
    omega
  have l0 : a0 < 2 ^ 32 := by omega
  have l1 : a1 < 2 ^ 32 := by omega
  have l2 : a2 < 2 ^ 32 := by omega
  have l3 : a3 < 2 ^ 32 := by omega
  have l4 : a4 < 2 ^ 32 := by omega
  have l5 : a5 < 2 ^ 32 := by omega
  have l6 : a6 < 2 ^ 32 := by omega
  rw [hN]
  clear hN ha0 ha1 ha2 ha3 ha4 ha5 ha6 ha7 e0
  rw [or_shl _ (a0 / 2 ^ 26) 6 (by omega) (by omega), or_shl _ (a1 / 2 ^ 19) 13 (by omega) (by omega),
    or_shl _ (a2 / 2 ^ 13) 19 (by omega) (by omega), or_shl _ (a4 / 2 ^ 25) 7 (by omega) (by omega),
    or_shl _ (a5 / 2 ^ 19) 13 (by omega) (by omega), or_shl _ (a6 / 2 ^ 12) 20 (by omega) (by omega)]
  refine ⟨?_, ?_⟩
  · unfold Red; simp only; omega
  · simp only [val]; omega

theorem frombytes_fv (b : Vector UInt8 32) : fv (frombytes b) = decodeU b := by
  rw [fv_val, (frombytes_spec b).2]; rfl

/-- All limbs within their width. -/
def Tight (f : Fe) : Prop :=
  f.l0 < 2 ^ 26 ∧ f.l1 < 2 ^ 25 ∧ f.l2 < 2 ^ 26 ∧ f.l3 < 2 ^ 25 ∧ f.l4 < 2 ^ 26 ∧ f.l5 < 2 ^ 25 ∧ f.l6 < 2 ^ 26 ∧ f.l7 < 2 ^ 25 ∧
    f.l8 < 2 ^ 26 ∧ f.l9 < 2 ^ 25

theorem subborrow26_spec (c a b : Nat) (hc : c ≤ 1) (ha : a ≤ 2 ^ 26) (hb : b < 2 ^ 26) (hb' : 0 < b) :
    (subborrow26 c a b).1 ≤ 1 ∧ (subborrow26 c a b).2 < 2 ^ 26 ∧
    2 ^ 26 * (subborrow26 c a b).1 + a = b + c + (subborrow26 c a b).2 := by
  simp only [subborrow26, sub32, and_ones, shr]
  omega

theorem subborrow25_spec (c a b : Nat) (hc : c ≤ 1) (ha : a < 2 ^ 25) (hb : b < 2 ^ 25) :
    (subborrow25 c a b).1 ≤ 1 ∧ (subborrow25 c a b).2 < 2 ^ 25 ∧
    2 ^ 25 * (subborrow25 c a b).1 + a = b + c + (subborrow25 c a b).2 := by
  simp only [subborrow25, sub32, and_ones, shr]
  omega

theorem addcarryx26_spec (c a b : Nat) (hc : c ≤ 1) (ha : a < 2 ^ 26) (hb : b < 2 ^ 26) :
    (addcarryx26 c a b).1 ≤ 1 ∧ (addcarryx26 c a b).2 < 2 ^ 26 ∧ 2 ^ 26 * (addcarryx26 c a b).1 + (addcarryx26 c a b).2 = a + b + c := by
  have h1 : ∀ n : Nat, n &&& 1 = n % 2 := fun n => Nat.and_one_is_mod n
  simp only [addcarryx26, w32, and_ones, shr, h1]
  omega

theorem addcarryx25_spec (c a b : Nat) (hc : c ≤ 1) (ha : a < 2 ^ 25) (hb : b < 2 ^ 25) :
    (addcarryx25 c a b).1 ≤ 1 ∧ (addcarryx25 c a b).2 < 2 ^ 25 ∧ 2 ^ 25 * (addcarryx25 c a b).1 + (addcarryx25 c a b).2 = a + b + c := by
  have h1 : ∀ n : Nat, n &&& 1 = n % 2 := fun n => Nat.and_one_is_mod n
  simp only [addcarryx25, w32, and_ones, shr, h1]
  omega

theorem mask_spec (t : Nat) (ht : t ≤ 1) : cmovznz32 t 0 0xffffffff &&& 0x3ffffed = t * 0x3ffffed ∧
    cmovznz32 t 0 0xffffffff &&& 0x3ffffff = t * 0x3ffffff ∧ cmovznz32 t 0 0xffffffff &&& 0x1ffffff = t * 0x1ffffff := by
  have : t = 0 ∨ t = 1 := by omega
  rcases this with rfl | rfl <;> decide

theorem freeze_final (A V W b c : Nat) (hb : b ≤ 1) (hc : c ≤ 1) (hS : 2 ^ 255 * b + A = (2 ^ 255 - 19) + V)
    (hR : 2 ^ 255 * c + W = V + b * (2 ^ 255 - 19)) (hv : V < 2 ^ 255) (hw : W < 2 ^ 255) (ha : A < 2 ^ 255 + 2 ^ 77) : W = A % p := by
  have hp : p = 2 ^ 255 - 19 := rfl
  rw [hp]
  have hb : b = 0 ∨ b = 1 := by omega
  have hc : c = 0 ∨ c = 1 := by omega
  rcases hb with rfl | rfl <;> rcases hc with rfl | rfl <;> omega

theorem freeze_spec (a : Fe) (ha : Red a) : Tight (freeze a) ∧ val (freeze a) = val a % p := by
  obtain ⟨a0, a1, a2, a3, a4, a5, a6, a7, a8, a9⟩ := a
  obtain ⟨h0, h1, h2, h3, h4, h5, h6, h7, h8, h9⟩ := ha
  simp only at h0 h1 h2 h3 h4 h5 h6 h7 h8 h9
  simp only [freeze]
  have p0 := subborrow26_spec 0 a0 0x3ffffed (by norm_num) (le_of_lt h0) (by norm_num) (by norm_num)
  generalize subborrow26 0 a0 0x3ffffed = s0 at *
  obtain ⟨b0, v0⟩ := s0
  simp only at p0 ⊢
  have p1 := subborrow25_spec b0 a1 0x1ffffff p0.1 h1 (by norm_num)
  generalize subborrow25 b0 a1 0x1ffffff = s1 at *
  obtain ⟨b1, v1⟩ := s1
  simp only at p1 ⊢
  have p2 := subborrow26_spec b1 a2 0x3ffffff p1.1 h2 (by norm_num) (by norm_num)
  generalize subborrow26 b1 a2 0x3ffffff = s2 at *
  obtain ⟨b2, v2⟩ := s2
  simp only at p2 ⊢
  have p3 := subborrow25_spec b2 a3 0x1ffffff p2.1 h3 (by norm_num)
  generalize subborrow25 b2 a3 0x1ffffff = s3 at *
  obtain ⟨b3, v3⟩ := s3
  simp only at p3 ⊢
  have p4 := subborrow26_spec b3 a4 0x3ffffff p3.1 (le_of_lt h4) (by norm_num) (by norm_num)
  generalize subborrow26 b3 a4 0x3ffffff = s4 at *
  obtain ⟨b4, v4⟩ := s4
  simp only at p4 ⊢
  have p5 := subborrow25_spec b4 a5 0x1ffffff p4.1 h5 (by norm_num)
  generalize subborrow25 b4 a5 0x1ffffff = s5 at *
  obtain ⟨b5, v5⟩ := s5
  simp only at p5 ⊢
  have p6 := subborrow26_spec b5 a6 0x3ffffff p5.1 (le_of_lt h6) (by norm_num) (by norm_num)
  generalize subborrow26 b5 a6 0x3ffffff = s6 at *
  obtain ⟨b6, v6⟩ := s6
  simp only at p6 ⊢
  have p7 := subborrow25_spec b6 a7 0x1ffffff p6.1 h7 (by norm_num)
  generalize subborrow25 b6 a7 0x1ffffff = s7 at *
  obtain ⟨b7, v7⟩ := s7
  simp only at p7 ⊢
  have p8 := subborrow26_spec b7 a8 0x3ffffff p7.1 (le_of_lt h8) (by norm_num) (by norm_num)
  generalize subborrow26 b7 a8 0x3ffffff = s8 at *
  obtain ⟨b8, v8⟩ := s8
  simp only at p8 ⊢
  have p9 := subborrow25_spec b8 a9 0x1ffffff p8.1 h9 (by norm_num)
  generalize subborrow25 b8 a9 0x1ffffff = s9 at *
  obtain ⟨b9, v9⟩ := s9
  simp only at p9 ⊢
  obtain ⟨k1, k2, k3⟩ := mask_spec b9 p9.1
  rw [k1, k2, k3]
  clear k1 k2 k3
  have q0 := addcarryx26_spec 0 v0 (b9 * 0x3ffffed) (by norm_num) p0.2.1 (lt_of_le_of_lt (Nat.mul_le_mul_right _ p9.1) (by norm_num))
  generalize addcarryx26 0 v0 (b9 * 0x3ffffed) = r0 at *
  obtain ⟨c0, w0⟩ := r0
  simp only at q0 ⊢
  have q1 := addcarryx25_spec c0 v1 (b9 * 0x1ffffff) q0.1 p1.2.1 (lt_of_le_of_lt (Nat.mul_le_mul_right _ p9.1) (by norm_num))
  generalize addcarryx25 c0 v1 (b9 * 0x1ffffff) = r1 at *
  obtain ⟨c1, w1⟩ := r1
  simp only at q1 ⊢
  have q2 := addcarryx26_spec c1 v2 (b9 * 0x3ffffff) q1.1 p2.2.1 (lt_of_le_of_lt (Nat.mul_le_mul_right _ p9.1) (by norm_num))
  generalize addcarryx26 c1 v2 (b9 * 0x3ffffff) = r2 at *
  obtain ⟨c2, w2⟩ := r2
  simp only at q2 ⊢
  have q3 := addcarryx25_spec c2 v3 (b9 * 0x1ffffff) q2.1 p3.2.1 (lt_of_le_of_lt (Nat.mul_le_mul_right _ p9.1) (by norm_num))
  generalize addcarryx25 c2 v3 (b9 * 0x1ffffff) = r3 at *
  obtain ⟨c3, w3⟩ := r3
  simp only at q3 ⊢
  have q4 := addcarryx26_spec c3 v4 (b9 * 0x3ffffff) q3.1 p4.2.1 (lt_of_le_of_lt (Nat.mul_le_mul_right _ p9.1) (by norm_num))
  generalize addcarryx26 c3 v4 (b9 * 0x3ffffff) = r4 at *
  obtain ⟨c4, w4⟩ := r4
  simp only at q4 ⊢
  have q5 := addcarryx25_spec c4 v5 (b9 * 0x1ffffff) q4.1 p5.2.1 (lt_of_le_of_lt (Nat.mul_le_mul_right _ p9.1) (by norm_num))
  generalize addcarryx25 c4 v5 (b9 * 0x1ffffff) = r5 at *
  obtain ⟨c5, w5⟩ := r5
  simp only at q5 ⊢
  have q6 := addcarryx26_spec c5 v6 (b9 * 0x3ffffff) q5.1 p6.2.1 (lt_of_le_of_lt (Nat.mul_le_mul_right _ p9.1) (by norm_num))
  generalize addcarryx26 c5 v6 (b9 * 0x3ffffff) = r6 at *
  obtain ⟨c6, w6⟩ := r6
  simp only at q6 ⊢
  have q7 := addcarryx25_spec c6 v7 (b9 * 0x1ffffff) q6.1 p7.2.1 (lt_of_le_of_lt (Nat.mul_le_mul_right _ p9.1) (by norm_num))
  generalize addcarryx25 c6 v7 (b9 * 0x1ffffff) = r7 at *
  obtain ⟨c7, w7⟩ := r7
  simp only at q7 ⊢
  have q8 := addcarryx26_spec c7 v8 (b9 * 0x3ffffff) q7.1 p8.2.1 (lt_of_le_of_lt (Nat.mul_le_mul_right _ p9.1) (by norm_num))
  generalize addcarryx26 c7 v8 (b9 * 0x3ffffff) = r8 at *
  obtain ⟨c8, w8⟩ := r8
  simp only at q8 ⊢
  have q9 := addcarryx25_spec c8 v9 (b9 * 0x1ffffff) q8.1 p9.2.1 (lt_of_le_of_lt (Nat.mul_le_mul_right _ p9.1) (by norm_num))
  generalize addcarryx25 c8 v9 (b9 * 0x1ffffff) = r9 at *
  obtain ⟨c9, w9⟩ := r9
  simp only at q9 ⊢
  obtain ⟨pb0, pv0, pe0⟩ := p0
  obtain ⟨qb0, qv0, qe0⟩ := q0
  obtain ⟨pb1, pv1, pe1⟩ := p1
  obtain ⟨qb1, qv1, qe1⟩ := q1
  obtain ⟨pb2, pv2, pe2⟩ := p2
  obtain ⟨qb2, qv2, qe2⟩ := q2
  obtain ⟨pb3, pv3, pe3⟩ := p3
  obtain ⟨qb3, qv3, qe3⟩ := q3
  obtain ⟨pb4, pv4, pe4⟩ := p4
  obtain ⟨qb4, qv4, qe4⟩ := q4
  obtain ⟨pb5, pv5, pe5⟩ := p5
  obtain ⟨qb5, qv5, qe5⟩ := q5
  obtain ⟨pb6, pv6, pe6⟩ := p6
  obtain ⟨qb6, qv6, qe6⟩ := q6
  obtain ⟨pb7, pv7, pe7⟩ := p7
  obtain ⟨qb7, qv7, qe7⟩ := q7
  obtain ⟨pb8, pv8, pe8⟩ := p8
  obtain ⟨qb8, qv8, qe8⟩ := q8
  obtain ⟨pb9, pv9, pe9⟩ := p9
  obtain ⟨qb9, qv9, qe9⟩ := q9
  refine ⟨⟨qv0, qv1, qv2, qv3, qv4, qv5, qv6, qv7, qv8, qv9⟩, ?_⟩
  have hS : 2 ^ 255 * b9 + (a0 + 2 ^ 26 * a1 + 2 ^ 51 * a2 + 2 ^ 77 * a3 + 2 ^ 102 * a4 + 2 ^ 128 * a5 + 2 ^ 153 * a6 + 2 ^ 179 * a7 + 2 ^ 204 * a8 + 2 ^ 230 * a9) =
      (2 ^ 255 - 19) + (v0 + 2 ^ 26 * v1 + 2 ^ 51 * v2 + 2 ^ 77 * v3 + 2 ^ 102 * v4 + 2 ^ 128 * v5 + 2 ^ 153 * v6 + 2 ^ 179 * v7 + 2 ^ 204 * v8 + 2 ^ 230 * v9) := by
    clear h0 h1 h2 h3 h4 h5 h6 h7 h8 h9 pb0 pb1 pb2 pb3 pb4 pb5 pb6 pb7 pb8 pb9 pv0 pv1 pv2 pv3 pv4 pv5 pv6 pv7 pv8 pv9 qb0 qb1 qb2 qb3 qb4 qb5 qb6 qb7 qb8 qb9 qv0 qv1 qv2 qv3 qv4 qv5 qv6 qv7 qv8 qv9 qe0 qe1 qe2 qe3 qe4 qe5 qe6 qe7 qe8 qe9
    omega
  have hR : 2 ^ 255 * c9 + (w0 + 2 ^ 26 * w1 + 2 ^ 51 * w2 + 2 ^ 77 * w3 + 2 ^ 102 * w4 + 2 ^ 128 * w5 + 2 ^ 153 * w6 + 2 ^ 179 * w7 + 2 ^ 204 * w8 + 2 ^ 230 * w9) =
      (v0 + 2 ^ 26 * v1 + 2 ^ 51 * v2 + 2 ^ 77 * v3 + 2 ^ 102 * v4 + 2 ^ 128 * v5 + 2 ^ 153 * v6 + 2 ^ 179 * v7 + 2 ^ 204 * v8 + 2 ^ 230 * v9) + b9 * (2 ^ 255 - 19) := by
    clear h0 h1 h2 h3 h4 h5 h6 h7 h8 h9 pb0 pb1 pb2 pb3 pb4 pb5 pb6 pb7 pb8 pb9 pv0 pv1 pv2 pv3 pv4 pv5 pv6 pv7 pv8 pv9 pe0 pe1 pe2 pe3 pe4 pe5 pe6 pe7 pe8 pe9 qb0 qb1 qb2 qb3 qb4 qb5 qb6 qb7 qb8 qb9 qv0 qv1 qv2 qv3 qv4 qv5 qv6 qv7 qv8 qv9 hS
    omega
  have hv : v0 + 2 ^ 26 * v1 + 2 ^ 51 * v2 + 2 ^ 77 * v3 + 2 ^ 102 * v4 + 2 ^ 128 * v5 + 2 ^ 153 * v6 + 2 ^ 179 * v7 + 2 ^ 204 * v8 + 2 ^ 230 * v9 < 2 ^ 255 := by
    clear h0 h1 h2 h3 h4 h5 h6 h7 h8 h9 pb0 pb1 pb2 pb3 pb4 pb5 pb6 pb7 pb8 pb9 qb0 qb1 qb2 qb3 qb4 qb5 qb6 qb7 qb8 qb9 qv0 qv1 qv2 qv3 qv4 qv5 qv6 qv7 qv8 qv9 pe0 pe1 pe2 pe3 pe4 pe5 pe6 pe7 pe8 pe9 qe0 qe1 qe2 qe3 qe4 qe5 qe6 qe7 qe8 qe9 hS hR
    omega
  have hw : w0 + 2 ^ 26 * w1 + 2 ^ 51 * w2 + 2 ^ 77 * w3 + 2 ^ 102 * w4 + 2 ^ 128 * w5 + 2 ^ 153 * w6 + 2 ^ 179 * w7 + 2 ^ 204 * w8 + 2 ^ 230 * w9 < 2 ^ 255 := by
    clear h0 h1 h2 h3 h4 h5 h6 h7 h8 h9 pb0 pb1 pb2 pb3 pb4 pb5 pb6 pb7 pb8 pb9 qb0 qb1 qb2 qb3 qb4 qb5 qb6 qb7 qb8 qb9 pv0 pv1 pv2 pv3 pv4 pv5 pv6 pv7 pv8 pv9 pe0 pe1 pe2 pe3 pe4 pe5 pe6 pe7 pe8 pe9 qe0 qe1 qe2 qe3 qe4 qe5 qe6 qe7 qe8 qe9 hS hR hv
    omega
  have ha : a0 + 2 ^ 26 * a1 + 2 ^ 51 * a2 + 2 ^ 77 * a3 + 2 ^ 102 * a4 + 2 ^ 128 * a5 + 2 ^ 153 * a6 + 2 ^ 179 * a7 + 2 ^ 204 * a8 + 2 ^ 230 * a9 < 2 ^ 255 + 2 ^ 77 := by
    clear pb0 pb1 pb2 pb3 pb4 pb5 pb6 pb7 pb8 pb9 pv0 pv1 pv2 pv3 pv4 pv5 pv6 pv7 pv8 pv9 qb0 qb1 qb2 qb3 qb4 qb5 qb6 qb7 qb8 qb9 qv0 qv1 qv2 qv3 qv4 qv5 qv6 qv7 qv8 qv9 pe0 pe1 pe2 pe3 pe4 pe5 pe6 pe7 pe8 pe9 qe0 qe1 qe2 qe3 qe4 qe5 qe6 qe7 qe8 qe9 hS hR hv hw
    omega
  simp only [val]
  exact freeze_final _ _ _ b9 c9 pb9 qb9 hS hR hv hw ha

theorem tobytes_spec (f : Fe) (hf : Red f) : tobytes f = encodeU (fv f) := by
  obtain ⟨ht, hv⟩ := freeze_spec f hf
  unfold tobytes encodeU
  simp only
  generalize freeze f = h at *
  have : (fv f).val = val h := by rw [fv_val, ZMod.val_natCast, hv]
  rw [this]
  clear this hv
  obtain ⟨a0, a1, a2, a3, a4, a5, a6, a7, a8, a9⟩ := h
  obtain ⟨h0, h1, h2, h3, h4, h5, h6, h7, h8, h9⟩ := ht
  simp only at h0 h1 h2 h3 h4 h5 h6 h7 h8 h9
  congr 1
  funext i
  apply UInt8.toNat_inj.1
  simp only [UInt8.toNat_ofNat', val]
  have o3 := or_shl a1 (a0 / 2 ^ 24) 2 (by omega) (by omega)
  have o6 := or_shl a2 (a1 / 2 ^ 22) 3 (by omega) (by omega)
  have o9 := or_shl a3 (a2 / 2 ^ 21) 5 (by omega) (by omega)
  have o12 := or_shl a4 (a3 / 2 ^ 19) 6 (by omega) (by omega)
  have o19 := or_shl a6 (a5 / 2 ^ 24) 1 (by omega) (by omega)
  have o22 := or_shl a7 (a6 / 2 ^ 23) 3 (by omega) (by omega)
  have o25 := or_shl a8 (a7 / 2 ^ 21) 4 (by omega) (by omega)
  have o28 := or_shl a9 (a8 / 2 ^ 20) 6 (by omega) (by omega)
  fin_cases i <;> simp only [storeNat, shr, o3, o6, o9, o12, o19, o22, o25, o28] <;> clear o3 o6 o9 o12 o19 o22 o25 o28 <;> norm_num <;> omega

theorem curve25519_eq (secret point : Vector UInt8 32) : curve25519 secret point = x25519 secret point := by
  unfold curve25519 x25519
  simp only
  obtain ⟨hx, hz, h⟩ := ladder_spec (C64.clamp secret) (frombytes point) (frombytes_spec point).1
  rw [C64.clamp_spec, frombytes_fv] at h
  generalize ladder (C64.clamp secret) (frombytes point) = s at *
  generalize swapBoth s s.swap = o at *
  have hc := invert_spec o.z2 hz.loose
  have hm := mul_spec o.x2 (invert o.z2) hx.loose hc.1.loose
  rw [tobytes_spec _ hm.1, hm.2, hc.2, h]

end WG.C32
