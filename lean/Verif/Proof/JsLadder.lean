import Verif.Proof.JsPack
/-! `generatePublicKey` of wireguard.js computes X25519 of the base point (as Proof/EmbLadder). -/
namespace WG.Js
open WG.Emb Spec.X25519 Ladder

theorem rel_mult {m : Mem} {α : Abs} (h : Rel m α) (o x y : Reg) {u w : Bool × F} (hx : α x = some u) (hy : α y = some w) : ∃ m',
    multmod o x y m = some m' ∧ Rel m' (α.set o (true, u.2 * w.2)) := by
  obtain ⟨v, e, hr, hf⟩ := multmod_spec o x y m (h x u hx).2.1 (h y w hy).2.1
  exact ⟨_, e, h.set o v _ ⟨by rw [hf, (h x u hx).1, (h y w hy).1], hr.loose, fun _ => hr⟩⟩

theorem rel_add {m : Mem} {α : Abs} (h : Rel m α) (o x y : Reg) {u w : F} (hx : α x = some (true, u)) (hy : α y = some (true, w)) : ∃ m',
    add o x y m = some m' ∧ Rel m' (α.set o (false, u + w)) := by
  obtain ⟨v, e, hr, hf⟩ := add_spec o x y m ((h x _ hx).2.2 rfl) ((h y _ hy).2.2 rfl)
  exact ⟨_, e, h.set o v _ ⟨by rw [hf, (h x _ hx).1, (h y _ hy).1], hr, fun k => absurd k (by simp)⟩⟩

theorem rel_sub {m : Mem} {α : Abs} (h : Rel m α) (o x y : Reg) {u w : F} (hx : α x = some (true, u)) (hy : α y = some (true, w)) : ∃ m',
    subtract o x y m = some m' ∧ Rel m' (α.set o (false, u - w)) := by
  obtain ⟨v, e, hr, hf⟩ := subtract_spec o x y m ((h x _ hx).2.2 rfl) ((h y _ hy).2.2 rfl)
  exact ⟨_, e, h.set o v _ ⟨by rw [hf, (h x _ hx).1, (h y _ hy).1], hr, fun k => absurd k (by simp)⟩⟩

theorem rel_swap {m : Mem} {α : Abs} (h : Rel m α) (x y : Reg) (hxy : x ≠ y) (b : Bool) {u w : Bool × F} (hx : α x = some u) (hy : α y = some w) : ∃ m',
    cswap x y (if b then 1 else 0) m = some m' ∧ Rel m' ((α.set x (if b then w else u)).set y (if b then u else w)) := by
  have e := cswap_spec x y hxy b m (fun j hj => by have := (h x u hx).2.1 j hj; omega) (fun j hj => by have := (h y w hy).2.1 j hj; omega)
  refine ⟨_, e, Rel.set (h.set x _ _ ?_) y _ _ ?_⟩
  · cases b
    · exact is_congr (h x u hx) fun j hj => if_neg fun k => absurd k.2 (by simp)
    · exact is_congr (h y w hy) fun j hj => if_pos ⟨hj, rfl⟩
  · cases b
    · exact is_congr (h y w hy) fun j hj => if_neg fun k => absurd k.2 (by simp)
    · exact is_congr (h x u hx) fun j hj => if_pos ⟨hj, rfl⟩

theorem ladderStep_spec (z : Nat → UInt8) (i : Nat) (hi : i < 255) (b : Bool) (hb : (((z (i >>> 3)).toNat >>> (i &&& 7)) &&& 1 : Nat) = b.toNat)
    (m : Mem) (s : L) (h : Holds m s) : ∃ m', ladderStep z i m = some m' ∧ Holds m' (step 9 b s) := by
  have hz : rd 32 z (i >>> 3) = some (z (i >>> 3)) := rd_ok _ _ (by rw [Nat.shiftRight_eq_div_pow]; omega)
  have hbi : ((((z (i >>> 3)).toNat >>> (i &&& 7)) &&& 1 : Nat) : Int) = if b then 1 else 0 := by rw [hb]; cases b <;> rfl
  unfold ladderStep
  rw [hz, sb]
  simp only [hbi]
  obtain ⟨m1, e1, h1⟩ := rel_swap h .a .b (by decide) b rfl rfl
  rw [if_pair, if_pair] at h1
  rw [e1, sb]
  obtain ⟨m2, e2, h2⟩ := rel_swap h1 .c .d (by decide) b rfl rfl
  rw [if_pair, if_pair] at h2
  rw [e2, sb]
  generalize hx2 : (if b = true then s.x3 else s.x2) = x2 at *
  generalize hx3 : (if b = true then s.x2 else s.x3) = x3 at *
  generalize hz2 : (if b = true then s.z3 else s.z2) = z2 at *
  generalize hz3 : (if b = true then s.z2 else s.z3) = z3 at *
  have hsw : sw b s = ⟨x2, z2, x3, z3⟩ := by subst hx2 hx3 hz2 hz3; cases b <;> rfl
  obtain ⟨m3, e3, h3⟩ := rel_add h2 .e .a .c rfl rfl
  rw [e3, sb]
  obtain ⟨m4, e4, h4⟩ := rel_sub h3 .a .a .c rfl rfl
  rw [e4, sb]
  obtain ⟨m5, e5, h5⟩ := rel_add h4 .c .b .d rfl rfl
  rw [e5, sb]
  obtain ⟨m6, e6, h6⟩ := rel_sub h5 .b .b .d rfl rfl
  rw [e6, sb]
  obtain ⟨m7, e7, h7⟩ := rel_mult h6 .d .e .e rfl rfl
  rw [e7, sb]
  obtain ⟨m8, e8, h8⟩ := rel_mult h7 .f .a .a rfl rfl
  rw [e8, sb]
  obtain ⟨m9, e9, h9⟩ := rel_mult h8 .a .c .a rfl rfl
  rw [e9, sb]
  obtain ⟨m10, e10, h10⟩ := rel_mult h9 .c .b .e rfl rfl
  rw [e10, sb]
  obtain ⟨m11, e11, h11⟩ := rel_add h10 .e .a .c rfl rfl
  rw [e11, sb]
  obtain ⟨m12, e12, h12⟩ := rel_sub h11 .a .a .c rfl rfl
  rw [e12, sb]
  obtain ⟨m13, e13, h13⟩ := rel_mult h12 .b .a .a rfl rfl
  rw [e13, sb]
  obtain ⟨m14, e14, h14⟩ := rel_sub h13 .c .d .f rfl rfl
  rw [e14, sb]
  obtain ⟨m15, e15, h15⟩ := rel_mult h14 .a .c .k121665 rfl rfl
  rw [e15, sb]
  obtain ⟨m16, e16, h16⟩ := rel_add h15 .a .a .d rfl rfl
  rw [e16, sb]
  obtain ⟨m17, e17, h17⟩ := rel_mult h16 .c .c .a rfl rfl
  rw [e17, sb]
  obtain ⟨m18, e18, h18⟩ := rel_mult h17 .a .d .f rfl rfl
  rw [e18, sb]
  obtain ⟨m19, e19, h19⟩ := rel_mult h18 .d .b .k9 rfl rfl
  rw [e19, sb]
  obtain ⟨m20, e20, h20⟩ := rel_mult h19 .b .e .e rfl rfl
  rw [e20, sb]
  obtain ⟨m21, e21, h21⟩ := rel_swap h20 .a .b (by decide) b rfl rfl
  rw [if_pair, if_pair] at h21
  rw [e21, sb]
  obtain ⟨m22, e22, h22⟩ := rel_swap h21 .c .d (by decide) b rfl rfl
  rw [if_pair, if_pair] at h22
  refine ⟨m22, e22, ?_⟩
  have ha := h22 .a _ rfl
  have hb' := h22 .b _ rfl
  have hc := h22 .c _ rfl
  have hd := h22 .d _ rfl
  have hk := h22 .k121665 _ rfl
  have hk9 := h22 .k9 _ rfl
  simp only [step, hsw, dadd]
  intro r x hr
  cases r <;> simp only [reduceCtorEq, Option.some.injEq] at hr <;> subst hr
  · convert ha using 2; cases b <;> simp only [sw, if_true, if_false, Bool.false_eq_true] <;> ring
  · convert hb' using 2; cases b <;> simp only [sw, if_true, if_false, Bool.false_eq_true] <;> ring
  · convert hc using 2; cases b <;> simp only [sw, if_true, if_false, Bool.false_eq_true] <;> ring
  · convert hd using 2; cases b <;> simp only [sw, if_true, if_false, Bool.false_eq_true] <;> ring
  · exact hk
  · exact hk9

theorem clamp_eq (z : Nat → UInt8) : clamp z = Emb.clampKey z := rfl

theorem holds_initial : Holds initial ⟨1, 0, 9, 1⟩ := by
  have hred : ∀ l : List Int, (∀ j, j < 16 → 0 ≤ arr l j ∧ arr l j < 2 ^ 16) → Red (arr l) := by
    intro l h
    refine ⟨fun j _ hj => h j hj, ?_⟩
    have := h 0 (by norm_num)
    omega
  have hd : ∀ l ∈ [[1], [9], [], [0xdb41, 1]], Red (arr l) := by
    intro l hl
    apply hred
    revert l
    decide +kernel
  have mk : ∀ (l : List Int) (x : F), l ∈ [[1], [9], [], [0xdb41, 1]] → fv (arr l) = x → Is (arr l) (true, x) :=
    fun l x hl hx => ⟨hx, (hd l hl).loose, fun _ => hd l hl⟩
  have v1 : V (arr [1]) 16 = 1 := by decide +kernel
  have v9 : V (arr [9]) 16 = 9 := by decide +kernel
  have v0 : V (arr []) 16 = 0 := by decide +kernel
  have vk : V (arr [0xdb41, 1]) 16 = 121665 := by decide +kernel
  intro r x hr
  cases r <;> simp only [reduceCtorEq, Option.some.injEq] at hr <;> subst hr
  · exact mk _ _ (by simp) (by unfold fv; rw [v1]; norm_num)
  · exact mk _ _ (by simp) (by unfold fv; rw [v9]; norm_num)
  · exact mk _ _ (by simp) (by unfold fv; rw [v0]; norm_num)
  · exact mk _ _ (by simp) (by unfold fv; rw [v1]; norm_num)
  · exact mk _ _ (by simp) (by unfold fv; rw [vk]; norm_num)
  · exact mk _ _ (by simp) (by unfold fv; rw [v9]; norm_num)

theorem generatePublicKey_eq (k : Key) : generatePublicKey k = some (x25519 k basePoint) := by
  obtain ⟨z, ez, hz⟩ := clampKey_spec k
  have hbit : ∀ i, i < 255 → (((z (i >>> 3)).toNat >>> (i &&& 7)) &&& 1 : Nat) = ((decodeScalar k).testBit i).toNat := by
    intro i hi
    have h3 : i >>> 3 = i / 8 := Nat.shiftRight_eq_div_pow i 3
    have h7 : i &&& 7 = i % 8 := Nat.and_two_pow_sub_one_eq_mod i 3
    rw [h3, h7, bit_toNat, hz _ (by omega), ← C64.decodeLE_bit _ _ _ (Nat.mod_lt _ (by norm_num)), C64.clamp_spec, Nat.div_add_mod]
  obtain ⟨T, hT⟩ : ∃ T, run (decodeScalar k) 9 255 ⟨1, 0, 9, 1⟩ = T := ⟨_, rfl⟩
  obtain ⟨m1, e1, s, hs, hH⟩ := forDown_inv (σ := Mem) (fun n m => ∃ s, run (decodeScalar k) 9 n s = T ∧ Holds m s)
    (ladderStep z) 255 initial ⟨_, hT, holds_initial⟩ (by
    rintro i m hi ⟨s, hr, hH⟩
    obtain ⟨m', e', h'⟩ := ladderStep_spec z i hi _ (hbit i hi) m s hH
    rw [run] at hr
    exact ⟨m', e', _, hr, h'⟩)
  rw [run] at hs
  have hc := hH .c _ rfl
  have ha := hH .a _ rfl
  obtain ⟨v2, w2, e2, r2, f2⟩ := invert_spec .c .c (by decide) m1 (hc.2.2 rfl)
  have h2a : Function.update (Function.update m1 .ic w2) .c v2 .a = m1 .a := by
    rw [Function.update_of_ne (by decide), Function.update_of_ne (by decide)]
  have h2c : Function.update (Function.update m1 .ic w2) .c v2 .c = v2 := Function.update_self ..
  obtain ⟨v3, e3, r3, f3⟩ := multmod_spec .a .a .c (Function.update (Function.update m1 .ic w2) .c v2) (by rw [h2a]; exact ha.2.1) (by rw [h2c]; exact r2.loose)
  rw [h2a, h2c, f2, ha.1, hc.1] at f3
  obtain ⟨o, e4, ho⟩ := pack_red .a (by decide) (Function.update (Function.update (Function.update m1 .ic w2) .c v2) .a v3) z (by rw [Function.update_self]; exact r3)
  rw [Function.update_self, f3] at ho
  unfold generatePublicKey
  rw [clamp_eq, ez, sb, e1, sb, e2, sb, e3, sb, e4, sb, ho]
  unfold x25519
  rw [decodeU_base, mult_eq, hT, ← hs]




end WG.Js
