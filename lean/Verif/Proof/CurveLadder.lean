import Mathlib.FieldTheory.Finite.Basic
import Verif.Proof.CurvePrime
/-! The Montgomery ladder over the field: swaps before and after each step, and one more leading zero bit, do not change the result. -/
namespace WG.Ladder
open Spec.X25519

/-- A ladder state: (x2, z2, x3, z3). -/
structure L where
  x2 : F
  z2 : F
  x3 : F
  z3 : F

/-- Exchange. -/
def sw (b : Bool) (s : L) : L := if b then ⟨s.x3, s.z3, s.x2, s.z2⟩ else s

/-- One doubling and differential addition. -/
def dadd (x1 : F) (s : L) : L :=
  ⟨(s.x2 + s.z2) ^ 2 * (s.x2 - s.z2) ^ 2,
   ((s.x2 + s.z2) ^ 2 - (s.x2 - s.z2) ^ 2) * ((s.x2 + s.z2) ^ 2 + 121665 * ((s.x2 + s.z2) ^ 2 - (s.x2 - s.z2) ^ 2)),
   ((s.x3 - s.z3) * (s.x2 + s.z2) + (s.x3 + s.z3) * (s.x2 - s.z2)) ^ 2,
   x1 * ((s.x3 - s.z3) * (s.x2 + s.z2) - (s.x3 + s.z3) * (s.x2 - s.z2)) ^ 2⟩

/-- One step with swaps before and after. -/
def step (x1 : F) (b : Bool) (s : L) : L := sw b (dadd x1 (sw b s))

/-- Steps for the bits `n - 1` to 0. -/
def run (k : ℕ) (x1 : F) : ℕ → L → L
  | 0, s => s
  | t + 1, s => run k x1 t (step x1 (k.testBit t) s)

/-- The state of RFC 7748 after its delayed swap. -/
def ofSt (s : St) : L := sw s.swap ⟨s.x2, s.z2, s.x3, s.z3⟩

theorem ofSt_step (x1 : F) (kt : Bool) (s : St) :
    ofSt { formulas x1 (cswap (s.swap ^^ kt) s) with swap := kt } = step x1 kt (ofSt s) := by
  rcases s with ⟨x2, z2, x3, z3, swap⟩
  cases swap <;> cases kt <;> simp [ofSt, step, sw, cswap, formulas, dadd]

theorem ofSt_loop (k : ℕ) (x1 : F) : ∀ n s, ofSt (loop k x1 n s) = run k x1 n (ofSt s) := by
  intro n
  induction n with
  | zero => intro s; rfl
  | succ n ih => intro s; simp only [loop, run]; rw [ih, ofSt_step]

/-- RFC 7748's function through `run`. -/
theorem mult_eq (k : ℕ) (u : F) : mult k u = (run k u 255 ⟨1, 0, u, 1⟩).x2 * (run k u 255 ⟨1, 0, u, 1⟩).z2 ^ (p - 2) := by
  have h := ofSt_loop k u 255 { x2 := 1, z2 := 0, x3 := u, z3 := 1, swap := false }
  have h0 : ofSt { x2 := 1, z2 := 0, x3 := u, z3 := 1, swap := false } = ⟨1, 0, u, 1⟩ := rfl
  rw [h0] at h
  unfold mult
  rw [← h]
  generalize loop k u 255 { x2 := 1, z2 := 0, x3 := u, z3 := 1, swap := false } = s
  rcases s with ⟨x2, z2, x3, z3, swap⟩
  cases swap <;> rfl

/-- Scaling. -/
def sc (l m : F) (s : L) : L := ⟨l * s.x2, l * s.z2, m * s.x3, m * s.z3⟩

theorem dadd_scale (x1 l m : F) (s : L) : dadd x1 (sc l m s) = sc (l ^ 4) ((l * m) ^ 2) (dadd x1 s) := by
  rcases s with ⟨x2, z2, x3, z3⟩
  simp only [dadd, sc]
  rw [L.mk.injEq]
  refine ⟨?_, ?_, ?_, ?_⟩ <;> ring

theorem sw_scale (b : Bool) (l m : F) (s : L) : sw b (sc l m s) = sc (if b then m else l) (if b then l else m) (sw b s) := by
  cases b <;> rfl

theorem step_scale (x1 : F) (b : Bool) (l m : F) (hl : l ≠ 0) (hm : m ≠ 0) (s : L) :
    ∃ l' m', l' ≠ 0 ∧ m' ≠ 0 ∧ step x1 b (sc l m s) = sc l' m' (step x1 b s) := by
  unfold step
  rw [sw_scale, dadd_scale, sw_scale]
  refine ⟨_, _, ?_, ?_, rfl⟩ <;> cases b <;> simp [hl, hm]

theorem run_scale (k : ℕ) (x1 : F) : ∀ n (l m : F) (s : L), l ≠ 0 → m ≠ 0 → ∃ l' m', l' ≠ 0 ∧ m' ≠ 0 ∧
    run k x1 n (sc l m s) = sc l' m' (run k x1 n s) := by
  intro n
  induction n with
  | zero => intro l m s hl hm; exact ⟨l, m, hl, hm, rfl⟩
  | succ n ih =>
    intro l m s hl hm
    obtain ⟨l', m', hl', hm', e⟩ := step_scale x1 (k.testBit n) l m hl hm s
    simp only [run]
    rw [e]
    exact ih l' m' _ hl' hm'

/-- The result read from a state. -/
def res (s : L) : F := s.x2 * s.z2 ^ (p - 2)

theorem two_lt_p : 2 < p := by unfold p; norm_num

theorem res_scale (l m : F) (hl : l ≠ 0) (s : L) : res (sc l m s) = res s := by
  have h := ZMod.pow_card_sub_one_eq_one hl
  have e : p - 1 = (p - 2) + 1 := by have := two_lt_p; omega
  rw [e, pow_succ] at h
  simp only [res, sc, mul_pow]
  generalize s.z2 ^ (p - 2) = w
  generalize hw : l ^ (p - 2) = v at *
  linear_combination s.x2 * w * h

/-- At u = 0 every state has x2 * z2 = 0 and x3 * z3 = 0. -/
theorem step_zero (b : Bool) (s : L) (h2 : s.x2 * s.z2 = 0) (h3 : s.x3 * s.z3 = 0) :
    (step 0 b s).z2 = 0 ∧ (step 0 b s).z3 = 0 := by
  rcases s with ⟨x2, z2, x3, z3⟩
  simp only at h2 h3
  cases b <;> simp only [step, sw, dadd, if_true, Bool.false_eq_true, if_false, zero_mul, and_true, true_and]
  · have e : (x2 + z2) ^ 2 - (x2 - z2) ^ 2 = 0 := by linear_combination 4 * h2
    rw [e, zero_mul]
  · have e : (x3 + z3) ^ 2 - (x3 - z3) ^ 2 = 0 := by linear_combination 4 * h3
    rw [e, zero_mul]

theorem run_zero (k : ℕ) : ∀ n (s : L), s.x2 * s.z2 = 0 → s.x3 * s.z3 = 0 → (run k 0 (n + 1) s).z2 = 0 := by
  intro n
  induction n with
  | zero => intro s h2 h3; exact (step_zero _ s h2 h3).1
  | succ n ih =>
    intro s h2 h3
    have := step_zero (k.testBit (n + 1)) s h2 h3
    exact ih _ (by rw [this.1, mul_zero]) (by rw [this.2, mul_zero])

theorem res_zero (s : L) (h : s.z2 = 0) : res s = 0 := by
  have : p - 2 ≠ 0 := by have := two_lt_p; omega
  rw [res, h, zero_pow this, mul_zero]

theorem four_ne : (4 : F) ≠ 0 := by
  have h : ((4 : ℕ) : F) ≠ 0 := by
    rw [Ne, ZMod.natCast_eq_zero_iff]
    intro h
    have := Nat.le_of_dvd (by norm_num) h
    unfold p at this
    norm_num at this
  exact h

/-- A leading zero bit does not change the result. -/
theorem leading_zero (k n : ℕ) (u : F) (hk : k.testBit (n + 1) = false) :
    res (run k u (n + 2) ⟨1, 0, u, 1⟩) = res (run k u (n + 1) ⟨1, 0, u, 1⟩) := by
  by_cases hu : u = 0
  · subst hu
    rw [res_zero _ (run_zero k (n + 1) _ (by simp) (by simp)), res_zero _ (run_zero k n _ (by simp) (by simp))]
  · have e : step u false ⟨1, 0, u, 1⟩ = sc 1 (4 * u) ⟨1, 0, u, 1⟩ := by
      simp only [step, sw, dadd, sc, Bool.false_eq_true, if_false]
      rw [L.mk.injEq]
      refine ⟨?_, ?_, ?_, ?_⟩ <;> ring
    rw [show run k u (n + 2) ⟨1, 0, u, 1⟩ = run k u (n + 1) (step u (k.testBit (n + 1)) ⟨1, 0, u, 1⟩) from rfl, hk, e]
    obtain ⟨l, m, hl, -, e'⟩ := run_scale k u (n + 1) 1 (4 * u) ⟨1, 0, u, 1⟩ one_ne_zero (mul_ne_zero four_ne hu)
    rw [e', res_scale l m hl]

theorem mult_256 (k : ℕ) (u : F) (hk : k < 2 ^ 255) : mult k u = res (run k u 256 ⟨1, 0, u, 1⟩) := by
  rw [mult_eq, leading_zero k 254 u (Nat.testBit_lt_two_pow hk)]; rfl

end WG.Ladder
