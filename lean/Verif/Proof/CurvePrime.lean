import Mathlib.NumberTheory.LucasPrimality
import Mathlib.Tactic.NormNum.Prime
import Mathlib.Data.Nat.Prime.Basic
import Mathlib.Algebra.BigOperators.Associated
import Verif.Spec.X25519
/-! 2^255 - 19 is prime, by a Pratt certificate checked by the kernel. -/
namespace WG.C64

/-- `a ^ e % n` by repeated squaring, with at most `fuel` bits. -/
def powmod (n : ℕ) : ℕ → ℕ → ℕ → ℕ
  | 0, _, _ => 1 % n
  | fuel + 1, a, e => if e = 0 then 1 % n else
      if e % 2 = 1 then a * powmod n fuel (a * a % n) (e / 2) % n else powmod n fuel (a * a % n) (e / 2)

theorem powmod_eq (n : ℕ) : ∀ fuel a e : ℕ, e < 2 ^ fuel → powmod n fuel a e = a ^ e % n := by
  intro fuel
  induction fuel with
  | zero => intro a e h; obtain rfl : e = 0 := by simpa using h
            simp [powmod]
  | succ f ih =>
    intro a e h
    simp only [powmod]
    split
    · next h0 => subst h0; simp
    · rw [ih _ _ (by omega), ← Nat.pow_mod, ← pow_two, ← pow_mul]
      split
      · next h1 =>
        have : e = 2 * (e / 2) + 1 := by omega
        conv_rhs => rw [this, pow_succ, mul_comm]
        rw [Nat.mul_mod, Nat.mod_mod, ← Nat.mul_mod]
      · have : e = 2 * (e / 2) := by omega
        conv_rhs => rw [this]

/-- The check of one certificate. -/
def check (n a : ℕ) (fs : List ℕ) : Bool :=
  fs.prod == n - 1 && decide (1 < n) && decide (n - 1 < 2 ^ 300) && powmod n 300 a (n - 1) == 1 && fs.all fun q => powmod n 300 a ((n - 1) / q) != 1

theorem pratt (n a : ℕ) (fs : List ℕ) (hf : ∀ q ∈ fs, q.Prime) (hc : check n a fs = true) : n.Prime := by
  simp only [check, Bool.and_eq_true, beq_iff_eq, decide_eq_true_eq, List.all_eq_true, bne_iff_ne] at hc
  obtain ⟨⟨⟨⟨hp, h1⟩, hl⟩, ha⟩, hq⟩ := hc
  have key : ∀ e, e ≤ n - 1 → powmod n 300 a e = a ^ e % n := fun e he => powmod_eq n 300 a e (by omega)
  have e1 : ∀ e, ((a : ZMod n) ^ e = 1 ↔ a ^ e % n = 1) := by
    intro e
    have := ZMod.natCast_eq_natCast_iff' (a ^ e) 1 n
    rw [Nat.mod_eq_of_lt h1] at this
    rw [← this]; push_cast; rfl
  apply lucas_primality n (a : ZMod n)
  · rw [e1, ← key _ le_rfl]; exact ha
  · intro q hqp hqd
    rw [← hp] at hqd
    obtain ⟨r, hr, hqr⟩ := (Prime.dvd_prod_iff (Nat.Prime.prime hqp)).1 hqd
    have : q = r := (Nat.prime_dvd_prime_iff_eq hqp (hf r hr)).1 hqr
    subst this
    rw [Ne, e1, ← key _ (Nat.div_le_self _ _)]
    exact hq q hr

theorem prime32573 : Nat.Prime 32573 :=
  pratt 32573 2 [2, 2, 17, 479] (by simp only [List.mem_cons, List.not_mem_nil, or_false, forall_eq_or_imp, forall_eq]; exact ⟨(by norm_num : Nat.Prime 2), (by norm_num : Nat.Prime 2), (by norm_num : Nat.Prime 17), (by norm_num : Nat.Prime 479)⟩) (by decide +kernel)

theorem prime65147 : Nat.Prime 65147 :=
  pratt 65147 2 [2, 32573] (by simp only [List.mem_cons, List.not_mem_nil, or_false, forall_eq_or_imp, forall_eq]; exact ⟨(by norm_num : Nat.Prime 2), prime32573⟩) (by decide +kernel)

theorem prime57467 : Nat.Prime 57467 :=
  pratt 57467 2 [2, 59, 487] (by simp only [List.mem_cons, List.not_mem_nil, or_false, forall_eq_or_imp, forall_eq]; exact ⟨(by norm_num : Nat.Prime 2), (by norm_num : Nat.Prime 59), (by norm_num : Nat.Prime 487)⟩) (by decide +kernel)

theorem prime132049 : Nat.Prime 132049 :=
  pratt 132049 26 [2, 2, 2, 2, 3, 3, 7, 131] (by simp only [List.mem_cons, List.not_mem_nil, or_false, forall_eq_or_imp, forall_eq]; exact ⟨(by norm_num : Nat.Prime 2), (by norm_num : Nat.Prime 2), (by norm_num : Nat.Prime 2), (by norm_num : Nat.Prime 2), (by norm_num : Nat.Prime 3), (by norm_num : Nat.Prime 3), (by norm_num : Nat.Prime 7), (by norm_num : Nat.Prime 131)⟩) (by decide +kernel)

theorem prime3727 : Nat.Prime 3727 :=
  pratt 3727 3 [2, 3, 3, 3, 3, 23] (by simp only [List.mem_cons, List.not_mem_nil, or_false, forall_eq_or_imp, forall_eq]; exact ⟨(by norm_num : Nat.Prime 2), (by norm_num : Nat.Prime 3), (by norm_num : Nat.Prime 3), (by norm_num : Nat.Prime 3), (by norm_num : Nat.Prime 3), (by norm_num : Nat.Prime 23)⟩) (by decide +kernel)

theorem prime1923133 : Nat.Prime 1923133 :=
  pratt 1923133 2 [2, 2, 3, 43, 3727] (by simp only [List.mem_cons, List.not_mem_nil, or_false, forall_eq_or_imp, forall_eq]; exact ⟨(by norm_num : Nat.Prime 2), (by norm_num : Nat.Prime 2), (by norm_num : Nat.Prime 3), (by norm_num : Nat.Prime 43), prime3727⟩) (by decide +kernel)

theorem prime4153 : Nat.Prime 4153 :=
  pratt 4153 5 [2, 2, 2, 3, 173] (by simp only [List.mem_cons, List.not_mem_nil, or_false, forall_eq_or_imp, forall_eq]; exact ⟨(by norm_num : Nat.Prime 2), (by norm_num : Nat.Prime 2), (by norm_num : Nat.Prime 2), (by norm_num : Nat.Prime 3), (by norm_num : Nat.Prime 173)⟩) (by decide +kernel)

theorem prime1723 : Nat.Prime 1723 :=
  pratt 1723 3 [2, 3, 7, 41] (by simp only [List.mem_cons, List.not_mem_nil, or_false, forall_eq_or_imp, forall_eq]; exact ⟨(by norm_num : Nat.Prime 2), (by norm_num : Nat.Prime 3), (by norm_num : Nat.Prime 7), (by norm_num : Nat.Prime 41)⟩) (by decide +kernel)

theorem prime430751 : Nat.Prime 430751 :=
  pratt 430751 17 [2, 5, 5, 5, 1723] (by simp only [List.mem_cons, List.not_mem_nil, or_false, forall_eq_or_imp, forall_eq]; exact ⟨(by norm_num : Nat.Prime 2), (by norm_num : Nat.Prime 5), (by norm_num : Nat.Prime 5), (by norm_num : Nat.Prime 5), prime1723⟩) (by decide +kernel)

theorem prime31757755568855353 : Nat.Prime 31757755568855353 :=
  pratt 31757755568855353 10 [2, 2, 2, 3, 31, 107, 223, 4153, 430751] (by simp only [List.mem_cons, List.not_mem_nil, or_false, forall_eq_or_imp, forall_eq]; exact ⟨(by norm_num : Nat.Prime 2), (by norm_num : Nat.Prime 2), (by norm_num : Nat.Prime 2), (by norm_num : Nat.Prime 3), (by norm_num : Nat.Prime 31), (by norm_num : Nat.Prime 107), (by norm_num : Nat.Prime 223), prime4153, prime430751⟩) (by decide +kernel)

theorem prime9463 : Nat.Prime 9463 :=
  pratt 9463 3 [2, 3, 19, 83] (by simp only [List.mem_cons, List.not_mem_nil, or_false, forall_eq_or_imp, forall_eq]; exact ⟨(by norm_num : Nat.Prime 2), (by norm_num : Nat.Prime 3), (by norm_num : Nat.Prime 19), (by norm_num : Nat.Prime 83)⟩) (by decide +kernel)

theorem prime37853 : Nat.Prime 37853 :=
  pratt 37853 2 [2, 2, 9463] (by simp only [List.mem_cons, List.not_mem_nil, or_false, forall_eq_or_imp, forall_eq]; exact ⟨(by norm_num : Nat.Prime 2), (by norm_num : Nat.Prime 2), prime9463⟩) (by decide +kernel)

theorem prime75707 : Nat.Prime 75707 :=
  pratt 75707 2 [2, 37853] (by simp only [List.mem_cons, List.not_mem_nil, or_false, forall_eq_or_imp, forall_eq]; exact ⟨(by norm_num : Nat.Prime 2), prime37853⟩) (by decide +kernel)

theorem prime2437 : Nat.Prime 2437 :=
  pratt 2437 2 [2, 2, 3, 7, 29] (by simp only [List.mem_cons, List.not_mem_nil, or_false, forall_eq_or_imp, forall_eq]; exact ⟨(by norm_num : Nat.Prime 2), (by norm_num : Nat.Prime 2), (by norm_num : Nat.Prime 3), (by norm_num : Nat.Prime 7), (by norm_num : Nat.Prime 29)⟩) (by decide +kernel)

theorem prime569003 : Nat.Prime 569003 :=
  pratt 569003 2 [2, 7, 97, 419] (by simp only [List.mem_cons, List.not_mem_nil, or_false, forall_eq_or_imp, forall_eq]; exact ⟨(by norm_num : Nat.Prime 2), (by norm_num : Nat.Prime 7), (by norm_num : Nat.Prime 97), (by norm_num : Nat.Prime 419)⟩) (by decide +kernel)

theorem prime2773320623 : Nat.Prime 2773320623 :=
  pratt 2773320623 5 [2, 2437, 569003] (by simp only [List.mem_cons, List.not_mem_nil, or_false, forall_eq_or_imp, forall_eq]; exact ⟨(by norm_num : Nat.Prime 2), prime2437, prime569003⟩) (by decide +kernel)

theorem prime72106336199 : Nat.Prime 72106336199 :=
  pratt 72106336199 7 [2, 13, 2773320623] (by simp only [List.mem_cons, List.not_mem_nil, or_false, forall_eq_or_imp, forall_eq]; exact ⟨(by norm_num : Nat.Prime 2), (by norm_num : Nat.Prime 13), prime2773320623⟩) (by decide +kernel)

theorem prime8574133 : Nat.Prime 8574133 :=
  pratt 8574133 2 [2, 2, 3, 7, 103, 991] (by simp only [List.mem_cons, List.not_mem_nil, or_false, forall_eq_or_imp, forall_eq]; exact ⟨(by norm_num : Nat.Prime 2), (by norm_num : Nat.Prime 2), (by norm_num : Nat.Prime 3), (by norm_num : Nat.Prime 7), (by norm_num : Nat.Prime 103), (by norm_num : Nat.Prime 991)⟩) (by decide +kernel)

theorem prime1919519569386763 : Nat.Prime 1919519569386763 :=
  pratt 1919519569386763 2 [2, 3, 7, 19, 47, 47, 127, 8574133] (by simp only [List.mem_cons, List.not_mem_nil, or_false, forall_eq_or_imp, forall_eq]; exact ⟨(by norm_num : Nat.Prime 2), (by norm_num : Nat.Prime 3), (by norm_num : Nat.Prime 7), (by norm_num : Nat.Prime 19), (by norm_num : Nat.Prime 47), (by norm_num : Nat.Prime 47), (by norm_num : Nat.Prime 127), prime8574133⟩) (by decide +kernel)

theorem prime75445702479781427272750846543864801 : Nat.Prime 75445702479781427272750846543864801 :=
  pratt 75445702479781427272750846543864801 7 [2, 2, 2, 2, 2, 3, 3, 5, 5, 75707, 72106336199, 1919519569386763] (by simp only [List.mem_cons, List.not_mem_nil, or_false, forall_eq_or_imp, forall_eq]; exact ⟨(by norm_num : Nat.Prime 2), (by norm_num : Nat.Prime 2), (by norm_num : Nat.Prime 2), (by norm_num : Nat.Prime 2), (by norm_num : Nat.Prime 2), (by norm_num : Nat.Prime 3), (by norm_num : Nat.Prime 3), (by norm_num : Nat.Prime 5), (by norm_num : Nat.Prime 5), prime75707, prime72106336199, prime1919519569386763⟩) (by decide +kernel)

theorem prime74058212732561358302231226437062788676166966415465897661863160754340907 : Nat.Prime 74058212732561358302231226437062788676166966415465897661863160754340907 :=
  pratt 74058212732561358302231226437062788676166966415465897661863160754340907 2 [2, 3, 353, 57467, 132049, 1923133, 31757755568855353, 75445702479781427272750846543864801] (by simp only [List.mem_cons, List.not_mem_nil, or_false, forall_eq_or_imp, forall_eq]; exact ⟨(by norm_num : Nat.Prime 2), (by norm_num : Nat.Prime 3), (by norm_num : Nat.Prime 353), prime57467, prime132049, prime1923133, prime31757755568855353, prime75445702479781427272750846543864801⟩) (by decide +kernel)

theorem primeP : Nat.Prime 57896044618658097711785492504343953926634992332820282019728792003956564819949 :=
  pratt 57896044618658097711785492504343953926634992332820282019728792003956564819949 2 [2, 2, 3, 65147, 74058212732561358302231226437062788676166966415465897661863160754340907] (by simp only [List.mem_cons, List.not_mem_nil, or_false, forall_eq_or_imp, forall_eq]; exact ⟨(by norm_num : Nat.Prime 2), (by norm_num : Nat.Prime 2), (by norm_num : Nat.Prime 3), prime65147, prime74058212732561358302231226437062788676166966415465897661863160754340907⟩) (by decide +kernel)

theorem p_prime : Nat.Prime Spec.X25519.p := by
  have : Spec.X25519.p = 57896044618658097711785492504343953926634992332820282019728792003956564819949 := by unfold Spec.X25519.p; norm_num
  rw [this]; exact primeP

instance : Fact (Nat.Prime Spec.X25519.p) := ⟨p_prime⟩

end WG.C64
