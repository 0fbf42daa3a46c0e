import Verif.Spec.Keys
import Verif.Proof.Encoding
import Verif.Proof.Resolve
import Verif.Proof.Curve64Format
/-! Proofs about genkey and pubkey. -/
namespace WG
open Spec Spec.X25519

theorem writeAt_eq (buf : List UInt8) (i : Nat) (d : List UInt8) (h : i ≤ buf.length) :
    (writeAt buf i d).take (i + d.length) = buf.take i ++ d := by
  have : (buf.take i ++ d).length = i + d.length := by simp [h]
  rw [writeAt, ← this, List.take_left]

theorem writeAt_length (buf : List UInt8) (i : Nat) (d : List UInt8) (h : i + d.length ≤ buf.length) :
    (writeAt buf i d).length = buf.length := by
  simp [writeAt]; omega

theorem urandomLoop_spec (env : RandEnv) (hs : SaneRand env) (len : Nat) : ∀ fuel j i buf, len ≤ i + fuel → i ≤ len → buf.length = len →
    (∀ l, Reads env len i j l → urandomLoop env len fuel j i buf = (buf.take i ++ l, len)) ∧
    ((urandomLoop env len fuel j i buf).2 = len → ∃ l, Reads env len i j l) := by
  intro fuel
  induction fuel with
  | zero =>
    intro j i buf hf hi hb
    have hil : i = len := by omega
    subst hil
    refine ⟨?_, fun _ => ⟨[], .done j⟩⟩
    intro l hl
    cases hl with
    | done => simp [urandomLoop, hb.symm]
    | more h => omega
  | succ fuel ih =>
    intro j i buf hf hi hb
    by_cases hlt : i < len
    · rw [urandomLoop, if_pos hlt]
      cases hr : env.read j (len - i) with
      | none =>
        refine ⟨?_, fun h => by simp at h; omega⟩
        intro l hl
        cases hl with
        | done => omega
        | more _ h => rw [hr] at h; cases h
      | some d =>
        have hd := hs.2 _ _ _ hr
        have ht : d.take (len - i) = d := List.take_of_length_le hd
        simp only [ht]
        split
        · next h0 =>
          have : d = [] := List.length_eq_zero_iff.1 h0
          refine ⟨?_, fun h => by simp at h; omega⟩
          intro l hl
          cases hl with
          | done => omega
          | more _ h h' => rw [hr] at h; cases h; exact absurd this h'
        · next h0 =>
          have hne : d ≠ [] := fun h => h0 (by rw [h]; rfl)
          have hp : 0 < d.length := by omega
          have := ih (j + 1) (i + d.length) (writeAt buf i d) (by omega) (by omega) (by rw [writeAt_length _ _ _ (by omega)]; exact hb)
          refine ⟨?_, ?_⟩
          · intro l hl
            cases hl with
            | done => omega
            | more _ h _ _ hrest =>
              rw [hr] at h; cases h
              rw [this.1 _ hrest, writeAt_eq _ _ _ (by omega), List.append_assoc]
          · intro h
            obtain ⟨l, hl⟩ := this.2 h
            exact ⟨d ++ l, .more hlt hr hne hd hl⟩
    · have hil : i = len := by omega
      subst hil
      rw [urandomLoop, if_neg hlt]
      refine ⟨?_, fun _ => ⟨[], .done j⟩⟩
      intro l hl
      cases hl with
      | done => simp [hb.symm]
      | more h => omega

theorem urandom_branch (env : RandEnv) (hs : SaneRand env) (out : List UInt8) (len : Nat) (ho : out.length = len) (l : List UInt8) :
    (if (!env.openOk) = true then none else
      if (urandomLoop env len len 0 0 out).2 = len then some (urandomLoop env len len 0 0 out).1 else none) = some l ↔
    env.openOk = true ∧ Reads env len 0 0 l := by
  have h := urandomLoop_spec env hs len len 0 0 out (by omega) (by omega) ho
  cases ho' : env.openOk with
  | false => simp
  | true =>
    simp only [Bool.not_true, Bool.false_eq_true, if_false, true_and]
    constructor
    · intro he
      split at he
      · next h2 =>
        obtain ⟨l', hl'⟩ := h.2 h2
        rw [h.1 l' hl'] at he
        simp at he
        exact he ▸ hl'
      · cases he
    · intro hl
      rw [h.1 l hl]; simp

theorem getRandomBytes_spec (env : RandEnv) (hs : SaneRand env) (out : List UInt8) (len : Nat) (hl : len ≤ 256) (ho : out.length = len)
    (l : List UInt8) : getRandomBytes env out len = some l ↔ Delivered env len l := by
  unfold getRandomBytes Delivered
  rw [if_neg (by omega)]
  cases he : env.entropy len with
  | some v => simp [eq_comm]
  | none =>
    simp only
    cases hg : env.getrandom len with
    | none =>
      simp only [Option.map_none, reduceCtorEq, if_false]
      exact urandom_branch env hs out len ho l
    | some d =>
      have hd := hs.1 _ _ hg
      have ht : d.take len = d := List.take_of_length_le hd
      simp only [Option.map_some, ht, Option.some.injEq]
      by_cases hdl : d.length = len
      · rw [if_pos hdl, if_pos hdl]
        have : writeAt out 0 d = d := by simp [writeAt, hdl, ho.symm]
        rw [this, Option.some.injEq, eq_comm]
      · rw [if_neg hdl, if_neg hdl]
        exact urandom_branch env hs _ len (by rw [writeAt_length _ _ _ (by omega)]; exact ho) l

theorem reads_length {env : RandEnv} {len i j : Nat} {l : List UInt8} (h : Reads env len i j l) (hi : i ≤ len) : i + l.length = len := by
  induction h with
  | done => simp
  | more _ _ _ h2 _ ih => have := ih (by omega); simp; omega

theorem delivered_length {env : RandEnv} {len : Nat} {l : List UInt8} (h : Delivered env len l) : l.length = len := by
  unfold Delivered at h
  split at h
  · subst h; simp
  · split at h
    · split at h
      · next h' => subst h; exact h'
      · have := reads_length h.2 (Nat.zero_le _); omega
    · have := reads_length h.2 (Nat.zero_le _); omega

theorem keyOf_toList {l : List UInt8} (h : l.length = 32) : (keyOf l).toList = l := by
  apply List.ext_getElem
  · simp [h]
  · intro i h1 h2
    simp only [keyOf, Vector.getElem_toList, Vector.getElem_ofFn]
    rw [List.getD_eq_getElem?_getD, List.getElem?_eq_getElem h2]; rfl

theorem decodeLE_inj : ∀ (a b : List UInt8), a.length = b.length → decodeLE a = decodeLE b → a = b := by
  intro a
  induction a with
  | nil => intro b h _; exact (List.length_eq_zero_iff.1 h.symm).symm
  | cons x t ih =>
    intro b h hd
    rcases b with _ | ⟨y, s⟩
    · simp at h
    · simp only [decodeLE] at hd
      have hx := x.toNat_lt
      have hy := y.toNat_lt
      have e1 : x.toNat = y.toNat := by omega
      have e2 : decodeLE t = decodeLE s := by omega
      rw [UInt8.toNat_inj.1 e1, ih s (by simpa using h) e2]

theorem decodeLE_key_lt (k : Key) : decodeLE k.toList < 2 ^ 256 := by
  have := C64.bytes_ext k.toList
  simp only [Vector.length_toList] at this
  exact lt_of_lt_of_le this (by norm_num)

/-- The bits of a decoded scalar. -/
theorem decodeScalar_bit (k : Key) (i : Nat) : (decodeScalar k).testBit i =
    (decide (i = 254) || (decide (3 ≤ i ∧ i < 254) && (decodeLE k.toList).testBit i)) := by
  have e : decodeScalar k = 2 ^ 254 * 1 + (decodeLE k.toList % 2 ^ 254 / 8 * 8) := by unfold decodeScalar; omega
  have hlt : decodeLE k.toList % 2 ^ 254 / 8 * 8 < 2 ^ 254 := by omega
  rw [e, Nat.testBit_two_pow_mul_add _ hlt]
  split
  · next h =>
    rw [show (8 : Nat) = 2 ^ 3 from rfl, ← Nat.shiftLeft_eq, Nat.testBit_shiftLeft, Nat.testBit_div_two_pow, Nat.testBit_mod_two_pow]
    rw [show decide (i = 254) = false by simp; omega]
    by_cases h3 : 3 ≤ i
    · simp [h3, h, show i - 3 + 3 = i by omega]
    · simp [h3]
  · next h =>
    by_cases h1 : i = 254
    · subst h1; simp
    · rw [show decide (i = 254) = false by simp [h1], show decide (3 ≤ i ∧ i < 254) = false by simp; omega]
      obtain ⟨j, hj⟩ : ∃ j, i - 254 = j + 1 := ⟨i - 255, by omega⟩
      rw [hj, Nat.testBit_add_one]; simp

theorem clamp_clamped (k : Key) : Clamped (C64.clamp k) ∧ SameFreeBits (C64.clamp k) k := by
  unfold Clamped SameFreeBits
  rw [C64.clamp_spec]
  refine ⟨?_, ?_⟩
  · simp only [decodeScalar_bit]; simp
  · intro i h1 h2
    rw [decodeScalar_bit, show decide (i = 254) = false by simp; omega, show decide (3 ≤ i ∧ i < 254) = true by simp; omega]; simp

theorem clamped_unique (k a b : Key) (ha : Clamped a) (hb : Clamped b) (sa : SameFreeBits a k) (sb : SameFreeBits b k) : a = b := by
  have : a.toList = b.toList := by
    apply decodeLE_inj _ _ (by simp)
    apply Nat.eq_of_testBit_eq
    intro i
    by_cases h : 256 ≤ i
    · rw [Nat.testBit_lt_two_pow (lt_of_lt_of_le (decodeLE_key_lt a) (Nat.pow_le_pow_right (by norm_num) h)),
        Nat.testBit_lt_two_pow (lt_of_lt_of_le (decodeLE_key_lt b) (Nat.pow_le_pow_right (by norm_num) h))]
    · by_cases h2 : 3 ≤ i ∧ i < 254
      · rw [sa i h2.1 h2.2, sb i h2.1 h2.2]
      · obtain ⟨a0, a1, a2, a3, a4⟩ := ha
        obtain ⟨b0, b1, b2, b3, b4⟩ := hb
        have : i = 0 ∨ i = 1 ∨ i = 2 ∨ i = 254 ∨ i = 255 := by omega
        rcases this with rfl | rfl | rfl | rfl | rfl
        · rw [a0, b0]
        · rw [a1, b1]
        · rw [a2, b2]
        · rw [a4, b4]
        · rw [a3, b3]
  exact Vector.toList_inj.1 this

theorem decodeScalar_same (k k' : Key) (h : SameFreeBits k k') : decodeScalar k = decodeScalar k' := by
  apply Nat.eq_of_testBit_eq
  intro i
  rw [decodeScalar_bit, decodeScalar_bit]
  by_cases h2 : 3 ≤ i ∧ i < 254
  · rw [h i h2.1 h2.2]
  · simp [h2]

theorem trailingOk_iff : ∀ l : List UInt8, trailingOk l = true ↔ ∀ c ∈ l, c = 0 ∨ isSpace c = true := by
  have h : ∀ c : UInt8, charIsSpace (u8ToInt c) = isSpace c := by apply forall_u8; decide +kernel
  intro l
  induction l with
  | nil => simp [trailingOk]
  | cons c r ih =>
    simp only [trailingOk, h]
    by_cases hc : c = 0 ∨ isSpace c = true
    · rw [if_pos (by simpa using hc), ih]; simp [hc]
    · rw [if_neg (by simpa using hc)]
      simp only [Bool.false_eq_true, List.mem_cons, forall_eq_or_imp, false_iff]
      exact fun h => hc h.1

theorem pubkeyMain_spec (pub : Key → Key) (sc : Bool) (prog cmd : CStr) (stdin : List UInt8) :
    (∀ k t, stdin = keyToBase64 k ++ t → (∀ c ∈ t, c = 0 ∨ isSpace c = true) →
      pubkeyMain pub sc prog stdin [cmd] = ⟨keyToBase64 (pub k) ++ b!"\n", [], 0⟩) ∧
    ((¬ ∃ k t, stdin = keyToBase64 k ++ t ∧ ∀ c ∈ t, c = 0 ∨ isSpace c = true) →
      (pubkeyMain pub sc prog stdin [cmd]).stdout = [] ∧ (pubkeyMain pub sc prog stdin [cmd]).code = 1) := by
  constructor
  · intro k t hst ht
    subst hst
    have hl := keyToBase64_length k
    have e1 : (keyToBase64 k ++ t).take 44 = keyToBase64 k := by
      rw [List.take_append_of_le_length (by omega), List.take_of_length_le (by omega)]
    have e2 : (keyToBase64 k ++ t).drop 44 = t := by
      have := List.drop_left (l₁ := keyToBase64 k) (l₂ := t)
      rwa [hl] at this
    have e3 := (keyFromRaw sc (keyToBase64 k) k hl).2 rfl
    simp only [pubkeyMain, e1, e2, hl, (trailingOk_iff t).2 ht, e3]
    simp
  · intro hno
    unfold pubkeyMain
    simp only [List.length_cons, List.length_nil, Nat.zero_add, ne_eq, not_true_eq_false, if_false]
    split
    · exact ⟨rfl, rfl⟩
    · next h44 =>
      split
      · exact ⟨rfl, rfl⟩
      · next htr =>
        cases hk : keyFromBase64 sc (cstr (stdin.take 44)) with
        | none => exact ⟨rfl, rfl⟩
        | some k =>
          exfalso
          apply hno
          refine ⟨k, stdin.drop 44, ?_, ?_⟩
          · rw [← (keyFromRaw sc _ k (by simpa using h44)).1 hk, List.take_append_drop]
          · apply (trailingOk_iff _).1; simpa using htr

end WG
