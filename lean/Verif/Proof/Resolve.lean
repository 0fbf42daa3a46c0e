import Verif.Proof.Address
import Verif.Spec.Resolve
import Verif.Proof.Base64
namespace WG
open Spec

theorem wait_bounds (i : Nat) : 1000000 ≤ wait i ∧ wait i ≤ 20000000 := by
  induction i with
  | zero => decide
  | succ i ih => simp only [wait]; omega

/-- The `unsigned int` product never wraps. -/
theorem nextTimeout_wait (i : Nat) : nextTimeout (wait i) = wait (i + 1) := by
  have := wait_bounds i
  simp only [nextTimeout, wait]
  rw [Nat.mod_eq_of_lt (by omega)]

theorem range_map_succ (f : Nat → Nat) (n : Nat) :
    (List.range (n + 1)).map f = f 0 :: (List.range n).map (fun j => f (j + 1)) := by
  rw [List.range_succ_eq_map]; simp [Function.comp_def]

theorem resolve_spec (env : Env) (host port : CStr) (fuel : Nat) : ∀ (tick : Nat) (retries : Option Nat) (i : Nat),
    ResolveSpec env host port fuel tick retries i
      (resolveLoop env host port fuel tick retries (wait i)).1
      (resolveLoop env host port fuel tick retries (wait i)).2.1
      (resolveLoop env host port fuel tick retries (wait i)).2.2 := by
  induction fuel with
  | zero =>
    intro tick retries i
    simp only [resolveLoop]
    exact ⟨Nat.le_refl _, by intros; omega, ⟨rfl, by intros; omega⟩, by intros; omega, rfl, by simp⟩
  | succ fuel ih =>
    intro tick retries i
    simp only [resolveLoop]
    cases hg : env.gai tick host port with
    | found e =>
      simp only
      exact ⟨by omega, by intros; omega, ⟨by omega, by simpa using hg⟩, by intros; omega, rfl, by simp⟩
    | permanent =>
      simp only
      exact ⟨by omega, by intros; omega, ⟨by omega, .inl (by simpa using hg)⟩, by intros; omega, rfl, by simp⟩
    | transient =>
      simp only
      have step : ∀ retries' : Option Nat, (∀ m, retries' = some m → retries = some (m + 1)) →
          (∀ N, retries = some N → retries' = some (N - 1) ∧ 0 < N) →
          ResolveSpec env host port (fuel + 1) tick retries i
            (resolveLoop env host port fuel (tick + 1) retries' (nextTimeout (wait i))).1
            (resolveLoop env host port fuel (tick + 1) retries' (nextTimeout (wait i))).2.1
            (wait i :: (resolveLoop env host port fuel (tick + 1) retries' (nextTimeout (wait i))).2.2) := by
        intro retries' hr hr2
        rw [nextTimeout_wait]
        have H := ih (tick + 1) retries' (i + 1)
        generalize hx : resolveLoop env host port fuel (tick + 1) retries' (wait (i + 1)) = x at H
        obtain ⟨r, k, w⟩ := x
        obtain ⟨h1, h2, h3, h4, h5, h6⟩ := H
        simp only at h1 h2 h3 h4 h5 h6 ⊢
        refine ⟨by omega, ?_, ?_, ?_, ?_, ?_⟩
        · intro n hn1 hn2
          by_cases hn : n = tick
          · subst hn; exact hg
          · exact h2 n (by omega) hn2
        · cases r with
          | ok e => exact ⟨by have := h3.1; omega, h3.2⟩
          | fail =>
            refine ⟨by have := h3.1; omega, ?_⟩
            rcases h3.2 with h | ⟨h, h'⟩
            · exact .inl h
            · refine .inr ⟨h, ?_⟩
              rw [hr _ h']
              have := h3.1
              congr 1; omega
          | exit1 => exact h3
          | ub => exact h3
          | running =>
            refine ⟨by have := h3.1; omega, ?_⟩
            intro n hn1 hn2
            by_cases hn : n = tick
            · subst hn; exact hg
            · exact h3.2 n (by omega) hn2
        · intro N hN
          obtain ⟨hN', hpos⟩ := hr2 N hN
          have := h4 _ hN'
          omega
        · rw [List.length_cons, range_map_succ]
          simp only [Nat.add_zero, List.cons.injEq, true_and]
          rw [h5]
          simp only [List.length_map, List.length_range]
          apply List.map_congr_left
          intro j _
          congr 1; omega
        · cases r <;> simp only [List.length_cons] at h6 ⊢ <;> omega
      cases retries with
      | none =>
        simp only
        exact step none (by simp) (by simp)
      | some n =>
        cases n with
        | zero =>
          simp only
          exact ⟨by omega, by intros; omega, ⟨by omega, .inr ⟨by simpa using hg, by simp⟩⟩, by intros; omega, rfl, by simp⟩
        | succ n =>
          simp only
          exact step (some n) (by intro m h; cases h; rfl) (by intro N h; cases h; exact ⟨by simp, by omega⟩)

theorem cstr_length_le (l : List UInt8) : (cstr l).length ≤ l.length := by
  unfold cstr; exact (List.takeWhile_sublist _).length_le

theorem cstr_eq_of_length (l : List UInt8) (h : (cstr l).length = l.length) : cstr l = l := by
  have h2 : cstr l ++ l.dropWhile (· ≠ 0) = l := List.takeWhile_append_dropWhile
  have h3 := congrArg List.length h2
  rw [List.length_append, h] at h3
  have h4 : l.dropWhile (· ≠ 0) = [] := List.eq_nil_of_length_eq_zero (by omega)
  rw [h4] at h2; simpa using h2

theorem cstr_of_no_nul (l : List UInt8) (h : 0 ∉ l) : cstr l = l := takeWhile_ne_self 0 l h

theorem keyToBase64_length (k : Key) : (keyToBase64 k).length = 44 := by
  simp [keyToBase64, List.range, List.range.loop, encodeBase64]

theorem b64Char_ne_zero : ∀ n : Fin 64, b64Char n ≠ 0 := by decide +kernel

theorem group_ne_zero : ∀ a b c : UInt8, ∀ x ∈ ([b64Char ((a.toNat * 65536 + b.toNat * 256 + c.toNat) / 262144),
        b64Char ((a.toNat * 65536 + b.toNat * 256 + c.toNat) / 4096 % 64),
        b64Char ((a.toNat * 65536 + b.toNat * 256 + c.toNat) / 64 % 64),
        b64Char ((a.toNat * 65536 + b.toNat * 256 + c.toNat) % 64)] : List UInt8), x ≠ 0 := by
  intro a b c x hx
  have ha := a.toNat_lt; have hb := b.toNat_lt; have hc := c.toNat_lt
  simp only [List.mem_cons, List.not_mem_nil, or_false] at hx
  rcases hx with rfl | rfl | rfl | rfl
  · exact b64Char_ne_zero ⟨_, by omega⟩
  · exact b64Char_ne_zero ⟨_, Nat.mod_lt _ (by decide)⟩
  · exact b64Char_ne_zero ⟨_, Nat.mod_lt _ (by decide)⟩
  · exact b64Char_ne_zero ⟨_, Nat.mod_lt _ (by decide)⟩

theorem keyToBase64_no_nul (k : Key) : 0 ∉ keyToBase64 k := by
  intro h
  have h1 := cstr_length_le (keyToBase64 k)
  -- a text with a NUL is not accepted by the reader when cut there; use the alphabet instead
  simp only [keyToBase64, encodeBase64_eq] at h
  rw [List.mem_iff_getElem] at h
  obtain ⟨i, hi, he⟩ := h
  rw [List.getElem_set] at he
  split at he
  · exact absurd he (by decide)
  · have hm := List.mem_of_getElem he
    rw [List.mem_append, List.mem_flatMap] at hm
    rcases hm with ⟨j, -, hj⟩ | hj
    · exact group_ne_zero _ _ _ 0 hj rfl
    · exact group_ne_zero _ _ _ 0 hj rfl

theorem charIsSpace_u8 (c : UInt8) : charIsSpace (u8ToInt c) = isSpace c := by
  have := charIsSpace_spec false c
  simpa [isSpaceC, charToInt, u8ToInt] using this

/-- Reading a key text from the first 44 bytes of a raw buffer. -/
theorem keyFromRaw (sc : Bool) (raw : List UInt8) (k : Key) (hl : raw.length = 44) :
    keyFromBase64 sc (cstr raw) = some k ↔ raw = keyToBase64 k := by
  rw [keyFromBase64_some]
  constructor
  · intro h
    have := keyToBase64_length k
    rw [← h] at this
    rw [← h]; exact (cstr_eq_of_length raw (by omega)).symm
  · rintro rfl; exact cstr_of_no_nul _ (keyToBase64_no_nul k)

theorem parseKeyfile_iff (env : Env) (path : CStr) (k : Key) :
    parseKeyfile env path = some k ↔ ∃ f, env.file path = some f ∧ f.errAt = none ∧
      ((f.content = [] ∧ f.seekable = true ∧ k = zeroKey) ∨
       ∃ ws, f.content = keyToBase64 k ++ ws ∧ ∀ c ∈ ws, isSpace c = true) := by
  unfold parseKeyfile
  cases hf : env.file path with
  | none => simp
  | some f =>
    simp only [Option.some.injEq, exists_eq_left']
    cases he : f.errAt with
    | some n =>
      simp only [reduceCtorEq, decide_false, Bool.false_and, false_and, iff_false]
      split
      · simp
      · split
        · simp
        · simp
    | none =>
      have hb : f.bytes = f.content := by simp [FileObj.bytes, he]
      simp only [hb, decide_true, Bool.true_and, true_and, ne_eq, not_true_eq_false, if_false]
      by_cases hl : f.content.length < 44
      · simp only [hl, if_true]
        have hno : ¬ ∃ ws, f.content = keyToBase64 k ++ ws ∧ ∀ c ∈ ws, isSpace c = true := by
          rintro ⟨ws, h, _⟩
          rw [h, List.length_append, keyToBase64_length] at hl; omega
        simp only [hno, or_false, Bool.and_eq_true, decide_eq_true_eq, List.length_eq_zero_iff]
        constructor
        · intro h
          split at h
          · rename_i h'; cases h; exact ⟨h'.2, h'.1, rfl⟩
          · cases h
        · rintro ⟨h1, h2, rfl⟩; simp [h1, h2]
      · simp only [hl, if_false]
        have hne : f.content ≠ [] := by rintro h; rw [h] at hl; simp at hl
        simp only [hne, false_and, false_or, charIsSpace_u8]
        by_cases hall : (f.content.drop 44).all isSpace = true
        · simp only [hall, Bool.not_true, Bool.false_eq_true, if_false, parseKey]
          rw [keyFromRaw _ _ _ (by simp; omega)]
          constructor
          · intro h
            refine ⟨f.content.drop 44, ?_, by simpa using hall⟩
            rw [← h, List.take_append_drop]
          · rintro ⟨ws, h, _⟩
            rw [h, List.take_append_of_le_length (by rw [keyToBase64_length]; omega), List.take_of_length_le (by rw [keyToBase64_length]; omega)]
        · simp only [hall, Bool.not_false, if_true, reduceCtorEq, false_iff]
          rintro ⟨ws, h, hws⟩
          apply hall
          have e : (keyToBase64 k ++ ws).drop 44 = ws := by
            have := List.drop_left (l₁ := keyToBase64 k) (l₂ := ws)
            rwa [keyToBase64_length] at this
          rw [h, e]
          simpa using hws

end WG
