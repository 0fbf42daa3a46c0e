import Verif.Model.IpcList
import Verif.Spec.IpcList
import Verif.Proof.NetlinkWalk
/-! The list of names (C44). -/
namespace WG
open Spec

/-- The list holds the names. -/
inductive Holds : StrList → List CStr → Prop
  | empty (n : Nat) : Holds { reallocs := n } []
  | some (names : List CStr) (junk : List UInt8) (cap n : Nat) : names ≠ [] → (nameBuffer names ++ junk).length = cap →
      cap ≤ 2 * (nameBuffer names).length → Holds ⟨.some (nameBuffer names ++ junk), (nameBuffer names).length - 1, cap, n⟩ names

theorem nameBuffer_snoc (names : List CStr) (s : CStr) : nameBuffer (names ++ [s]) = (nameBuffer names).take ((nameBuffer names).length - 1) ++ (s ++ [0]) ++ [0] := by
  simp [nameBuffer]

theorem nameBuffer_length (names : List CStr) : (nameBuffer names).length = (names.flatMap (· ++ [0])).length + 1 := by simp [nameBuffer]

theorem nameBuffer_snoc_length (names : List CStr) (s : CStr) : (nameBuffer (names ++ [s])).length = (nameBuffer names).length + s.length + 1 := by
  simp [nameBuffer]; omega

theorem storeBytes_ok (b : List UInt8) (i : Nat) (d : List UInt8) (h : i + d.length ≤ b.length) :
    storeBytes (some b) i d = .ok (b.take i ++ d ++ b.drop (i + d.length)) := by
  rw [storeBytes]; exact if_pos h

/-- Storing in an allocation that is large enough. -/
theorem listPut_spec (names : List CStr) (s : CStr) (junk : List UInt8) (b : List UInt8) (cap n : Nat)
    (hb : b = (nameBuffer names).take ((nameBuffer names).length - 1) ++ junk) (hc : b.length = cap) (hsz : cap < 2 ^ 63)
    (hroom : (nameBuffer names).length + s.length + 1 ≤ cap) (hcap : cap ≤ 2 * ((nameBuffer names).length + s.length + 1)) :
    ∃ l', listPut ⟨some b, (nameBuffer names).length - 1, cap, n⟩ s = .ok (0, l') ∧ Holds l' (names ++ [s]) ∧ l'.reallocs = n := by
  have hpos : 1 ≤ (nameBuffer names).length := by rw [nameBuffer_length]; omega
  generalize hL : (nameBuffer names).length - 1 = L at *
  have hLb : ((nameBuffer names).take L).length = L := by rw [List.length_take]; omega
  have hjl : junk.length = cap - L := by rw [hb, List.length_append, hLb] at hc; omega
  have hlen : (s ++ [(0 : UInt8)]).length = s.length + 1 := by simp
  have e1 : b.take L = (nameBuffer names).take L := by rw [hb, List.take_append_of_le_length (by omega), List.take_take, Nat.min_self]
  have e2 : b.drop (L + (s.length + 1)) = junk.drop (s.length + 1) := by
    rw [hb, List.drop_append, hLb, List.drop_eq_nil_of_le (by omega)]
    simp
  have hmod : (L + (s.length + 1)) % 2 ^ 64 = L + (s.length + 1) := Nat.mod_eq_of_lt (by omega)
  simp only [listPut]
  rw [storeBytes_ok _ _ _ (by rw [hlen]; omega), okb, hlen, e1, e2, hmod]
  have hl1 : ((nameBuffer names).take L ++ (s ++ [0])).length = L + (s.length + 1) := by rw [List.length_append, hLb, hlen]
  rw [storeBytes_ok _ _ _ (by
    rw [List.length_append, hl1, List.length_drop]; simp; omega), okb]
  have e3 : ((nameBuffer names).take L ++ (s ++ [0]) ++ junk.drop (s.length + 1)).take (L + (s.length + 1)) = (nameBuffer names).take L ++ (s ++ [0]) := by
    rw [List.take_append_of_le_length (by omega), List.take_of_length_le (by omega)]
  have e4 : ((nameBuffer names).take L ++ (s ++ [0]) ++ junk.drop (s.length + 1)).drop (L + (s.length + 1) + [(0 : UInt8)].length) = junk.drop (s.length + 2) := by
    rw [List.drop_append, hl1, List.drop_eq_nil_of_le (by rw [hl1]; simp), List.drop_drop]
    simp
  rw [e3, e4]
  have hbuf : (nameBuffer names).take L ++ (s ++ [0]) ++ [0] = nameBuffer (names ++ [s]) := by rw [nameBuffer_snoc, hL]
  rw [hbuf]
  have hnl := nameBuffer_snoc_length names s
  refine ⟨_, rfl, ?_, rfl⟩
  have e5 : L + (s.length + 1) = (nameBuffer (names ++ [s])).length - 1 := by omega
  simp only [e5]
  refine .some _ _ _ _ (by simp) ?_ (by omega)
  rw [List.length_append, List.length_drop]; omega

theorem reallocBytes_spec (heap : Heap) (n : Nat) (buf : Option (List UInt8)) (size : Nat) (h : (buf.getD []).length ≤ size) :
    ∃ junk, reallocBytes heap n buf size = buf.getD [] ++ junk ∧ (reallocBytes heap n buf size).length = size := by
  refine ⟨_, by rw [reallocBytes, List.take_of_length_le h], ?_⟩
  simp [reallocBytes, List.take_of_length_le h]; omega

/-- Adding a name. -/
theorem stringListAdd_spec (heap : Heap) {l : StrList} {names : List CStr} (h : Holds l names) (s : CStr) (hs : s ≠ [])
    (hsz : (nameBuffer names).length + s.length + 1 < 2 ^ 61) :
    (∃ l', stringListAdd heap l s = .ok (0, l') ∧ Holds l' (names ++ [s])) ∨
    ∃ e, heap.fail l.reallocs = some e ∧ stringListAdd heap l s = .ok (-e, { l with reallocs := l.reallocs + 1 }) ∧
      Holds { l with reallocs := l.reallocs + 1 } names := by
  have hsl : 0 < s.length := List.length_pos_iff.2 hs
  cases h with
  | empty n =>
    rw [stringListAdd, if_neg (by omega), if_pos (by simp)]
    simp only
    cases hf : heap.fail n with
    | some e => right; exact ⟨e, rfl, rfl, .empty _⟩
    | none =>
      left
      have hn : (nameBuffer ([] : List CStr)).length = 1 := rfl
      have e1 : (0 * 2 % 2 ^ 64) = 0 := rfl
      have e2 : (0 + (s.length + 1) + 1) % 2 ^ 64 = s.length + 2 := by rw [Nat.mod_eq_of_lt (by omega)]; omega
      rw [e1, e2, if_pos (by omega)]
      obtain ⟨junk, j1, j2⟩ := reallocBytes_spec heap n none (s.length + 2) (by simp)
      obtain ⟨l', h1, h2, -⟩ := listPut_spec [] s junk (reallocBytes heap n none (s.length + 2)) (s.length + 2) (n + 1) (by rw [j1]; rfl) j2 (by omega)
        (by omega) (by omega)
      exact ⟨l', h1, h2⟩
  | some _ junk cap n hne hc hcap =>
    have hl := nameBuffer_length names
    have hlen := hc
    rw [List.length_append] at hlen
    have hsub : (cap + 2 ^ 64 - ((nameBuffer names).length - 1)) % 2 ^ 64 = cap - ((nameBuffer names).length - 1) := by
      rw [show cap + 2 ^ 64 - ((nameBuffer names).length - 1) = cap - ((nameBuffer names).length - 1) + 2 ^ 64 from by omega, Nat.add_mod_right,
        Nat.mod_eq_of_lt (by omega)]
    have hpre : nameBuffer names ++ junk = (nameBuffer names).take ((nameBuffer names).length - 1) ++ (0 :: junk) := by
      conv_lhs => rw [nameBuffer]
      conv_rhs => rw [nameBuffer]
      simp
    rw [stringListAdd, if_neg (by omega)]
    simp only
    rw [hsub]
    by_cases hg : s.length + 1 ≥ cap - ((nameBuffer names).length - 1)
    · rw [if_pos hg]
      cases hf : heap.fail n with
      | some e => right; exact ⟨e, rfl, rfl, .some _ _ _ _ hne hc hcap⟩
      | none =>
        left
        have e1 : cap * 2 % 2 ^ 64 = cap * 2 := Nat.mod_eq_of_lt (by omega)
        have e2 : ((nameBuffer names).length - 1 + (s.length + 1) + 1) % 2 ^ 64 = (nameBuffer names).length + s.length + 1 := by
          rw [Nat.mod_eq_of_lt (by omega)]; omega
        rw [e1, e2]
        generalize hnc : (if cap * 2 < (nameBuffer names).length + s.length + 1 then (nameBuffer names).length + s.length + 1 else cap * 2) = nc
        have hnc1 : (nameBuffer names).length + s.length + 1 ≤ nc ∧ nc ≤ 2 * ((nameBuffer names).length + s.length + 1) ∧ cap ≤ nc := by
          subst hnc; split <;> omega
        obtain ⟨junk', j1, j2⟩ := reallocBytes_spec heap n (.some (nameBuffer names ++ junk)) nc (by simp only [Option.getD_some]; omega)
        obtain ⟨l', h1, h2, -⟩ := listPut_spec names s (0 :: junk ++ junk') (reallocBytes heap n (.some (nameBuffer names ++ junk)) nc) nc (n + 1)
          (by rw [j1, Option.getD_some, hpre, List.append_assoc]) j2 (by omega) (by omega) (by omega)
        exact ⟨l', h1, h2⟩
    · rw [if_neg hg]
      left
      obtain ⟨l', h1, h2, -⟩ := listPut_spec names s (0 :: junk) (nameBuffer names ++ junk) cap n hpre hc (by omega) (by omega) (by omega)
      exact ⟨l', h1, h2⟩

theorem stringListAdd_nil (heap : Heap) (l : StrList) : stringListAdd heap l [] = .ok (0, l) := rfl

/-! ### Walking the list -/

theorem memStr_name (s : CStr) (hs : (0 : UInt8) ∉ s) (pre rest : List UInt8) : memStr (pre ++ s ++ 0 :: rest) pre.length = .ok s := by
  have e : (pre ++ s ++ 0 :: rest).drop pre.length = s ++ 0 :: rest := by rw [List.append_assoc, List.drop_left']; rfl
  rw [memStr, e, if_pos (by simp)]
  congr 1
  rw [List.takeWhile_append_of_pos (by intro a ha; simp; intro h; exact hs (h ▸ ha))]
  simp

theorem walkNames_spec (names : List CStr) (hn : ∀ s ∈ names, IsName s) : ∀ (pre junk : List UInt8) (fuel : Nat), names.length < fuel →
    walkNames (pre ++ nameBuffer names ++ junk) fuel pre.length = .ok (withNext names) := by
  induction names with
  | nil =>
    intro pre junk fuel hf
    cases fuel with
    | zero => simp at hf
    | succ fuel =>
      have := memStr_name [] (by simp) pre junk
      simp only [nameBuffer, List.flatMap_nil, List.nil_append, List.append_nil, List.append_assoc, List.singleton_append] at this ⊢
      rw [walkNames, this, okb, if_pos rfl]; rfl
  | cons s l ih =>
    intro pre junk fuel hf
    cases fuel with
    | zero => simp at hf
    | succ fuel =>
      obtain ⟨s1, s2⟩ := hn s (by simp)
      have ih := ih (fun s hs => hn s (by simp [hs])) (pre ++ s ++ [0]) junk fuel (by simp at hf; omega)
      have e : pre ++ nameBuffer (s :: l) ++ junk = pre ++ s ++ 0 :: (nameBuffer l ++ junk) := by simp [nameBuffer]
      have e' : pre ++ s ++ [0] ++ nameBuffer l ++ junk = pre ++ s ++ 0 :: (nameBuffer l ++ junk) := by simp
      have el : (pre ++ s ++ [(0 : UInt8)]).length = pre.length + s.length + 1 := by simp; omega
      rw [e', el] at ih
      rw [walkNames, e, memStr_name s s2, okb, if_neg s1]
      cases l with
      | nil =>
        have := memStr_name [] (by simp) (pre ++ s ++ [0]) junk
        rw [el] at this
        have e2 : pre ++ s ++ [0] ++ [] ++ 0 :: junk = pre ++ s ++ 0 :: (nameBuffer [] ++ junk) := by simp [nameBuffer]
        rw [e2] at this
        rw [this, okb, ih, okb]
        rfl
      | cons t l =>
        obtain ⟨t1, t2⟩ := hn t (by simp)
        have := memStr_name t t2 (pre ++ s ++ [0]) (nameBuffer l ++ junk)
        rw [el] at this
        have e2 : pre ++ s ++ [0] ++ t ++ 0 :: (nameBuffer l ++ junk) = pre ++ s ++ 0 :: (nameBuffer (t :: l) ++ junk) := by simp [nameBuffer]
        rw [e2] at this
        rw [this, okb, ih, okb]
        simp [t1, withNext]

end WG
