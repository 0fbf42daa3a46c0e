import Verif.Model.WinFind
import Verif.Spec.WinFind
import Verif.Proof.Openbsd
import Verif.Props.IpcList
/-! Proofs about finding adapters and pipes on Windows (C70). -/
namespace WG.Win
open Spec hiding named
open Spec.Win
open Obsd (okb)

/-! ### The hash table is a map -/

section
variable {α : Type} (sc : Bool)

theorem find_insert (t : Table α) (k k' : CStr) (v : α) :
    findEntry sc (findOrInsert sc t k true v).2 k' = if k' = k then some ((findEntry sc t k).getD v) else findEntry sc t k' := by
  rw [findOrInsert]
  cases h : findEntry sc t k with
  | some x =>
    rw [if_pos (show (some x).isSome = true from rfl)]
    by_cases e : k' = k
    · rw [if_pos e, e, h]; rfl
    · rw [if_neg e]
  | none =>
    rw [if_neg (by simp), if_pos rfl]
    simp only [findEntry]
    by_cases hb : bucketOf sc k' = bucketOf sc k
    · rw [if_pos hb, List.find?_append]
      by_cases e : k' = k
      · subst e
        rw [findEntry, Option.map_eq_none_iff] at h
        rw [if_pos rfl, h]
        simp
      · rw [if_neg e, List.find?_singleton, if_neg (by simpa using fun h => e h.symm), Option.or_none]
    · rw [if_neg hb, if_neg (fun e => hb (by rw [e]))]

theorem find_insert_fail (t : Table α) (k : CStr) (v : α) (h : (findOrInsert sc t k false v).1 = true) : (findEntry sc t k).isSome = true ∧ (findOrInsert sc t k false v).2 = t := by
  rw [findOrInsert] at h ⊢
  by_cases hs : (findEntry sc t k).isSome = true
  · exact ⟨hs, by rw [if_pos hs]⟩
  · rw [if_neg hs] at h; cases h

theorem insert_true (t : Table α) (k : CStr) (v : α) : (findOrInsert sc t k true v).1 = true := by
  rw [findOrInsert]; split <;> rfl

theorem find_set (t : Table α) (k k' : CStr) (v : α) (h : (findEntry sc t k).isSome = true) :
    findEntry sc (setValue sc t k v) k' = if k' = k then some v else findEntry sc t k' := by
  simp only [findEntry, setValue]
  by_cases hb : bucketOf sc k' = bucketOf sc k
  · rw [if_pos hb]
    have hmap : ∀ l : List (CStr × α), (l.map fun e => if e.1 = k then (k, v) else e).find? (fun e => e.1 = k') =
        (l.find? fun e => e.1 = k').map fun e => if e.1 = k then (k, v) else e := by
      intro l
      induction l with
      | nil => rfl
      | cons a l ih =>
        rw [List.map_cons, List.find?_cons, List.find?_cons]
        by_cases ha : a.1 = k
        · rw [if_pos ha]
          by_cases e : k = k'
          · simp [e, ha]
          · have e' : ¬ a.1 = k' := by rw [ha]; exact e
            simp only [e, e', decide_false]
            exact ih
        · rw [if_neg ha]
          by_cases e : a.1 = k'
          · simp only [e, decide_true, Option.map_some]
            rw [if_neg (by rw [← e]; exact ha)]
          · simp only [e, decide_false]
            exact ih
    rw [hmap, Option.map_map]
    by_cases e : k' = k
    · subst e
      rw [if_pos rfl]
      rw [findEntry, Option.isSome_map] at h
      obtain ⟨x, hx⟩ := Option.isSome_iff_exists.1 h
      rw [hx]
      have := List.find?_some hx
      simp at this
      simp [this]
    · rw [if_neg e]
      cases hx : (t (bucketOf sc k')).find? (fun e => e.1 = k') with
      | none => rfl
      | some x =>
        have := List.find?_some hx
        simp at this
        simp only [Option.map_some, Function.comp]
        rw [if_neg (by rw [this]; exact e)]
  · rw [if_neg hb, if_neg (fun e => hb (by rw [e]))]

end

/-! ### The system shows the adapters -/

/-- A device shows an adapter: everything about it can be read, and its name has at most 126 characters. -/
structure ShowsDev (env : SetupEnv) (d : Dev) (a : Adapter) : Prop where
  name : ∃ u, d.name = some u ∧ u ≠ [] ∧ u.length ≤ 126 ∧ (0 : UInt16) ∉ u ∧ env.utf8 u = some a.name
  isName : IsName a.name
  nameMem : d.nameMem = true
  entryMem : d.entryMem = true
  inst : d.inst = .id a.inst
  running : (∃ s, d.status = some s ∧ s.testBit 1 = true ∧ s.testBit 3 = true) ↔ a.running = true

/-- What an enumeration step shows: an adapter, or nothing (it fails, or the device has no name that can be read). -/
def ShowsOne (env : SetupEnv) (r : EnumRes) : Option Adapter → Prop
  | some a => ∃ d, r = .dev d ∧ ShowsDev env d a
  | none => r = .failed ∨ ∃ d, r = .dev d ∧ (d.name = none ∨ d.name = some [] ∨ ∃ u, d.name = some u ∧ 128 ≤ u.length)

/-- The setup API shows these adapters, one after the other, and then no more. -/
def Shows (env : SetupEnv) (l : List (Option Adapter)) : Prop :=
  env.classDevs = true ∧ env.enum l.length = .noMore ∧ ∀ (i : Nat) (h : i < l.length), ShowsOne env (env.enum i) l[i]

theorem and10 (s : Nat) : (s &&& 10 = 10) ↔ (s.testBit 1 = true ∧ s.testBit 3 = true) := by
  constructor
  · intro h
    have h1 := congrArg (Nat.testBit · 1) h
    have h3 := congrArg (Nat.testBit · 3) h
    simp only [Nat.testBit_and] at h1 h3
    have e1 : Nat.testBit 10 1 = true := by decide
    have e3 : Nat.testBit 10 3 = true := by decide
    rw [e1, Bool.and_true] at h1
    rw [e3, Bool.and_true] at h3
    exact ⟨h1, h3⟩
  · rintro ⟨h1, h3⟩
    apply Nat.eq_of_testBit_eq
    intro i
    rw [Nat.testBit_and]
    by_cases hi : i < 4
    · match i, hi with
      | 0, _ => simp
      | 1, _ => rw [h1]; rfl
      | 2, _ => have : Nat.testBit 10 2 = false := by decide
                rw [this, Bool.and_false]
      | 3, _ => rw [h3]; rfl
    · have : Nat.testBit 10 i = false := by
        apply Nat.testBit_lt_two_pow
        have : 2 ^ 4 ≤ 2 ^ i := Nat.pow_le_pow_right (by omega) (by omega)
        omega
      rw [this, Bool.and_false]

theorem running_eq {env : SetupEnv} {d : Dev} {a : Adapter} (h : ShowsDev env d a) : running d = a.running := by
  have := h.running
  rw [running]
  cases hs : d.status with
  | none =>
    rw [hs] at this
    have : ¬ a.running = true := fun hr => by obtain ⟨s, h1, -⟩ := this.2 hr; cases h1
    simpa using this
  | some s =>
    rw [hs] at this
    have e : (s.testBit 1 = true ∧ s.testBit 3 = true) ↔ a.running = true :=
      ⟨fun h => this.1 ⟨s, rfl, h⟩, fun h => by obtain ⟨s', h1, h2⟩ := this.2 h; cases h1; exact h2⟩
    rw [← and10] at e
    rw [Option.any_some]
    by_cases hr : a.running = true
    · rw [hr]; simpa using e.2 hr
    · have h' := mt e.1 hr
      rw [Bool.not_eq_true] at hr
      rw [hr]; simpa using h'

theorem devName_shows {env : SetupEnv} {d : Dev} {a : Adapter} (h : ShowsDev env d a) : devName env d = .ok (some a.name) := by
  obtain ⟨u, h1, h2, h3, h4, h5⟩ := h.name
  have harr : ∃ rest, nameArray d = some (u ++ 0 :: rest) := by
    rw [nameArray, h1, Option.bind_some, if_pos (by omega)]
    refine ⟨(d.junk.take (127 - u.length) ++ List.replicate (127 - u.length - d.junk.length) 0).take (126 - u.length) ++ [48], ?_⟩
    rw [List.append_assoc, List.append_assoc, List.take_append, List.take_of_length_le (by omega), List.cons_append, List.nil_append, show 127 - u.length = (126 - u.length) + 1 by omega,
      List.take_succ_cons]
    simp
  obtain ⟨rest, harr⟩ := harr
  have hz : ∀ x ∈ u, (x ≠ 0) := fun x hx e => h4 (by rw [← e]; exact hx)
  rw [devName, harr]
  dsimp only
  rw [if_neg, if_neg (by simp), List.takeWhile_append_of_pos (by intro x hx; simpa using hz x hx), List.takeWhile_cons_of_neg (by simp), List.append_nil, h5]
  · dsimp only
    rw [if_pos h.nameMem]
  · cases u with
    | nil => exact absurd rfl h2
    | cons x u => simpa using hz x (by simp)

theorem devName_none {env : SetupEnv} {d : Dev} (h : d.name = none ∨ d.name = some [] ∨ ∃ u, d.name = some u ∧ 128 ≤ u.length) : devName env d = .ok none := by
  rw [devName]
  rcases h with h | h | ⟨u, h, hl⟩
  · rw [nameArray, h]; rfl
  · rw [nameArray, h]
    simp
  · rw [nameArray, h, Option.bind_some, if_neg (by omega)]

/-! ### Listing -/

/-- What is remembered of one device. -/
theorem remember_find {env : SetupEnv} {d : Dev} {a : Adapter} (h : ShowsDev env d a) (t : Table (Option (List UInt16))) (k : CStr) :
    findEntry env.sc (remember env d a.name t) k = if k = a.name then some (some a.inst) else findEntry env.sc t k := by
  have h1 := insert_true env.sc t a.name (none : Option (List UInt16))
  have h2 := find_insert env.sc t a.name k (none : Option (List UInt16))
  have h3 := find_insert env.sc t a.name a.name (none : Option (List UInt16))
  rw [remember, h.entryMem, h.inst]
  revert h1 h2 h3
  generalize findOrInsert env.sc t a.name true (none : Option (List UInt16)) = r
  obtain ⟨b, t'⟩ := r
  intro h1 h2 h3
  subst h1
  dsimp only at h2 h3 ⊢
  rw [find_set env.sc t' a.name k (some a.inst) (by rw [h3]; simp), h2]
  by_cases e : k = a.name
  · rw [if_pos e, if_pos e]
  · rw [if_neg e, if_neg e, if_neg e]

/-- The table after these adapters. -/
def lastInst (l : List (Option Adapter)) (k : CStr) (old : Option (Option (List UInt16))) : Option (Option (List UInt16)) :=
  match (named l k).getLast? with
  | some a => some (some a.inst)
  | none => old

theorem lastInst_cons (x : Option Adapter) (l : List (Option Adapter)) (k : CStr) (old : Option (Option (List UInt16))) :
    lastInst (x :: l) k old = lastInst l k (match x with | some a => if k = a.name then some (some a.inst) else old | none => old) := by
  cases x with
  | none => rfl
  | some a =>
    have : named (some a :: l) k = if a.name = k then a :: named l k else named l k := by
      simp only [named, List.filterMap_cons, id, List.filter_cons]
      by_cases h : a.name = k <;> simp [h]
    rw [lastInst, lastInst, this]
    by_cases h : a.name = k
    · rw [if_pos h]
      dsimp only
      rw [if_pos h.symm, List.getLast?_cons]
      cases (named l k).getLast? <;> rfl
    · rw [if_neg h]
      dsimp only
      rw [if_neg (fun e => h e.symm)]

theorem runningNames_cons (x : Option Adapter) (l : List (Option Adapter)) :
    runningNames (x :: l) = (match x with | some a => if a.running then [a.name] else [] | none => []) ++ runningNames l := by
  cases x with
  | none => rfl
  | some a =>
    simp only [runningNames, List.filterMap_cons, id, List.filter_cons]
    cases a.running <;> simp

theorem listLoop_spec (heap : Heap) (env : SetupEnv) (hheap : ∀ n, heap.fail n = none) :
    ∀ (l : List (Option Adapter)) (i fuel : Nat) (sl : StrList) (old : List CStr) (t : Table (Option (List UInt16))), Holds sl old →
      (∀ (j : Nat) (h : j < l.length), ShowsOne env (env.enum (i + j)) l[j]) → env.enum (i + l.length) = .noMore → l.length < fuel →
      (nameBuffer (old ++ runningNames l)).length < 2 ^ 61 →
      ∃ sl' t', listLoop heap env fuel i sl t = .ok (sl', t') ∧ Holds sl' (old ++ runningNames l) ∧
        ∀ k, findEntry env.sc t' k = lastInst l k (findEntry env.sc t k) := by
  intro l
  induction l with
  | nil =>
    intro i fuel sl old t hs _ hend hf _
    match fuel, hf with
    | fuel + 1, _ =>
      rw [listLoop, show env.enum i = .noMore from hend]
      exact ⟨sl, t, rfl, by simpa [runningNames] using hs, fun k => rfl⟩
  | cons x l ih =>
    intro i fuel sl old t hs hsh hend hf hsz
    match fuel, hf with
    | fuel + 1, hf =>
      have h0 := hsh 0 (by simp)
      have htail : ∀ (j : Nat) (h : j < l.length), ShowsOne env (env.enum (i + 1 + j)) l[j] := by
        intro j h
        have := hsh (j + 1) (by simp; omega)
        rw [show i + (j + 1) = i + 1 + j by omega] at this
        exact this
      have hend' : env.enum (i + 1 + l.length) = .noMore := by rw [← hend, List.length_cons]; congr 1; omega
      have hf' : l.length < fuel := by simp only [List.length_cons] at hf; omega
      rw [runningNames_cons] at hsz ⊢
      simp only [Nat.add_zero, List.getElem_cons_zero] at h0
      cases x with
      | none =>
        have hskip : listLoop heap env (fuel + 1) i sl t = listLoop heap env fuel (i + 1) sl t := by
          rw [listLoop]
          rcases h0 with h0 | ⟨d, h0, hd⟩
          · rw [h0]
          · rw [h0]
            dsimp only
            rw [devName_none hd, okb]
        obtain ⟨sl', t', g1, g2, g3⟩ := ih (i + 1) fuel sl old t hs htail hend' hf' hsz
        exact ⟨sl', t', by rw [hskip, g1], g2, fun k => by rw [lastInst_cons]; exact g3 k⟩
      | some a =>
        obtain ⟨d, h0, hd⟩ := h0
        dsimp only at hsz ⊢
        have hstep : ∀ sl1, (if running d then (stringListAdd heap sl a.name).bind fun r => .ok r.2 else .ok sl) = Res.ok sl1 →
            listLoop heap env (fuel + 1) i sl t = listLoop heap env fuel (i + 1) sl1 (remember env d a.name t) := by
          intro sl1 h
          rw [listLoop, h0]
          dsimp only
          rw [devName_shows hd, okb]
          dsimp only
          rw [h, okb]
        by_cases hr : a.running = true
        · rw [if_pos hr] at hsz ⊢
          rw [← List.append_assoc] at hsz
          have hadd := stringListAdd_spec heap hs a.name hd.isName.1 (by
            rw [← nameBuffer_snoc_length]
            have := nameBuffer_append_length (old ++ [a.name]) (runningNames l)
            exact Nat.lt_of_le_of_lt this hsz)
          rcases hadd with ⟨sl1, e1, e2⟩ | ⟨e, e1, -, -⟩
          · have hs1 := hstep sl1 (by rw [running_eq hd, hr, if_pos rfl, e1, okb])
            obtain ⟨sl', t', g1, g2, g3⟩ := ih (i + 1) fuel sl1 (old ++ [a.name]) (remember env d a.name t) e2 htail hend' hf' hsz
            refine ⟨sl', t', by rw [hs1, g1], by rw [← List.append_assoc]; exact g2, fun k => ?_⟩
            rw [lastInst_cons, g3, remember_find hd]
          · rw [hheap] at e1; cases e1
        · rw [if_neg hr] at hsz ⊢
          rw [List.nil_append] at hsz ⊢
          have hs1 := hstep sl (by rw [running_eq hd, if_neg hr])
          obtain ⟨sl', t', g1, g2, g3⟩ := ih (i + 1) fuel sl old (remember env d a.name t) hs htail hend' hf' hsz
          refine ⟨sl', t', by rw [hs1, g1], g2, fun k => ?_⟩
          rw [lastInst_cons, g3, remember_find hd]

/-! ### Opening -/

/-- The first adapter with this name that has an interface. -/
def firstPath (env : SetupEnv) (l : List (Option Adapter)) (k : CStr) : Option (List UInt16) := (named l k).findSome? fun a => env.ifaces (some a.inst)

theorem findLoop_spec (env : SetupEnv) (k : CStr) :
    ∀ (l : List (Option Adapter)) (i fuel : Nat), (∀ (j : Nat) (h : j < l.length), ShowsOne env (env.enum (i + j)) l[j]) → env.enum (i + l.length) = .noMore → l.length < fuel →
      findLoop env k fuel i = .ok (firstPath env l k) := by
  intro l
  induction l with
  | nil =>
    intro i fuel _ hend hf
    match fuel, hf with
    | fuel + 1, _ => rw [findLoop, show env.enum i = .noMore from hend]; rfl
  | cons x l ih =>
    intro i fuel hsh hend hf
    match fuel, hf with
    | fuel + 1, hf =>
      have h0 := hsh 0 (by simp)
      have htail : ∀ (j : Nat) (h : j < l.length), ShowsOne env (env.enum (i + 1 + j)) l[j] := by
        intro j h
        have := hsh (j + 1) (by simp; omega)
        rw [show i + (j + 1) = i + 1 + j by omega] at this
        exact this
      have hend' : env.enum (i + 1 + l.length) = .noMore := by rw [← hend, List.length_cons]; congr 1; omega
      have hf' : l.length < fuel := by simp only [List.length_cons] at hf; omega
      have ih' := ih (i + 1) fuel htail hend' hf'
      simp only [Nat.add_zero, List.getElem_cons_zero] at h0
      cases x with
      | none =>
        have hn : firstPath env (none :: l) k = firstPath env l k := rfl
        rw [findLoop, hn]
        rcases h0 with h0 | ⟨d, h0, hd⟩
        · rw [h0]; exact ih'
        · rw [h0]
          dsimp only
          rw [devName_none hd, okb]
          exact ih'
      | some a =>
        obtain ⟨d, h0, hd⟩ := h0
        have hn : firstPath env (some a :: l) k = if a.name = k then (env.ifaces (some a.inst)).or (firstPath env l k) else firstPath env l k := by
          have : named (some a :: l) k = if a.name = k then a :: named l k else named l k := by
            simp only [named, List.filterMap_cons, id, List.filter_cons]
            by_cases h : a.name = k <;> simp [h]
          rw [firstPath, this]
          by_cases h : a.name = k
          · rw [if_pos h, if_pos h, List.findSome?_cons, firstPath]
            cases env.ifaces (some a.inst) <;> rfl
          · rw [if_neg h, if_neg h]; rfl
        rw [findLoop, h0, hn]
        dsimp only
        rw [devName_shows hd, okb]
        dsimp only
        by_cases h : a.name = k
        · rw [if_neg (by simp [h]), if_pos h, hd.inst]
          dsimp only
          cases env.ifaces (some a.inst) with
          | some p => rfl
          | none => exact ih'
        · rw [if_pos h, if_neg h]
          exact ih'

/-! ### Pipes -/

theorem pipeFile_eq (name : CStr) : pipeFile name = pipePrefix ++ name := rfl

theorem prefix_take {f : CStr} : f.take pipePrefix.length = pipePrefix ↔ pipeFile [] <+: f := by
  rw [pipeFile_eq, List.append_nil, List.prefix_iff_eq_take]
  exact eq_comm

theorem pipeNames_cons (f : CStr) (fs : List CStr) : pipeNames (f :: fs) = (if pipeFile [] <+: f then [f.drop pipePrefix.length] else []) ++ pipeNames fs := by
  rw [pipeNames, List.filterMap_cons]
  have : (pipeFile []).length = pipePrefix.length := rfl
  by_cases h : pipeFile [] <+: f
  · rw [if_pos h, if_pos h, this]; rfl
  · rw [if_neg h, if_neg h]; rfl

theorem pipeLoop_spec (heap : Heap) (env : PipeEnv) (hheap : ∀ n, heap.fail n = none) (hmem : ∀ n, env.mem n = none) :
    ∀ (fs : List CStr) (n : Nat) (sl : StrList) (old : List CStr) (t : Table Unit), Holds sl old → (nameBuffer (old ++ (pipeNames fs).filter (· ≠ []))).length < 2 ^ 61 →
      ∃ sl' t', pipeLoop heap env n fs sl t = .ok (0, sl', t', true) ∧ Holds sl' (old ++ (pipeNames fs).filter (· ≠ [])) ∧
        ∀ k, (findEntry env.sc t' k).isSome = ((findEntry env.sc t k).isSome || decide (k ∈ pipeNames fs)) := by
  intro fs
  induction fs with
  | nil =>
    intro n sl old t hs _
    exact ⟨sl, t, rfl, by simpa [pipeNames] using hs, fun k => by simp [pipeNames]⟩
  | cons f fs ih =>
    intro n sl old t hs hsz
    rw [pipeLoop]
    by_cases hp : pipeFile [] <+: f
    · rw [if_neg (by rw [not_not]; exact prefix_take.2 hp)]
      rw [pipeNames_cons, if_pos hp] at hsz ⊢
      have hfind : ∀ k, (findEntry env.sc (findOrInsert env.sc t (f.drop pipePrefix.length) true ()).2 k).isSome =
          ((findEntry env.sc t k).isSome || decide (k = f.drop pipePrefix.length)) := by
        intro k
        rw [find_insert]
        by_cases e : k = f.drop pipePrefix.length
        · simp [e]
        · simp [e]
      have hins := insert_true env.sc t (f.drop pipePrefix.length) ()
      have key : ∃ sl1, stringListAdd heap sl (f.drop pipePrefix.length) = .ok (0, sl1) ∧ Holds sl1 (old ++ [f.drop pipePrefix.length].filter (· ≠ [])) := by
        by_cases he : f.drop pipePrefix.length = []
        · rw [he]; exact ⟨sl, rfl, by simpa using hs⟩
        · have e1 : [f.drop pipePrefix.length].filter (· ≠ []) = [f.drop pipePrefix.length] := by
            rw [List.filter_cons_of_pos (by simpa using he)]; rfl
          rw [List.filter_append, e1, ← List.append_assoc] at hsz
          rw [e1]
          rcases stringListAdd_spec heap hs _ he (by
            rw [← nameBuffer_snoc_length]
            exact Nat.lt_of_le_of_lt (nameBuffer_append_length _ _) hsz) with h | ⟨e, e1, -, -⟩
          · exact h
          · rw [hheap] at e1; cases e1
      obtain ⟨sl1, k1, k2⟩ := key
      rw [List.filter_append, ← List.append_assoc] at hsz
      obtain ⟨sl', t', g1, g2, g3⟩ := ih (n + 1) sl1 _ (findOrInsert env.sc t (f.drop pipePrefix.length) true ()).2 k2 hsz
      refine ⟨sl', t', ?_, by rw [List.filter_append, ← List.append_assoc]; exact g2, fun k => ?_⟩
      · dsimp only
        rw [k1, okb]
        dsimp only
        rw [if_neg (by decide), hmem, Option.isNone_none]
        revert hins g1
        generalize findOrInsert env.sc t (f.drop pipePrefix.length) true () = r
        obtain ⟨b, t2⟩ := r
        intro hins g1
        subst hins
        exact g1
      · rw [g3, hfind, Bool.or_assoc]
        simp
    · rw [if_pos (fun h => hp (prefix_take.1 h))]
      rw [pipeNames_cons, if_neg hp, List.nil_append] at hsz ⊢
      exact ih (n + 1) sl old t hs hsz

end WG.Win
