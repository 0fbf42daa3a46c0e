import Verif.Proof.ExtractHandshakes
import Mathlib.Order.Nat
import Mathlib.Tactic.Choose
/-!
# C96: the keys of a handshake

contrib/extract-handshakes/extract-handshakes.sh. Proved for every content of memory, every header of the trace, every list of keys to show.
On little-endian machines the keys are right only if no word of 8 bytes ends with a zero byte.
-/
namespace WG.Props.Handshakes
open WG.Handshakes WG.Spec WG.Spec.Handshakes

/-- The probe asks the kernel for the four words of every key, where it is. -/
theorem c96_probe (reg : CStr) (srcs : List Source) (m : Machine) : probeText reg srcs = probe reg (wanted srcs) ∧
    (wanted srcs).map (fun a => a.2.eval m 8) = srcs.flatMap fun s => [0, 8, 16, 24].map fun i => load m 8 (place m s + i) := by
  refine ⟨probe_text reg srcs, ?_⟩
  unfold wanted
  induction srcs with
  | nil => rfl
  | cons s srcs ih =>
    rw [List.flatMap_cons, List.map_append, ih, List.flatMap_cons]
    refine congrArg (· ++ _) ?_
    have h := fun i => wanted_value m s i
    simp only [List.map_cons, List.map_nil, h]

/-- On a big-endian machine every key is printed, as it is in memory. -/
theorem c96_big (m : Machine) (hm : m.endian = .big) {re} (hre : Posix re) (srcs : List Source) (header where_ : CStr) :
    shown m.endian re srcs (traceLine m (wanted srcs) header where_) = report srcs (keyAt m) := by
  rw [shown_eq m hre srcs header where_ id]
  · unfold report
    congr 1
  · intro a
    rw [hm]
    have : load m 8 a = value (bytesAt m a 8).reverse := by simp [load, hm]
    rw [this]
    exact unpack_big _ (by simp [bytesAt])

/-- On a little-endian machine, what is printed has the zeros at the end of each 8 bytes before them. -/
theorem c96_little (m : Machine) (hm : m.endian = .little) {re} (hre : Posix re) (srcs : List Source) (header where_ : CStr) :
    shown m.endian re srcs (traceLine m (wanted srcs) header where_) = report srcs fun s => shiftedKey (keyAt m s) := by
  rw [shown_eq m hre srcs header where_ shifted]
  · rfl
  · intro a
    rw [hm]
    have : load m 8 a = value (bytesAt m a 8) := by simp [load, hm]
    rw [this]
    exact unpack_little _ (by simp [bytesAt])

theorem shifted_right (g : List UInt8) (h8 : g.length = 8) : shifted g = g ↔ g.getLast? ≠ some 0 ∨ ∀ c ∈ g, c = 0 := by
  have hs := congrArg List.reverse (sig_split g.reverse)
  rw [List.reverse_reverse, List.reverse_append, List.reverse_replicate] at hs
  have hl := congrArg List.length hs
  rw [h8, List.length_append, List.length_replicate, List.length_reverse] at hl
  have hsh : shifted g = List.replicate (g.reverse.takeWhile fun c => decide (c = 0)).length 0 ++ (sig g.reverse).reverse := by
    unfold shifted
    simp only
    congr 1
    generalize (g.reverse.takeWhile fun c => decide (c = 0)).length = n at *
    conv => lhs; rw [hs]
    rw [List.take_append_of_le_length (by rw [List.length_reverse]; omega), List.take_of_length_le (by rw [List.length_reverse]; omega)]
  generalize hn : (g.reverse.takeWhile fun c => decide (c = 0)).length = n at *
  cases hz : sig g.reverse with
  | nil =>
    have hall : ∀ c ∈ g, c = 0 := fun c hc => (sig_nil _).1 hz c (List.mem_reverse.2 hc)
    rw [hz] at hsh hs
    constructor
    · intro _; exact Or.inr hall
    · intro _; rw [hsh, hs]; simp
  | cons x r =>
    have hx : x ≠ 0 := by
      have := List.head?_dropWhile_not (p := fun c : UInt8 => decide (c = 0)) (l := g.reverse)
      rw [show g.reverse.dropWhile (fun c => decide (c = 0)) = x :: r from hz] at this
      simpa using this
    rw [hz] at hs hsh
    have hlast : (shifted g).getLast? = some x := by rw [hsh]; simp
    constructor
    · intro he
      left
      rw [he] at hlast
      rw [hlast]
      simpa using hx
    · rintro (h | h)
      · have hn0 : n = 0 := by
          by_contra hc
          apply h
          rw [hs]
          cases n with
          | zero => exact absurd rfl hc
          | succ n => rw [List.replicate_succ', ← List.append_assoc, List.getLast?_append]; rfl
        subst hn0
        rw [hsh, hs]
        simp
      · exact absurd (h x (by rw [hs]; simp)) hx

theorem key_text_inj {a b : List UInt8} (ha : a.length = 32) (hb : b.length = 32) (h : rfc4648 a = rfc4648 b) : a = b := by
  have h1 := keyToBase64_rfc ⟨a.toArray, by simpa using ha⟩
  have h2 := keyToBase64_rfc ⟨b.toArray, by simpa using hb⟩
  simp only [Vector.toList_mk] at h1 h2
  have k1 := (keyFromBase64_some true (keyToBase64 ⟨a.toArray, by simpa using ha⟩) _).2 rfl
  have k2 := (keyFromBase64_some true (keyToBase64 ⟨b.toArray, by simpa using hb⟩) _).2 rfl
  rw [h1, h, ← h2, k2] at k1
  have := congrArg Vector.toList (Option.some.inj k1)
  simpa using this.symm

/-- So a key is right exactly if each of its words of 8 bytes is zero or does not end with a zero byte. -/
theorem c96_exact (k : List UInt8) (hk : k.length = 32) : rfc4648 (shiftedKey k) = rfc4648 k ↔
    ∀ i < 4, k[8 * i + 7]? ≠ some 0 ∨ ∀ c ∈ (k.drop (8 * i)).take 8, c = 0 := by
  have grp : ∀ i, i < 4 → ((k.drop (8 * i)).take 8).length = 8 := by intro i hi; simp; omega
  have last : ∀ i, i < 4 → ((k.drop (8 * i)).take 8).getLast? = k[8 * i + 7]? := by
    intro i hi
    rw [List.getLast?_eq_getElem?, grp i hi, List.getElem?_take_of_lt (by omega), List.getElem?_drop]
  have e : shiftedKey k = k ↔ ∀ i < 4, shifted ((k.drop (8 * i)).take 8) = (k.drop (8 * i)).take 8 := by
    have hk4 : k = [0, 1, 2, 3].flatMap fun i => (k.drop (8 * i)).take 8 := by
      match k, hk with
      | [_, _, _, _, _, _, _, _, _, _, _, _, _, _, _, _, _, _, _, _, _, _, _, _, _, _, _, _, _, _, _, _], _ => rfl
    have len : ∀ i, i < 4 → (shifted ((k.drop (8 * i)).take 8)).length = 8 := by
      intro i hi
      have h1 : ((((k.drop (8 * i)).take 8).reverse.takeWhile fun c => decide (c = 0)).length) ≤ 8 := by
        have := (List.takeWhile_sublist (fun c : UInt8 => decide (c = 0)) (l := ((k.drop (8 * i)).take 8).reverse)).length_le
        rw [List.length_reverse, grp i hi] at this
        exact this
      unfold shifted
      simp only [List.length_append, List.length_replicate, List.length_take, List.length_drop]
      omega
    constructor
    · intro h
      rw [shiftedKey] at h
      conv at h => rhs; rw [hk4]
      simp only [List.flatMap_cons, List.flatMap_nil, List.append_nil] at h
      obtain ⟨h0, h⟩ := List.append_inj h (by rw [len 0 (by omega), grp 0 (by omega)])
      obtain ⟨h1, h⟩ := List.append_inj h (by rw [len 1 (by omega), grp 1 (by omega)])
      obtain ⟨h2, h⟩ := List.append_inj h (by rw [len 2 (by omega), grp 2 (by omega)])
      intro i hi
      have : i = 0 ∨ i = 1 ∨ i = 2 ∨ i = 3 := by omega
      rcases this with rfl | rfl | rfl | rfl <;> assumption
    · intro h
      rw [shiftedKey]
      conv => rhs; rw [hk4]
      simp only [List.flatMap_cons, List.flatMap_nil, List.append_nil]
      rw [h 0 (by omega), h 1 (by omega), h 2 (by omega), h 3 (by omega)]
  have hl : (shiftedKey k).length = 32 := by
    have h1 := fun i => (List.takeWhile_sublist (fun c : UInt8 => decide (c = 0)) (l := ((k.drop (8 * i)).take 8).reverse)).length_le
    have h0 := h1 0; have h2 := h1 1; have h3 := h1 2; have h4 := h1 3
    simp only [List.length_reverse, grp 0 (by omega), grp 1 (by omega), grp 2 (by omega), grp 3 (by omega)] at h0 h2 h3 h4
    unfold shiftedKey shifted
    simp only [List.flatMap_cons, List.flatMap_nil, List.append_nil, List.length_append, List.length_replicate, List.length_take, List.length_drop]
    omega
  have inj : rfc4648 (shiftedKey k) = rfc4648 k ↔ shiftedKey k = k := by
    constructor
    · intro h
      have := key_text_inj hl hk h
      exact this
    · intro h; rw [h]
  rw [inj, e]
  constructor
  · intro h i hi
    rw [← last i hi]
    exact (shifted_right _ (grp i hi)).1 (h i hi)
  · intro h i hi
    have := h i hi
    rw [← last i hi] at this
    exact (shifted_right _ (grp i hi)).2 this

/-- Lines that do not match are passed over. -/
theorem c96_other (e : Endian) {re} (hre : Posix re) (srcs : List Source) (line : CStr) (h : ∀ caps rest, ¬ Matches (regexNames srcs) line caps rest) :
    shown e re srcs line = [] := by
  have := hre (regexNames srcs) line
  unfold shown
  cases hr : re (regexNames srcs) line with
  | none => rfl
  | some caps =>
    rw [hr] at this
    obtain ⟨rest, hm, -⟩ := this
    exact absurd hm (h caps rest)

/-- 32 bytes, 1 to 7, 0, and so on: on a little-endian machine, the wrong key is printed. -/
theorem c96_counterexample_zero_byte : let k := [1, 2, 3, 4, 5, 6, 7, 0] ++ List.replicate 24 1
    shiftedKey k = [0, 1, 2, 3, 4, 5, 6, 7] ++ List.replicate 24 1 ∧ rfc4648 (shiftedKey k) ≠ rfc4648 k := by
  decide +kernel

/-! ### Concrete cases -/

/-- There is such a matcher. -/
theorem posix_exists : ∃ re, Posix re := by
  classical
  have one : ∀ names line, ∃ r : Option (List CStr), match r with
      | none => ∀ caps rest, ¬ Matches names line caps rest
      | some caps => ∃ rest, Matches names line caps rest ∧ ∀ caps' rest', Matches names line caps' rest' → rest.length ≤ rest'.length := by
    intro names line
    by_cases h : ∃ n, ∃ caps rest, Matches names line caps rest ∧ rest.length = n
    · obtain ⟨caps, rest, hm, hl⟩ := Nat.find_spec h
      refine ⟨some caps, rest, hm, ?_⟩
      intro caps' rest' hm'
      rw [hl]
      exact Nat.find_le ⟨caps', rest', hm', rfl⟩
    · exact ⟨none, fun caps rest hm => h ⟨_, caps, rest, hm, rfl⟩⟩
  choose re hre using one
  exact ⟨re, hre⟩

def exampleSources : List Source := [⟨b!"LOCAL_STATIC_PRIVATE_KEY", 32, some 8⟩, ⟨b!"PRESHARED_KEY", 160, none⟩]

theorem example_probe : probeText b!"%si" exampleSources = b!"p:wireguard/idxadd index_hashtable_insert local_static_private_key0=+32(+8(%si)):x64 local_static_private_key1=+40(+8(%si)):x64 local_static_private_key2=+48(+8(%si)):x64 local_static_private_key3=+56(+8(%si)):x64 preshared_key0=+160(%si):x64 preshared_key1=+168(%si):x64 preshared_key2=+176(%si):x64 preshared_key3=+184(%si):x64" := by
  decide +kernel

end WG.Props.Handshakes
