import Verif.Model.WinLibc
import Verif.Proof.Openbsd
import Verif.Proof.Quick
/-! C71: reading lines and splitting strings on Windows. -/
namespace WG
open Obsd (okb)

/-- The first line of some text, with the line feed if it has one; and the rest. -/
def firstLine (bytes : List UInt8) : List UInt8 × List UInt8 :=
  (bytes.takeWhile (· ≠ 10) ++ (bytes.dropWhile (· ≠ 10)).take 1, (bytes.dropWhile (· ≠ 10)).drop 1)

/-- A buffer `getline` may be called with: none, or one of at least 2 bytes whose size is told. -/
def Win.GoodBuf (b : Win.LineBuf) : Prop := b.buf = none ∨ ∃ m, b.buf = some m ∧ m.length = b.siz ∧ 2 ≤ b.siz ∧ b.siz < 2 ^ 62

namespace Win

theorem store_next (done post : List UInt8) (x c : UInt8) : storeBytes (some (done ++ x :: post)) done.length [c] = .ok (done ++ [c] ++ post) := by
  rw [storeBytes, if_pos (by simp)]
  simp

theorem firstLine_cons (c : UInt8) (l : List UInt8) : firstLine (c :: l) = if c = 10 then ([10], l) else (c :: (firstLine l).1, (firstLine l).2) := by
  rw [firstLine, List.dropWhile_cons, List.takeWhile_cons]
  by_cases h : c = 10
  · subst h; simp
  · simp [h, firstLine]

theorem firstLine_append (l : List UInt8) : (firstLine l).1 ++ (firstLine l).2 = l := by
  induction l with
  | nil => rfl
  | cons c l ih =>
    rw [firstLine_cons]
    by_cases h : c = 10
    · rw [if_pos h, h]; rfl
    · rw [if_neg h, List.cons_append, ih]

/-- Whatever memory does, the loop does not leave the buffer. -/
theorem getdelimLoop_safe (heap : Heap) (err : Bool) : ∀ (bytes done post : List UInt8) (siz calls : Nat),
    (done ++ post).length = siz → done.length + 2 ≤ siz → siz < 2 ^ 62 → (done ++ bytes).length < 2 ^ 60 →
    ∃ (r : Int) (b : LineBuf) (rest : List UInt8), getdelimLoop heap 10 err bytes ⟨some (done ++ post), siz, calls⟩ done.length = .ok (r, b, ⟨rest, err⟩) ∧ GoodBuf b ∧
      ((r = -1 ∧ ((err = true ∧ (10 : UInt8) ∉ bytes ∧ rest = []) ∨ (bytes = [] ∧ done = [] ∧ rest = []) ∨ ∃ n e, heap.fail n = some e)) ∨
        (r = (done ++ (firstLine bytes).1).length ∧ rest = (firstLine bytes).2 ∧ (done ++ (firstLine bytes).1 ≠ []) ∧ (err = true → (10 : UInt8) ∈ bytes) ∧
          ∃ post', b.buf = some (done ++ (firstLine bytes).1 ++ [0] ++ post'))) := by
  intro bytes
  induction bytes with
  | nil =>
    intro done post siz calls h1 h2 h3 h4
    match post, h1 with
    | x :: post, h1 =>
      rw [getdelimLoop]
      have hg : GoodBuf ⟨some (done ++ x :: post), siz, calls⟩ := .inr ⟨_, rfl, h1, by dsimp only; omega, h3⟩
      by_cases he : err = true
      · rw [if_pos he]; exact ⟨_, _, _, rfl, hg, .inl ⟨rfl, .inl ⟨he, by simp, rfl⟩⟩⟩
      · rw [if_neg he]
        by_cases hd : done = []
        · subst hd
          rw [if_neg (by simp)]
          exact ⟨_, _, _, rfl, hg, .inl ⟨rfl, .inr (.inl ⟨rfl, rfl, rfl⟩)⟩⟩
        · rw [if_pos (by simpa using hd), store_next, okb]
          refine ⟨_, _, _, rfl, .inr ⟨_, rfl, ?_, ?_, h3⟩, .inr ⟨by simp [firstLine], rfl, by simpa [firstLine] using hd, fun h => absurd h he, post, by simp [firstLine]⟩⟩
          · simp at h1 ⊢; omega
          · dsimp only; omega
    | [], h1 => simp at h1; omega
  | cons c rest ih =>
    intro done post siz calls h1 h2 h3 h4
    match post, h1 with
    | x :: y :: post, h1 =>
      rw [getdelimLoop, store_next, okb, firstLine_cons]
      by_cases hc : c = 10
      · subst hc
        rw [if_pos rfl, if_pos rfl, show done.length + 1 = (done ++ [10]).length by simp, store_next, okb]
        refine ⟨_, _, _, rfl, .inr ⟨_, rfl, ?_, ?_, h3⟩, .inr ⟨rfl, rfl, by simp, fun _ => by simp, post, rfl⟩⟩
        · simp at h1 ⊢; omega
        · dsimp only; omega
      · rw [if_neg hc, if_neg hc]
        have hlen : (done ++ [c]).length = done.length + 1 := by simp
        have hb : (done ++ [c] ++ rest).length < 2 ^ 60 := by simp at h4 ⊢; omega
        have wrap : ∀ (r : Int) (rest' : List UInt8) (b : LineBuf),
            ((r = -1 ∧ ((err = true ∧ (10 : UInt8) ∉ rest ∧ rest' = []) ∨ (rest = [] ∧ done ++ [c] = [] ∧ rest' = []) ∨ ∃ n e, heap.fail n = some e)) ∨
              (r = (done ++ [c] ++ (firstLine rest).1).length ∧ rest' = (firstLine rest).2 ∧ (done ++ [c] ++ (firstLine rest).1 ≠ []) ∧ (err = true → (10 : UInt8) ∈ rest) ∧
                ∃ post', b.buf = some (done ++ [c] ++ (firstLine rest).1 ++ [0] ++ post'))) →
            ((r = -1 ∧ ((err = true ∧ (10 : UInt8) ∉ c :: rest ∧ rest' = []) ∨ (c :: rest = [] ∧ done = [] ∧ rest' = []) ∨ ∃ n e, heap.fail n = some e)) ∨
              (r = (done ++ (c :: (firstLine rest).1)).length ∧ rest' = (firstLine rest).2 ∧ (done ++ (c :: (firstLine rest).1) ≠ []) ∧ (err = true → (10 : UInt8) ∈ c :: rest) ∧
                ∃ post', b.buf = some (done ++ (c :: (firstLine rest).1) ++ [0] ++ post'))) := by
          rintro r rest' b (⟨e1, e2 | e2 | e2⟩ | ⟨e1, e2, e3, e5, p, e4⟩)
          · refine .inl ⟨e1, .inl ⟨e2.1, ?_, e2.2.2⟩⟩
            intro h
            rcases List.mem_cons.1 h with h | h
            · exact hc h.symm
            · exact e2.2.1 h
          · simp at e2
          · exact .inl ⟨e1, .inr (.inr e2)⟩
          · refine .inr ⟨by rw [e1]; simp, e2, by simp, fun h => List.mem_cons_of_mem _ (e5 h), p, by rw [e4]; simp⟩
        dsimp only
        by_cases hg : siz ≤ done.length + 1 + 2
        · rw [if_pos hg]
          cases hf : heap.fail calls with
          | some e =>
            refine ⟨_, _, _, rfl, .inr ⟨_, rfl, ?_, ?_, h3⟩, ?_⟩
            · simp at h1 ⊢; omega
            · dsimp only; omega
            · exact .inl ⟨rfl, .inr (.inr ⟨calls, e, hf⟩)⟩
          | none =>
            dsimp only
            have hs : siz * 2 % 2 ^ 64 = siz * 2 := Nat.mod_eq_of_lt (by omega)
            have hd60 : done.length + 1 + rest.length < 2 ^ 60 := by simp at h4; omega
            have hre : ∃ post', reallocBytes heap calls (some (done ++ [c] ++ y :: post)) (siz * 2) = done ++ [c] ++ post' ∧ (done ++ [c] ++ post').length = siz * 2 := by
              rw [reallocBytes, Option.getD_some, List.take_of_length_le (by simp at h1 ⊢; omega)]
              refine ⟨y :: post ++ (List.range (siz * 2 - (done ++ [c] ++ y :: post).length)).map (heap.junk calls), by simp, ?_⟩
              simp at h1 ⊢
              omega
            obtain ⟨post', r1, r2⟩ := hre
            rw [hs, r1, ← hlen]
            obtain ⟨r, b, rest', g1, g2, g3⟩ := ih (done ++ [c]) post' (siz * 2) (calls + 1) r2 (by rw [hlen]; omega) (by omega) hb
            exact ⟨r, b, rest', g1, g2, wrap _ _ _ g3⟩
        · rw [if_neg hg, ← hlen]
          obtain ⟨r, b, rest', g1, g2, g3⟩ := ih (done ++ [c]) (y :: post) siz calls (by simp at h1 ⊢; omega) (by rw [hlen]; omega) h3 hb
          exact ⟨r, b, rest', g1, g2, wrap _ _ _ g3⟩
    | [x], h1 => simp at h1; omega
    | [], h1 => simp at h1; omega

theorem getline_good (heap : Heap) (b : LineBuf) (hb : GoodBuf b) (s : Stream) (hl : s.bytes.length < 2 ^ 60) :
    ∃ (r : Int) (b' : LineBuf) (rest : List UInt8), getline heap b s = .ok (r, b', ⟨rest, s.err⟩) ∧ GoodBuf b' ∧
      ((r = -1 ∧ ((s.err = true ∧ (10 : UInt8) ∉ s.bytes ∧ rest = []) ∨ (s.bytes = [] ∧ rest = []) ∨ ∃ n e, heap.fail n = some e)) ∨
        (r = (firstLine s.bytes).1.length ∧ rest = (firstLine s.bytes).2 ∧ s.bytes ≠ [] ∧ (s.err = true → (10 : UInt8) ∈ s.bytes) ∧ ∃ post, b'.buf = some ((firstLine s.bytes).1 ++ [0] ++ post))) := by
  have hne : (firstLine s.bytes).1 ≠ [] → s.bytes ≠ [] := by
    intro h e; rw [e] at h; exact h rfl
  have go : ∀ m siz calls, m.length = siz → 2 ≤ siz → siz < 2 ^ 62 → ∃ (r : Int) (b' : LineBuf) (rest : List UInt8), getdelimLoop heap 10 s.err s.bytes ⟨some m, siz, calls⟩ 0 = .ok (r, b', ⟨rest, s.err⟩) ∧ GoodBuf b' ∧
      ((r = -1 ∧ ((s.err = true ∧ (10 : UInt8) ∉ s.bytes ∧ rest = []) ∨ (s.bytes = [] ∧ rest = []) ∨ ∃ n e, heap.fail n = some e)) ∨
        (r = (firstLine s.bytes).1.length ∧ rest = (firstLine s.bytes).2 ∧ s.bytes ≠ [] ∧ (s.err = true → (10 : UInt8) ∈ s.bytes) ∧ ∃ post, b'.buf = some ((firstLine s.bytes).1 ++ [0] ++ post))) := by
    intro m siz calls h1 h2 h3
    obtain ⟨r, b', rest, g1, g2, g3⟩ := getdelimLoop_safe heap s.err s.bytes [] m siz calls h1 (by simpa using h2) h3 (by simpa using hl)
    refine ⟨r, b', rest, g1, g2, ?_⟩
    rcases g3 with ⟨e1, e2 | e2 | e2⟩ | ⟨e1, e2, e3, e4⟩
    · exact .inl ⟨e1, .inl e2⟩
    · exact .inl ⟨e1, .inr (.inl ⟨e2.1, e2.2.2⟩)⟩
    · exact .inl ⟨e1, .inr (.inr e2)⟩
    · exact .inr ⟨e1, e2, hne e3, e4⟩
  rw [getline, getdelim]
  by_cases h : b.buf = none ∨ b.siz = 0
  · rw [if_pos h]
    cases hf : heap.fail b.calls with
    | some e => exact ⟨_, _, _, rfl, .inl rfl, .inl ⟨rfl, .inr (.inr ⟨_, e, hf⟩)⟩⟩
    | none => exact go _ _ _ (by simp [reallocBytes]) (by decide) (by decide)
  · rw [if_neg h]
    rcases hb with hb | ⟨m, h1, h2, h3, h4⟩
    · exact absurd (.inl hb) h
    · have : b = ⟨some m, b.siz, b.calls⟩ := by rw [← h1]
      rw [this]
      exact go m b.siz b.calls h2 h3 h4

theorem mem_firstLine {l : List UInt8} (h : (10 : UInt8) ∈ l) : (10 : UInt8) ∈ (firstLine l).1 := by
  induction l with
  | nil => cases h
  | cons c l ih =>
    rw [firstLine_cons]
    by_cases hc : c = 10
    · simp [hc]
    · rw [if_neg hc]
      exact List.mem_cons_of_mem _ (ih ((List.mem_cons.1 h).resolve_left (fun e => hc e.symm)))

theorem firstLine_nil_iff (l : List UInt8) : (firstLine l).1 = [] ↔ l = [] := by
  cases l with
  | nil => simp [firstLine]
  | cons c l => rw [firstLine_cons]; by_cases h : c = 10 <;> simp [h]

theorem getlines_firstLine (l : List UInt8) (h : l ≠ []) : getlines l = (firstLine l).1 :: getlines (firstLine l).2 := by
  induction l with
  | nil => exact absurd rfl h
  | cons c l ih =>
    rw [getlines, firstLine_cons]
    by_cases hc : c = 10
    · rw [if_pos hc, if_pos hc, hc]
    · rw [if_neg hc, if_neg hc]
      by_cases hl : l = []
      · subst hl; rfl
      · rw [ih hl]

end Win

/-- C71. One call of `getline`, with no buffer yet or one of at least two bytes: no byte outside the buffer is written, however long the line is and whatever memory does; and either the first line
of what is left is in the buffer, with its line feed if it has one, followed by a NUL, and its length is returned (it is positive), and reading goes on behind it; or -1 is returned: at the end, after
a read error in the line, or for lack of memory. The buffer can be used for the next call. -/
theorem c71_getline (heap : Heap) (b : Win.LineBuf) (hb : Win.GoodBuf b) (s : Win.Stream) (hl : s.bytes.length < 2 ^ 60) :
    ∃ (r : Int) (b' : Win.LineBuf) (rest : List UInt8), Win.getline heap b s = .ok (r, b', ⟨rest, s.err⟩) ∧ Win.GoodBuf b' ∧
      ((r = -1 ∧ ((s.err = true ∧ (10 : UInt8) ∉ s.bytes) ∨ s.bytes = [] ∨ ∃ n e, heap.fail n = some e)) ∨
        ∃ line post, line ≠ [] ∧ s.bytes = line ++ rest ∧ r = line.length ∧ b'.buf = some (line ++ [0] ++ post) ∧ (10 : UInt8) ∉ line.dropLast ∧ (line.getLast? = some 10 ∨ (rest = [] ∧ s.err = false))) := by
  obtain ⟨r, b', rest, g1, g2, g3⟩ := Win.getline_good heap b hb s hl
  refine ⟨r, b', rest, g1, g2, ?_⟩
  rcases g3 with ⟨e1, e2 | e2 | e2⟩ | ⟨e1, e2, e3, e5, post, e4⟩
  · exact .inl ⟨e1, .inl ⟨e2.1, e2.2.1⟩⟩
  · exact .inl ⟨e1, .inr (.inl e2.1)⟩
  · exact .inl ⟨e1, .inr (.inr e2)⟩
  · refine .inr ⟨_, post, fun h => e3 ((Win.firstLine_nil_iff _).1 h), ?_, e1, e4, ?_, ?_⟩
    · rw [e2, Win.firstLine_append]
    · have : ∀ l : List UInt8, (10 : UInt8) ∉ (firstLine l).1.dropLast := by
        intro l
        induction l with
        | nil => simp [firstLine]
        | cons c l ih =>
          rw [Win.firstLine_cons]
          by_cases h : c = 10
          · simp [h]
          · rw [if_neg h]
            by_cases hn : (firstLine l).1 = []
            · simp [hn]
            · rw [List.dropLast_cons_of_ne_nil hn, List.mem_cons, not_or]
              exact ⟨fun e => h e.symm, ih⟩
      exact this _
    · rw [e2]
      have : ∀ l : List UInt8, (firstLine l).1.getLast? = some 10 ∨ ((firstLine l).2 = [] ∧ (10 : UInt8) ∉ l) := by
        intro l
        induction l with
        | nil => simp [firstLine]
        | cons c l ih =>
          rw [Win.firstLine_cons]
          by_cases h : c = 10
          · simp [h]
          · rw [if_neg h]
            dsimp only
            rw [List.getLast?_cons]
            rcases ih with ih | ih
            · rw [ih]; simp
            · refine .inr ⟨ih.1, ?_⟩
              rw [List.mem_cons, not_or]
              exact ⟨fun e => h e.symm, ih.2⟩
      rcases this s.bytes with h | ⟨h1, h2⟩
      · exact .inl h
      · refine .inr ⟨h1, ?_⟩
        cases he : s.err with
        | false => rfl
        | true => exact absurd (e5 he) h2

/-- C71. Reading in a loop: all lines of the file, as the model of the readers assumes (`getlines`). -/
theorem c71_lines (heap : Heap) (hheap : ∀ n, heap.fail n = none) (bytes : List UInt8) (hl : bytes.length < 2 ^ 60) (fuel : Nat) (hf : (getlines bytes).length < fuel) :
    Win.readAll heap fuel {} ⟨bytes, false⟩ = .ok (getlines bytes) := by
  have key : ∀ (fuel : Nat) (bytes : List UInt8) (b : Win.LineBuf), Win.GoodBuf b → bytes.length < 2 ^ 60 → (getlines bytes).length < fuel →
      Win.readAll heap fuel b ⟨bytes, false⟩ = .ok (getlines bytes) := by
    intro fuel
    induction fuel with
    | zero => intro _ _ _ _ h; omega
    | succ fuel ih =>
      intro bytes b hb hl hf
      obtain ⟨r, b', rest, g1, g2, g3⟩ := Win.getline_good heap b hb ⟨bytes, false⟩ hl
      rw [Win.readAll, g1, okb]
      dsimp only at g3 ⊢
      rcases g3 with ⟨e1, e2 | e2 | ⟨n, e, e2⟩⟩ | ⟨e1, e2, e3, e5, post, e4⟩
      · cases e2.1
      · rw [e1, if_pos (by decide), e2.1]; rfl
      · rw [hheap] at e2; cases e2
      · rw [Win.getlines_firstLine bytes e3] at hf ⊢
        have hlen : (firstLine bytes).2.length ≤ bytes.length := by
          conv_rhs => rw [← Win.firstLine_append bytes]
          simp
        rw [e1, if_neg (by omega), e2, ih _ b' g2 (by omega) (by simp at hf; omega), okb, e4]
        simp
  exact key fuel bytes {} (.inl rfl) hl hf

/-- C71 (a defect shared with other systems, see c11). After a read error the line begun is dropped and the loop ends as at the end of the file: only the complete lines are seen. -/
theorem c71_counterexample_read_error (heap : Heap) (hheap : ∀ n, heap.fail n = none) (bytes : List UInt8) (hl : bytes.length < 2 ^ 60) (fuel : Nat) (hf : (getlines bytes).length < fuel) :
    Win.readAll heap fuel {} ⟨bytes, true⟩ = .ok ((getlines bytes).filter fun l => (10 : UInt8) ∈ l) := by
  have key : ∀ (fuel : Nat) (bytes : List UInt8) (b : Win.LineBuf), Win.GoodBuf b → bytes.length < 2 ^ 60 → (getlines bytes).length < fuel →
      Win.readAll heap fuel b ⟨bytes, true⟩ = .ok ((getlines bytes).filter fun l => (10 : UInt8) ∈ l) := by
    intro fuel
    induction fuel with
    | zero => intro _ _ _ _ h; omega
    | succ fuel ih =>
      intro bytes b hb hl hf
      have hnl : (10 : UInt8) ∉ bytes → (getlines bytes).filter (fun l => (10 : UInt8) ∈ l) = [] := by
        intro h
        by_cases hn : bytes = []
        · subst hn; rfl
        · have h1 : firstLine bytes = (bytes, []) := by
            have : bytes.dropWhile (· ≠ 10) = [] := by
              rw [List.dropWhile_eq_nil_iff]
              intro x hx
              simp only [ne_eq, decide_not, Bool.not_eq_true', decide_eq_false_iff_not]
              rintro rfl
              exact h hx
            rw [firstLine, this]
            have h2 := List.takeWhile_append_dropWhile (p := fun x => decide (x ≠ 10)) (l := bytes)
            rw [this, List.append_nil] at h2
            rw [h2]; simp
          rw [Win.getlines_firstLine bytes hn, h1]
          simp [h, getlines]
      obtain ⟨r, b', rest, g1, g2, g3⟩ := Win.getline_good heap b hb ⟨bytes, true⟩ hl
      rw [Win.readAll, g1, okb]
      dsimp only at g3 ⊢
      rcases g3 with ⟨e1, e2 | e2 | ⟨n, e, e2⟩⟩ | ⟨e1, e2, e3, e5, post, e4⟩
      · rw [e1, if_pos (by decide), hnl e2.2.1]
      · rw [e1, if_pos (by decide), e2.1]; rfl
      · rw [hheap] at e2; cases e2
      · have hm := Win.mem_firstLine (e5 rfl)
        rw [Win.getlines_firstLine bytes e3] at hf ⊢
        have hlen : (firstLine bytes).2.length ≤ bytes.length := by
          conv_rhs => rw [← Win.firstLine_append bytes]
          simp
        rw [e1, if_neg (by omega), e2, ih _ b' g2 (by omega) (by simp at hf; omega), okb, e4, List.filter_cons_of_pos (by simpa using hm)]
        simp
  exact key fuel bytes {} (.inl rfl) hl hf

/-- C71. Whatever memory and the stream do: the lines seen are the first ones of the file, unchanged. -/
theorem c71_prefix (heap : Heap) (s : Win.Stream) (hl : s.bytes.length < 2 ^ 60) (fuel : Nat) (hf : (getlines s.bytes).length < fuel) :
    ∃ ls, Win.readAll heap fuel {} s = .ok ls ∧ ls <+: getlines s.bytes := by
  have key : ∀ (fuel : Nat) (s : Win.Stream) (b : Win.LineBuf), Win.GoodBuf b → s.bytes.length < 2 ^ 60 → (getlines s.bytes).length < fuel →
      ∃ ls, Win.readAll heap fuel b s = .ok ls ∧ ls <+: getlines s.bytes := by
    intro fuel
    induction fuel with
    | zero => intro _ _ _ _ h; omega
    | succ fuel ih =>
      intro s b hb hl hf
      obtain ⟨r, b', rest, g1, g2, g3⟩ := Win.getline_good heap b hb s hl
      rw [Win.readAll, g1, okb]
      dsimp only
      rcases g3 with ⟨e1, -⟩ | ⟨e1, e2, e3, e5, post, e4⟩
      · rw [e1, if_pos (by decide)]
        exact ⟨[], rfl, List.nil_prefix⟩
      · rw [Win.getlines_firstLine s.bytes e3] at hf ⊢
        have hlen : (firstLine s.bytes).2.length ≤ s.bytes.length := by
          conv_rhs => rw [← Win.firstLine_append s.bytes]
          simp
        obtain ⟨ls, h1, h2⟩ := ih ⟨rest, s.err⟩ b' g2 (by rw [e2]; dsimp only; omega) (by rw [e2]; dsimp only; simp at hf; omega)
        rw [e1, if_neg (by omega), h1, okb, e4]
        refine ⟨_, rfl, ?_⟩
        rw [e2] at h2
        simpa using h2
  exact key fuel s {} (.inl rfl) hl hf

/-- C71 (a defect). Lack of memory counts as the end of the file: without memory for the first buffer any configuration file is empty. -/
theorem c71_counterexample_memory (heap : Heap) (e : Nat) (h : heap.fail 0 = some e) (s : Win.Stream) (fuel : Nat) : Win.readAll heap (fuel + 1) {} s = .ok [] := by
  rw [Win.readAll, Win.getline, Win.getdelim, if_pos (.inl rfl)]
  dsimp only
  rw [h]
  rfl

/-- C71 (a defect, not reached by the program itself, which starts without a buffer). With a buffer of one byte `getline` writes behind it. -/
theorem c71_counterexample_small (heap : Heap) (x : UInt8) (calls : Nat) (rest : List UInt8) (err : Bool) : Win.getline heap ⟨some [x], 1, calls⟩ ⟨10 :: rest, err⟩ = .ub := by
  rfl

/-! ### strsep -/

theorem cstr_split (l : List UInt8) (h : (0 : UInt8) ∈ l) : ∃ rest, l = cstr l ++ 0 :: rest := by
  induction l with
  | nil => cases h
  | cons c l ih =>
    by_cases hc : c = 0
    · subst hc; exact ⟨l, by simp [cstr]⟩
    · obtain ⟨rest, hr⟩ := ih ((List.mem_cons.1 h).resolve_left (fun e => hc e.symm))
      refine ⟨rest, ?_⟩
      have : cstr (c :: l) = c :: cstr l := by simp [cstr, hc]
      rw [this, List.cons_append, ← hr]

theorem cstr_append_zero (s rest : List UInt8) (h : (0 : UInt8) ∉ s) : cstr (s ++ 0 :: rest) = s := by
  rw [cstr, List.takeWhile_append_of_pos, List.takeWhile_cons_of_neg (by simp), List.append_nil]
  intro x hx
  simp only [ne_eq, decide_not, Bool.not_eq_true', decide_eq_false_iff_not]
  rintro rfl
  exact h hx

/-- C71. One call of `strsep` on a string in memory: the string returned is what precedes the first separator, `*str` then points to what follows it, or is NULL if there is none; nothing else in
memory changes than the separator found, which becomes NUL. -/
theorem c71_strsep (pre s post : List UInt8) (h0 : (0 : UInt8) ∉ s) (sep : UInt8) (hs : sep ≠ 0) :
    (sep ∉ s → Win.strsepMem (pre ++ s ++ 0 :: post) (some pre.length) [sep] = .ok (some pre.length, pre ++ s ++ 0 :: post, none)) ∧
    (∀ a b, s = a ++ sep :: b → sep ∉ a →
      Win.strsepMem (pre ++ s ++ 0 :: post) (some pre.length) [sep] = .ok (some pre.length, pre ++ a ++ 0 :: b ++ 0 :: post, some (pre ++ a ++ [0]).length)) ∧
    Win.strsepMem (pre ++ s ++ 0 :: post) none [sep] = .ok (none, pre ++ s ++ 0 :: post, none) := by
  have hd : (pre ++ s ++ 0 :: post).drop pre.length = s ++ 0 :: post := by rw [List.append_assoc, List.drop_left]
  have hall : ∀ a : List UInt8, (0 : UInt8) ∉ a → sep ∉ a → ∀ x ∈ a, (decide (x ≠ 0 ∧ x ∉ [sep])) = true := by
    intro a h1 h2 x hx
    simp only [List.mem_singleton, decide_eq_true_eq]
    exact ⟨fun e => h1 (e ▸ hx), fun e => h2 (e ▸ hx)⟩
  refine ⟨fun hn => ?_, fun a b hab ha => ?_, rfl⟩
  · rw [Win.strsepMem]
    dsimp only
    rw [hd, if_neg (by simp), List.takeWhile_append_of_pos (hall s h0 hn), List.takeWhile_cons_of_neg (by simp), List.append_nil, if_pos (by rw [← List.length_append, List.getElem?_append_right (Nat.le_refl _)]; simp)]
  · subst hab
    have h0a : (0 : UInt8) ∉ a := fun h => h0 (List.mem_append_left _ h)
    rw [Win.strsepMem]
    dsimp only
    rw [hd, if_neg (by simp), List.append_assoc a, List.takeWhile_append_of_pos (hall a h0a ha), List.cons_append, List.takeWhile_cons_of_neg (by simp), List.append_nil]
    rw [show pre ++ (a ++ sep :: b) ++ 0 :: post = (pre ++ a) ++ sep :: (b ++ 0 :: post) by simp, show pre.length + a.length = (pre ++ a).length by simp]
    rw [if_neg (by rw [List.getElem?_append_right (Nat.le_refl _)]; simpa using hs)]
    rw [List.set_append_right _ _ (Nat.le_refl _)]
    simp [Nat.add_assoc]

theorem first_mem {sep : UInt8} {s : List UInt8} (h : sep ∈ s) : ∃ a b, s = a ++ sep :: b ∧ sep ∉ a := by
  induction s with
  | nil => cases h
  | cons c s ih =>
    by_cases hc : sep = c
    · exact ⟨[], s, by rw [hc]; rfl, by simp⟩
    · obtain ⟨a, b, rfl, ha⟩ := ih ((List.mem_cons.1 h).resolve_left hc)
      exact ⟨c :: a, b, rfl, by simp [hc, ha]⟩

theorem strsepAll_no (sep : UInt8) (p : CStr) (h : sep ∉ p) : strsepAll sep p = [p] := by
  induction p with
  | nil => rfl
  | cons c p ih =>
    simp only [List.mem_cons, not_or] at h
    simp only [strsepAll, if_neg (Ne.symm h.1), ih h.2]

theorem strsepAll_at (sep : UInt8) (p t : CStr) (h : sep ∉ p) : strsepAll sep (p ++ sep :: t) = p :: strsepAll sep t := by
  induction p with
  | nil => simp [strsepAll]
  | cons c p ih =>
    simp only [List.mem_cons, not_or] at h
    simp only [List.cons_append, strsepAll, if_neg (Ne.symm h.1), ih h.2]

/-- C71. So splitting a string with it in a loop yields the pieces that the model of `config.c` assumes (`strsepAll`). -/
theorem c71_strsep_all (pre s post : List UInt8) (h0 : (0 : UInt8) ∉ s) (sep : UInt8) (hs : sep ≠ 0) (fuel : Nat) (hf : s.length + 1 < fuel) :
    Win.strsepLoop [sep] fuel (pre ++ s ++ 0 :: post) (some pre.length) = .ok (strsepAll sep s) := by
  have key : ∀ (n : Nat) (pre s post : List UInt8) (fuel : Nat), s.length = n → (0 : UInt8) ∉ s → s.length + 1 < fuel →
      Win.strsepLoop [sep] fuel (pre ++ s ++ 0 :: post) (some pre.length) = .ok (strsepAll sep s) := by
    intro n
    induction n using Nat.strongRecOn with
    | ind n ih =>
      intro pre s post fuel hn h0 hf
      obtain ⟨k1, k2, -⟩ := c71_strsep pre s post h0 sep hs
      match fuel, hf with
      | fuel + 1, hf =>
        rw [Win.strsepLoop]
        by_cases hm : sep ∈ s
        · obtain ⟨a, b, rfl, ha⟩ := first_mem hm
          have h0a : (0 : UInt8) ∉ a := fun h => h0 (List.mem_append_left _ h)
          have h0b : (0 : UInt8) ∉ b := fun h => h0 (List.mem_append_right _ (List.mem_cons_of_mem _ h))
          rw [k2 a b rfl ha, okb]
          dsimp only
          rw [show pre ++ a ++ 0 :: b ++ 0 :: post = (pre ++ a ++ [0]) ++ b ++ 0 :: post by simp]
          rw [ih b.length (by rw [← hn]; simp; omega) (pre ++ a ++ [0]) b post fuel rfl h0b (by simp at hf; omega), okb, strsepAll_at sep a b ha]
          rw [show pre ++ a ++ [0] ++ b ++ 0 :: post = pre ++ (a ++ 0 :: (b ++ 0 :: post)) by simp, List.drop_left, cstr_append_zero _ _ h0a]
        · rw [k1 hm, okb]
          dsimp only
          match fuel, hf with
          | fuel + 1, _ =>
            have he : Win.strsepLoop [sep] (fuel + 1) (pre ++ s ++ 0 :: post) none = .ok [] := rfl
            rw [he, okb, List.append_assoc, List.drop_left, cstr_append_zero _ _ h0, strsepAll_no sep s hm]
  exact key _ pre s post fuel rfl h0 hf

/-! ### Concrete cases -/

/-- Three lines, the last without a line feed, and one longer than the first buffer. -/
def winText : List UInt8 := b!"[Interface]\n" ++ List.replicate 600 35 ++ b!"\nListenPort = 1"

def winLines : List (List UInt8) := [b!"[Interface]\n", List.replicate 600 35 ++ b!"\n", b!"ListenPort = 1"]

theorem winText_lines : getlines winText = winLines := by decide +kernel

example : Win.readAll ⟨fun _ => none, fun _ _ => 0xaa⟩ 5 {} ⟨winText, false⟩ = .ok winLines := by
  rw [← winText_lines]
  exact c71_lines ⟨fun _ => none, fun _ _ => 0xaa⟩ (fun _ => rfl) winText (by decide +kernel) 5 (by decide +kernel)

/-- The same text, with a read error at its end; and without memory for a longer buffer. -/
example : Win.readAll ⟨fun _ => none, fun _ _ => 0xaa⟩ 5 {} ⟨winText, true⟩ = .ok (winLines.take 2) := by
  have := c71_counterexample_read_error ⟨fun _ => none, fun _ _ => 0xaa⟩ (fun _ => rfl) winText (by decide +kernel) 5 (by decide +kernel)
  rw [winText_lines] at this
  rw [this]
  decide +kernel

example : ∃ ls, Win.readAll ⟨fun n => if n = 1 then some 12 else none, fun _ _ => 0xaa⟩ 5 {} ⟨winText, false⟩ = .ok ls ∧ ls <+: winLines := by
  rw [← winText_lines]
  exact c71_prefix _ ⟨winText, false⟩ (by decide +kernel) 5 (by decide +kernel)

/-- A buffer of two bytes is enough to start with. -/
example : Win.GoodBuf ⟨some [1, 2], 2, 0⟩ := .inr ⟨_, rfl, rfl, by decide, by decide⟩

example : Win.strsepLoop [44] 20 (b!"xx10.0.0.0/8,,::/0" ++ [0, 7]) (some 2) = .ok [b!"10.0.0.0/8", [], b!"::/0"] :=
  (c71_strsep_all b!"xx" b!"10.0.0.0/8,,::/0" [7] (by decide) 44 (by decide) 20 (by decide)).trans (by decide +kernel)

end WG
