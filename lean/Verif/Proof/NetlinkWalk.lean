import Verif.Model.IpcLinux
import Verif.Spec.Netlink
/-! Walking attributes and messages (C31, C32). -/
namespace WG
open Spec

theorem okb {α β : Type} (a : α) (f : α → Res β) : (Res.ok a).bind f = f a := rfl

/-- One step of `cbRun`. -/
theorem cbRun_succ {σ : Type} (mem : List UInt8) (seq portid : Nat) (cb : Option (Nat → Nat × σ → Res (Int × Nat × σ))) (fuel h : Nat) (len ret : Int) (st : Nat × σ) :
    cbRun mem seq portid cb (fuel + 1) h len ret st =
    if len < 16 then .ok (ret, st)
    else (rdNum mem h 4).bind fun n =>
    if n < 16 ∨ toInt32 n > len then .ok (ret, st)
    else (rdNum mem (h + 12) 4).bind fun pid =>
    if !idOk pid portid then .ok (-1, 3, st.2)
    else (rdNum mem (h + 8) 4).bind fun sq =>
    if !idOk sq seq then .ok (-1, 71, st.2)
    else (rdNum mem (h + 6) 2).bind fun flags =>
    if flags / 16 % 2 = 1 then .ok (-1, 4, st.2)
    else (rdNum mem (h + 4) 2).bind fun type =>
    let cont (r : Int) (st : Nat × σ) : Res (Int × Nat × σ) := cbRun mem seq portid cb fuel (h + align4 n) (toInt32 (len - align4 n)) r st
    if type ≥ 16 then
      match cb with
      | some cb => (cb h st).bind fun (r, st) => if r ≤ 0 then .ok (r, st) else cont r st
      | none => cont ret st
    else if type = 0 ∨ type ≥ 5 then cont ret st
    else (ctlCb mem h n type flags st.1).bind fun (r, e) => if r ≤ 0 then .ok (r, e, st.2) else cont r (e, st.2) := by
  rw [cbRun, cbRunWith]
  rfl

theorem leNat_eq (l : List UInt8) : leNat l = le l := by
  induction l with
  | nil => rfl
  | cons b l ih => simp only [leNat, le, ih]

theorem le_lt (l : List UInt8) : le l < 256 ^ l.length := by
  induction l with
  | nil => simp [le]
  | cons b l ih =>
    simp only [le, List.length_cons, Nat.pow_succ]
    have := b.toNat_lt
    omega

theorem le_take_lt (l : List UInt8) (n : Nat) : le (l.take n) < 256 ^ n := by
  have h1 := le_lt (l.take n)
  have h2 : (l.take n).length ≤ n := by simp; omega
  exact Nat.lt_of_lt_of_le h1 (Nat.pow_le_pow_right (by omega) h2)

theorem rdBytes_ok {mem : List UInt8} {i n : Nat} (h : i + n ≤ mem.length) : rdBytes mem i n = .ok ((mem.drop i).take n) := by
  rw [rdBytes, if_pos h]

theorem rdNum_ok {mem : List UInt8} {i n : Nat} (h : i + n ≤ mem.length) : rdNum mem i n = .ok (le ((mem.drop i).take n)) := by
  rw [rdNum, rdBytes_ok h, ← leNat_eq]

theorem toInt32_of {x : Int} (h1 : -(2 ^ 31) ≤ x) (h2 : x < 2 ^ 31) : toInt32 x = x := by
  simp only [toInt32]; omega

theorem align4_pad4 (n : Nat) : align4 n = pad4 n := rfl
theorem pad4_ge (n : Nat) : n ≤ pad4 n := by simp only [pad4]; omega
theorem pad4_lt (n : Nat) : pad4 n < n + 4 := by simp only [pad4]; omega

/-- There is an attribute of type `t` with payload `d` at `x`. -/
structure At (mem : List UInt8) (x t : Nat) (d : List UInt8) : Prop where
  inside : x + 4 + d.length ≤ mem.length
  len : le ((mem.drop x).take 2) = 4 + d.length
  type : le ((mem.drop (x + 2)).take 2) % 0x4000 = t
  data : (mem.drop (x + 4)).take d.length = d

namespace At
variable {mem : List UInt8} {x t : Nat} {d : List UInt8}

theorem rdLen (h : At mem x t d) : rdNum mem x 2 = .ok (4 + d.length) := by
  have := h.inside; rw [rdNum_ok (by omega), h.len]

theorem rdType (h : At mem x t d) : attrType mem x = .ok t := by
  have := h.inside; rw [attrType, rdNum_ok (by omega), okb, h.type]

theorem lenLt (h : At mem x t d) : 4 + d.length < 65536 := by
  have h1 := le_take_lt (mem.drop x) 2
  rw [h.len] at h1; exact h1

theorem rdPayloadLen (h : At mem x t d) : attrPayloadLen mem x = .ok d.length := by
  have := h.lenLt
  rw [attrPayloadLen, h.rdLen]
  simp only [Res.ok.injEq]; omega

theorem sub (h : At mem x t d) (i n : Nat) (hi : i + n ≤ d.length) : rdBytes mem (x + 4 + i) n = .ok ((d.drop i).take n) := by
  have := h.inside
  rw [rdBytes_ok (by omega)]
  congr 1
  rw [← h.data, List.drop_take, List.drop_drop, List.take_take, Nat.min_eq_left (by omega)]

theorem rdPayload (h : At mem x t d) (n : Nat) (hn : d.length = n) : rdBytes mem (x + 4) n = .ok d := by
  subst hn
  have := h.sub 0 d.length (by omega)
  simpa using this

theorem exact (h : At mem x t d) (n : Nat) : exactPayload mem x n = .ok (if d.length = n then some d else none) := by
  rw [exactPayload, h.rdPayloadLen, okb]
  by_cases hn : d.length = n
  · rw [if_pos hn, if_pos hn, h.rdPayload n hn]
  · rw [if_neg hn, if_neg hn]

theorem fixed (h : At mem x t d) (n : Nat) : fixedNum mem x n = .ok (if d.length = n then some (le d) else none) := by
  rw [fixedNum, validFixed, h.rdPayloadLen, okb, okb]
  by_cases hn : d.length = n
  · rw [if_pos (by simpa using hn), if_pos hn, rdNum, h.rdPayload n hn, ← leNat_eq]
  · rw [if_neg (by simpa using hn), if_neg hn]

end At

theorem attrsAux_mono : ∀ (f f' : Nat) (bs : List UInt8) (l), f ≤ f' → attrsAux f bs = some l → attrsAux f' bs = some l := by
  intro f
  induction f with
  | zero => intro f' bs l _ h; simp [attrsAux] at h
  | succ f ih =>
    intro f' bs l hf h
    cases f' with
    | zero => omega
    | succ f' =>
      rw [attrsAux] at h ⊢
      split
      · rename_i hb; rw [if_pos hb] at h; exact h
      · rename_i hb
        rw [if_neg hb] at h
        simp only at h ⊢
        split
        · rename_i hc; rw [if_pos hc] at h; exact h
        · rename_i hc
          rw [if_neg hc] at h
          cases hr : attrsAux f (bs.drop (pad4 (le (bs.take 2)))) with
          | none => rw [hr] at h; simp at h
          | some r => rw [ih f' _ r (by omega) hr, ← h, hr]

/-- The reading of attributes one by one. -/
theorem attrs_cases {bs : List UInt8} {l : List (Nat × List UInt8)} (h : attrs bs = some l) :
    (bs = [] ∧ l = []) ∨ ∃ t d l', l = (t, d) :: l' ∧ 4 + d.length ≤ bs.length ∧ le (bs.take 2) = 4 + d.length ∧
      le ((bs.drop 2).take 2) % 0x4000 = t ∧ (bs.drop 4).take d.length = d ∧ attrs (bs.drop (pad4 (4 + d.length))) = some l' := by
  rw [attrs, attrsAux] at h
  by_cases hb : bs = []
  · rw [if_pos hb] at h
    left; exact ⟨hb, by simpa using h.symm⟩
  · rw [if_neg hb] at h
    simp only at h
    by_cases hc : bs.length < 4 ∨ le (bs.take 2) < 4 ∨ bs.length < le (bs.take 2)
    · rw [if_pos hc] at h; simp at h
    · rw [if_neg hc] at h
      right
      cases hr : attrsAux bs.length (bs.drop (pad4 (le (bs.take 2)))) with
      | none => rw [hr] at h; simp at h
      | some r =>
        rw [hr] at h
        simp only [Option.map_some, Option.some.injEq] at h
        have hdl : ((bs.drop 4).take (le (bs.take 2) - 4)).length = le (bs.take 2) - 4 := by
          rw [List.length_take, List.length_drop]; omega
        refine ⟨_, _, r, h.symm, ?_, ?_, rfl, ?_, ?_⟩
        · rw [hdl]; omega
        · rw [hdl]; omega
        · rw [hdl]
        · rw [hdl, show 4 + (le (bs.take 2) - 4) = le (bs.take 2) from by omega]
          -- less fuel is enough
          have hlen : (bs.drop (pad4 (le (bs.take 2)))).length < bs.length := by
            rw [List.length_drop]; have := pad4_ge (le (bs.take 2)); omega
          have key : ∀ (n f : Nat) (cs : List UInt8) (l), cs.length < n → attrsAux f cs = some l → attrsAux n cs = some l := by
            intro n
            induction n with
            | zero => intro f cs l hn; omega
            | succ n ihn =>
              intro f cs l hn hf
              cases f with
              | zero => simp [attrsAux] at hf
              | succ f =>
                rw [attrsAux] at hf ⊢
                split
                · rename_i hb; rw [if_pos hb] at hf; exact hf
                · rename_i hb
                  rw [if_neg hb] at hf
                  simp only at hf ⊢
                  split
                  · rename_i hc; rw [if_pos hc] at hf; exact hf
                  · rename_i hc
                    rw [if_neg hc] at hf
                    cases hr : attrsAux f (cs.drop (pad4 (le (cs.take 2)))) with
                    | none => rw [hr] at hf; simp at hf
                    | some r => rw [ihn f _ r (by
                        rw [List.length_drop]; have := pad4_ge (le (cs.take 2)); omega) hr, ← hf, hr]
          exact key _ _ _ _ (by omega) hr

/-- Walking the attributes of a region does with each of them what the callback does. -/
theorem walk_attrs {σ : Type} (mem : List UInt8) (hm : mem.length < 2 ^ 30) (cb : Nat → σ → Res (Int × σ)) (f : σ → Nat × List UInt8 → σ) (Inv : σ → Prop) :
    ∀ (l : List (Nat × List UInt8)) (a L tail fuel : Nat) (st : σ), attrs ((mem.drop a).take L) = some l → a + L ≤ mem.length → a + L ≤ tail → tail < a + L + 4 →
      L < fuel → Inv st → (∀ x t d st, (t, d) ∈ l → At mem x t d → Inv st → cb x st = .ok (1, f st (t, d)) ∧ Inv (f st (t, d))) →
      walk mem tail cb fuel a 1 st = .ok (1, l.foldl f st) := by
  intro l
  induction l with
  | nil =>
    intro a L tail fuel st h ha ht1 ht2 hf _ _
    rcases attrs_cases h with ⟨hb, -⟩ | ⟨t, d, l', hl, -⟩
    · have hL : L = 0 := by
        have := congrArg List.length hb
        rw [List.length_take, List.length_drop] at this; simp at this; omega
      cases fuel with
      | zero => omega
      | succ fuel =>
        rw [walk, attrOk, toInt32_of (by omega) (by omega), if_pos (by omega)]
        rfl
    · simp at hl
  | cons p l ih =>
    intro a L tail fuel st h ha ht1 ht2 hf hi hcb
    obtain ⟨t, d⟩ := p
    rcases attrs_cases h with ⟨-, hb⟩ | ⟨t', d', l', hl, h1, h2, h3, h4, h5⟩
    · simp at hb
    · simp only [List.cons.injEq, Prod.mk.injEq] at hl
      obtain ⟨⟨rfl, rfl⟩, rfl⟩ := hl
      have hLl : ((mem.drop a).take L).length = L := by rw [List.length_take, List.length_drop]; omega
      rw [hLl] at h1
      have hat : At mem a t d := by
        refine ⟨by omega, ?_, ?_, ?_⟩
        · rw [List.take_take, Nat.min_eq_left (by omega)] at h2; exact h2
        · rw [List.drop_take, List.take_take, Nat.min_eq_left (by omega), List.drop_drop] at h3; exact h3
        · rw [List.drop_take, List.take_take, Nat.min_eq_left (by omega), List.drop_drop] at h4; exact h4
      obtain ⟨c1, c2⟩ := hcb a t d st (by simp) hat hi
      cases fuel with
      | zero => omega
      | succ fuel =>
        have hp := pad4_ge (4 + d.length)
        have hp' := pad4_lt (4 + d.length)
        rw [walk, attrOk, toInt32_of (by omega) (by omega), if_neg (by omega), hat.rdLen, okb, okb, if_neg (by simp; omega), c1]
        simp only
        rw [if_neg (by omega), okb]
        rw [List.drop_take, List.drop_drop] at h5
        -- the rest of the region
        by_cases hrest : pad4 (4 + d.length) ≤ L
        · exact ih (a + pad4 (4 + d.length)) (L - pad4 (4 + d.length)) tail fuel _ h5 (by omega) (by omega) (by omega) (by omega) c2
            (fun x t d st hx => hcb x t d st (by simp [hx]))
        · rw [show L - pad4 (4 + d.length) = 0 from by omega, List.take_zero] at h5
          rcases attrs_cases h5 with ⟨-, rfl⟩ | ⟨t', d', l', -, h1', -⟩
          · cases fuel with
            | zero => omega
            | succ fuel =>
              rw [walk, attrOk, align4_pad4, toInt32_of (by omega) (by omega), if_pos (by omega)]
              rfl
          · simp at h1'

/-- The same, where the callback's state is only described (by `Inv`). -/
theorem walk_attrs_rel {σ β : Type} (mem : List UInt8) (hm : mem.length < 2 ^ 30) (cb : Nat → σ → Res (Int × σ)) (f : β → Nat × List UInt8 → β) (Inv : σ → β → Prop) :
    ∀ (l : List (Nat × List UInt8)) (a L tail fuel : Nat) (st : σ) (gh : β), attrs ((mem.drop a).take L) = some l → a + L ≤ mem.length → a + L ≤ tail → tail < a + L + 4 →
      L < fuel → Inv st gh → (∀ x t d st gh, (t, d) ∈ l → At mem x t d → Inv st gh → ∃ st', cb x st = .ok (1, st') ∧ Inv st' (f gh (t, d))) →
      ∃ st', walk mem tail cb fuel a 1 st = .ok (1, st') ∧ Inv st' (l.foldl f gh) := by
  intro l
  induction l with
  | nil =>
    intro a L tail fuel st gh h ha ht1 ht2 hf hi _
    rcases attrs_cases h with ⟨hb, -⟩ | ⟨t, d, l', hl, -⟩
    · have hL : L = 0 := by
        have := congrArg List.length hb
        rw [List.length_take, List.length_drop] at this; simp at this; omega
      cases fuel with
      | zero => omega
      | succ fuel =>
        rw [walk, attrOk, toInt32_of (by omega) (by omega), if_pos (by omega)]
        exact ⟨_, rfl, hi⟩
    · simp at hl
  | cons p l ih =>
    intro a L tail fuel st gh h ha ht1 ht2 hf hi hcb
    obtain ⟨t, d⟩ := p
    rcases attrs_cases h with ⟨-, hb⟩ | ⟨t', d', l', hl, h1, h2, h3, h4, h5⟩
    · simp at hb
    · simp only [List.cons.injEq, Prod.mk.injEq] at hl
      obtain ⟨⟨rfl, rfl⟩, rfl⟩ := hl
      have hLl : ((mem.drop a).take L).length = L := by rw [List.length_take, List.length_drop]; omega
      rw [hLl] at h1
      have hat : At mem a t d := by
        refine ⟨by omega, ?_, ?_, ?_⟩
        · rw [List.take_take, Nat.min_eq_left (by omega)] at h2; exact h2
        · rw [List.drop_take, List.take_take, Nat.min_eq_left (by omega), List.drop_drop] at h3; exact h3
        · rw [List.drop_take, List.take_take, Nat.min_eq_left (by omega), List.drop_drop] at h4; exact h4
      obtain ⟨st', c1, c2⟩ := hcb a t d st gh (by simp) hat hi
      cases fuel with
      | zero => omega
      | succ fuel =>
        have hp := pad4_ge (4 + d.length)
        have hp' := pad4_lt (4 + d.length)
        rw [walk, attrOk, toInt32_of (by omega) (by omega), if_neg (by omega), hat.rdLen, okb, okb, if_neg (by simp; omega), c1]
        simp only
        rw [if_neg (by omega), okb]
        rw [List.drop_take, List.drop_drop] at h5
        -- the rest of the region
        by_cases hrest : pad4 (4 + d.length) ≤ L
        · exact ih (a + pad4 (4 + d.length)) (L - pad4 (4 + d.length)) tail fuel _ _ h5 (by omega) (by omega) (by omega) (by omega) c2
            (fun x t d st gh hx => hcb x t d st gh (by simp [hx]))
        · rw [show L - pad4 (4 + d.length) = 0 from by omega, List.take_zero] at h5
          rcases attrs_cases h5 with ⟨-, rfl⟩ | ⟨t', d', l', -, h1', -⟩
          · cases fuel with
            | zero => omega
            | succ fuel =>
              rw [walk, attrOk, align4_pad4, toInt32_of (by omega) (by omega), if_pos (by omega)]
              exact ⟨_, rfl, c2⟩
          · simp at h1'

end WG
