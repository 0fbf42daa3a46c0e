import Verif.Spec.Highlight
import Verif.Proof.Openbsd
import Verif.Props.Encoding
import Mathlib.Data.List.TakeWhile
/-! What the highlighter takes for a valid value. -/
namespace WG.Hl
open Obsd (okb)
open Spec

theorem isDecimal_eq (sc : Bool) : ∀ c, isDecimal sc c = isDigit c := by cases sc <;> (apply forall_u8; decide +kernel)
theorem isAlphabet_eq (sc : Bool) : ∀ c, isAlphabet sc c = isAlpha c := by cases sc <;> (apply forall_u8; decide +kernel)
theorem isHexadecimal_eq (sc : Bool) : ∀ c, isHexadecimal sc c = isHexDigit c := by cases sc <;> (apply forall_u8; decide +kernel)
theorem hexDigitValue_eq : ∀ c, (hexDigitValue c).isSome = isHexDigit c := by apply forall_u8; decide +kernel
theorem hexDigitValue_lt : ∀ c, ∀ d ∈ hexDigitValue c, d < 16 := by apply forall_u8; decide +kernel
theorem digit_bound : ∀ c, isDigit c = true → (48 ≤ c ∧ c ≤ 57) ∧ c.toNat - 48 ≤ 9 ∧ (c.toNat - 48 = 0 ↔ c = 48) := by apply forall_u8; decide +kernel
theorem not_digit : ∀ c, isDigit c = false → ¬ (48 ≤ c ∧ c ≤ 57) := by apply forall_u8; decide +kernel

theorem pton4Loop_length : ∀ (t done : List UInt8) (cur : Nat) (saw : Bool) (l : List UInt8), pton4Loop done cur saw t = some l → l.length = 4
  | [], done, cur, saw, l, h => by
    rw [pton4Loop] at h
    by_cases h1 : saw ∧ done.length = 3
    · rw [if_pos h1] at h; cases h; simp [h1.2]
    · rw [if_neg h1] at h; cases h
  | c :: t, done, cur, saw, l, h => by
    rw [pton4Loop] at h
    by_cases h1 : 48 ≤ c ∧ c ≤ 57
    · rw [if_pos h1] at h
      by_cases h2 : saw ∧ cur = 0
      · rw [if_pos h2] at h; cases h
      rw [if_neg h2] at h
      by_cases h3 : cur * 10 + (c.toNat - 48) > 255
      · rw [if_pos h3] at h; cases h
      rw [if_neg h3] at h; exact pton4Loop_length t _ _ _ _ h
    rw [if_neg h1] at h
    by_cases h2 : c = c!"." ∧ saw
    · rw [if_pos h2] at h
      by_cases h3 : done.length = 3
      · rw [if_pos h3] at h; cases h
      rw [if_neg h3] at h; exact pton4Loop_length t _ _ _ _ h
    · rw [if_neg h2] at h; cases h

theorem pton4_isSome (t : List UInt8) : (pton4 t).isSome = (pton4Loop [] 0 false t).isSome := by
  rw [pton4]
  cases h : pton4Loop [] 0 false t with
  | none => rfl
  | some l => simp [pton4Loop_length _ _ _ _ _ h]

theorem p4_digit {c : UInt8} (h : isDigit c = true) (done : List UInt8) (cur : Nat) (saw : Bool) (t : List UInt8) : pton4Loop done cur saw (c :: t) =
    if saw ∧ cur = 0 then none else if cur * 10 + (c.toNat - 48) > 255 then none else pton4Loop done (cur * 10 + (c.toNat - 48)) true t := by
  rw [pton4Loop, if_pos (digit_bound c h).1]

theorem p4_other {c : UInt8} (h : isDigit c = false) (done : List UInt8) (cur : Nat) (saw : Bool) (t : List UInt8) : pton4Loop done cur saw (c :: t) =
    if c = c!"." ∧ saw then (if done.length = 3 then none else pton4Loop (done ++ [UInt8.ofNat cur]) 0 false t) else none := by
  rw [pton4Loop, if_neg (not_digit c h)]

theorem p4_end (done : List UInt8) (cur : Nat) : (pton4Loop done cur true []).isSome = decide (done.length = 3) := by
  rw [pton4Loop]; by_cases h : done.length = 3 <;> simp [h]

/-- What follows an octet. -/
theorem v4_after (sc : Bool) (next : UInt8) (n cur : Nat) (done r : List UInt8) (hdn : done.length + n = 3) (hr : ∀ c, r.head? = some c → isDigit c = false)
    (ih : ∀ (t done : List UInt8), 0 < n → done.length + n = 4 → v4Loop sc next n t = .ok (pton4Loop done 0 false t).isSome) (pre : List UInt8) :
    (if pre.length = (pre ++ r).length ∧ n = 0 then Res.ok true
      else (rd (pre ++ r) next pre.length).bind fun c => if c ≠ c!"." then .ok false else v4Loop sc next n ((pre ++ r).drop (pre.length + 1))) =
      .ok (pton4Loop done cur true r).isSome := by
  cases r with
  | nil =>
    rw [p4_end]
    by_cases hn : n = 0
    · rw [if_pos (by simp [hn])]; simp; omega
    · rw [if_neg (by simp [hn])]
      have hnil : (pre ++ ([] : List UInt8)).drop (pre.length + 1) = [] := by simp
      have h0 : v4Loop sc next n ((pre ++ []).drop (pre.length + 1)) = .ok false := by
        obtain ⟨k, rfl⟩ : ∃ k, n = k + 1 := ⟨n - 1, by omega⟩
        rw [hnil, v4Loop, if_pos rfl]
      rw [show rd (pre ++ []) next pre.length = .ok next by simp [rd], okb, h0, show decide (done.length = 3) = false by simp; omega]
      by_cases hc : next ≠ c!"."
      · rw [if_pos hc]
      · rw [if_neg hc]
  | cons c r =>
    have hc := hr c rfl
    rw [if_neg (by simp), show rd (pre ++ c :: r) next pre.length = .ok c by simp [rd], okb, p4_other hc]
    by_cases hd : c = c!"."
    · rw [if_neg (by simp [hd]), if_pos ⟨hd, rfl⟩, show (pre ++ c :: r).drop (pre.length + 1) = r by simp]
      by_cases hn : n = 0
      · subst hn; rw [if_pos (by omega)]; rfl
      · rw [if_neg (by omega), ih r (done ++ [UInt8.ofNat cur]) (by omega) (by simp; omega)]
    · rw [if_pos hd, if_neg (by simp [hd])]; rfl

/-- The loop of `is_valid_ipv4` once the digits are read. -/
def v4Body (sc : Bool) (next : UInt8) (n : Nat) (t : List UInt8) (o : Nat × Nat) : Res Bool :=
  if o.1 = 0 ∨ (o.1 > 1 ∧ t.getD 0 0 = c!"0") ∨ o.2 > 255 then .ok false
  else if o.1 = t.length ∧ n = 0 then .ok true
  else (rd t next o.1).bind fun c => if c ≠ c!"." then .ok false else v4Loop sc next n (t.drop (o.1 + 1))

theorem v4_eq (sc : Bool) (next : UInt8) : ∀ (n : Nat) (t done : List UInt8), 0 < n → done.length + n = 4 → v4Loop sc next n t = .ok (pton4Loop done 0 false t).isSome
  | 0, _, _, h, _ => by omega
  | n + 1, t, done, _, hdn => by
    have ih := fun (t done : List UInt8) => v4_eq sc next n t done
    have after : ∀ (cur : Nat) (r : List UInt8) (hr : ∀ c, r.head? = some c → isDigit c = false) (pre : List UInt8) (v : Nat), 0 < pre.length → (1 < pre.length → pre.getD 0 0 ≠ c!"0") →
        v ≤ 255 → v4Body sc next n (pre ++ r) (pre.length, v) = .ok (pton4Loop done cur true r).isSome := by
      intro cur r hr pre v h1 h2 h3
      rw [v4Body, if_neg]
      · exact v4_after sc next n cur done r (by omega) hr ih pre
      · rintro (h | h | h)
        · exact absurd h (by dsimp only; omega)
        · refine h2 h.1 ?_
          have h4 := h.2
          cases pre with
          | nil => cases h1
          | cons x pre => exact h4
        · exact absurd h (by dsimp only; omega)
    cases t with
    | nil => rw [v4Loop, if_pos rfl, pton4Loop]; rfl
    | cons a t =>
      have hbody : v4Loop sc next (n + 1) (a :: t) = v4Body sc next n (a :: t) (octet sc 3 (a :: t) 0 0) := by rw [v4Loop, if_neg (by simp)]; rfl
      rw [hbody]
      cases ha : isDigit a with
      | false =>
        rw [show octet sc 3 (a :: t) 0 0 = (0, 0) by rw [octet, isDecimal_eq, ha]; rfl, v4Body, if_pos (.inl rfl), p4_other ha]; simp
      | true =>
        have hab := digit_bound a ha
        have p1 : pton4Loop done 0 false (a :: t) = pton4Loop done (a.toNat - 48) true t := by
          rw [p4_digit ha, if_neg (by simp), if_neg (by omega), show 0 * 10 + (a.toNat - 48) = a.toNat - 48 by omega]
        have o1 : octet sc 3 (a :: t) 0 0 = octet sc 2 t 1 (a.toNat - 48) := by rw [octet, isDecimal_eq, ha, if_pos rfl, show 10 * 0 + (a.toNat - 48) = a.toNat - 48 by omega]
        rw [p1, o1]
        cases t with
        | nil => exact after _ [] (by simp) [a] _ (by simp) (by simp) (by omega)
        | cons b t =>
          cases hb : isDigit b with
          | false =>
            rw [show octet sc 2 (b :: t) 1 (a.toNat - 48) = (1, a.toNat - 48) by rw [octet, isDecimal_eq, hb]; rfl]
            exact after _ (b :: t) (by simp [hb]) [a] _ (by simp) (by simp) (by omega)
          | true =>
            have hbb := digit_bound b hb
            have o2 : octet sc 2 (b :: t) 1 (a.toNat - 48) = octet sc 1 t 2 (10 * (a.toNat - 48) + (b.toNat - 48)) := by rw [octet, isDecimal_eq, hb, if_pos rfl]
            rw [o2]
            by_cases h0 : a = c!"0"
            · have p2 : pton4Loop done (a.toNat - 48) true (b :: t) = none := by rw [p4_digit hb, if_pos ⟨rfl, hab.2.2.2 h0⟩]
              rw [p2, v4Body, if_pos]
              · rfl
              refine .inr (.inl ⟨?_, by simp [h0]⟩)
              cases t with
              | nil => simp [octet]
              | cons c t => simp only [octet]; split <;> simp
            · have hpos : ¬ (a.toNat - 48 = 0) := fun h => h0 (hab.2.2.1 h)
              have p2 : pton4Loop done (a.toNat - 48) true (b :: t) = pton4Loop done ((a.toNat - 48) * 10 + (b.toNat - 48)) true t := by
                rw [p4_digit hb, if_neg (by simp; omega), if_neg (by omega)]
              rw [p2]
              have hw := after ((a.toNat - 48) * 10 + (b.toNat - 48)) t
              cases t with
              | nil => exact hw (by simp) [a, b] _ (by simp) (by simp [h0]) (by omega)
              | cons c t =>
                cases hc : isDigit c with
                | false =>
                  rw [show octet sc 1 (c :: t) 2 (10 * (a.toNat - 48) + (b.toNat - 48)) = (2, 10 * (a.toNat - 48) + (b.toNat - 48)) by rw [octet, isDecimal_eq, hc]; rfl]
                  exact hw (by simp [hc]) [a, b] _ (by simp) (by simp [h0]) (by omega)
                | true =>
                  have hcb := digit_bound c hc
                  have p3 : pton4Loop done ((a.toNat - 48) * 10 + (b.toNat - 48)) true (c :: t) =
                      if ((a.toNat - 48) * 10 + (b.toNat - 48)) * 10 + (c.toNat - 48) > 255 then none
                      else pton4Loop done (((a.toNat - 48) * 10 + (b.toNat - 48)) * 10 + (c.toNat - 48)) true t := by
                    rw [p4_digit hc, if_neg (by simp; omega)]
                  rw [p3]
                  generalize hv : ((a.toNat - 48) * 10 + (b.toNat - 48)) * 10 + (c.toNat - 48) = v
                  have o3 : octet sc 1 (c :: t) 2 (10 * (a.toNat - 48) + (b.toNat - 48)) = (3, v) := by
                    rw [octet, isDecimal_eq, hc, if_pos rfl, octet, show 10 * (10 * (a.toNat - 48) + (b.toNat - 48)) + (c.toNat - 48) = v by omega]
                  rw [o3]
                  by_cases hbig : v > 255
                  · rw [if_pos hbig, v4Body, if_pos (.inr (.inr hbig))]; rfl
                  rw [if_neg hbig]
                  have hw := after v t
                  cases t with
                  | nil => exact hw (by simp) [a, b, c] _ (by simp) (by simp [h0]) (by omega)
                  | cons d t =>
                    cases hd : isDigit d with
                    | false => exact hw (by simp [hd]) [a, b, c] _ (by simp) (by simp [h0]) (by omega)
                    | true =>
                      have hdb := digit_bound d hd
                      have hv100 : v ≥ 100 := by omega
                      have p5 : pton4Loop done v true (d :: t) = none := by rw [p4_digit hd, if_neg (by simp; omega), if_pos (by omega)]
                      rw [p5, v4Body]
                      split
                      · rfl
                      rw [if_neg (by simp), show rd (a :: b :: c :: d :: t) next 3 = .ok d by simp [rd], okb, if_pos]
                      · rfl
                      · intro h; subst h; revert hd; decide

/-- The highlighter and `inet_pton` agree on IPv4 addresses. -/
theorem ipv4_eq (sc : Bool) (t : Text) : isValidIpv4 sc t = .ok (pton4 t.s).isSome := by
  rw [isValidIpv4, pton4_isSome]; exact v4_eq sc t.next 4 t.s [] (by omega) rfl

/-! IPv6 -/

theorem p6_nil (out : List UInt8) (val seen : Nat) (cp : Option Nat) (tok : CStr) : pton6Loop out val seen cp tok [] =
    if seen > 0 then (if out.length + 2 > 16 then none else pton6Finish (out ++ [UInt8.ofNat (val / 256), UInt8.ofNat (val % 256)]) cp) else pton6Finish out cp := by
  rw [pton6Loop]

theorem p6_hex {c : UInt8} {d : Nat} (h : hexDigitValue c = some d) (out : List UInt8) (val seen : Nat) (cp : Option Nat) (tok s : CStr) : pton6Loop out val seen cp tok (c :: s) =
    if seen = 4 then none else if val * 16 + d > 0xffff then none else pton6Loop out (val * 16 + d) (seen + 1) cp tok s := by
  rw [pton6Loop, h]

theorem p6_other {c : UInt8} (h : hexDigitValue c = none) (out : List UInt8) (val seen : Nat) (cp : Option Nat) (tok s : CStr) : pton6Loop out val seen cp tok (c :: s) =
    if c = c!":" then
      (if seen = 0 then (if cp.isSome then none else pton6Loop out val seen (some out.length) s s)
      else if s = [] then none
      else if out.length + 2 > 16 then none
      else pton6Loop (out ++ [UInt8.ofNat (val / 256), UInt8.ofNat (val % 256)]) 0 0 cp s s)
    else if c = c!"." ∧ out.length + 4 ≤ 16 then
      (match pton4 tok with
      | some q => pton6Finish (out ++ q.toList) cp
      | none => none)
    else none := by
  rw [pton6Loop, h]; rfl

theorem finish_none {out : List UInt8} {k : Nat} (h : 16 ≤ out.length) : pton6Finish out (some k) = none := by rw [pton6Finish]; exact if_pos h

/-- Nothing fits any more. -/
theorem p6_full : ∀ (t out : List UInt8) (val seen : Nat) (cp : Option Nat) (tok : CStr), 16 ≤ out.length → (cp.isSome ∨ t ≠ [] ∨ 0 < seen) → pton6Loop out val seen cp tok t = none
  | [], out, val, seen, cp, tok, h, hc => by
    rw [p6_nil]
    by_cases hs : seen > 0
    · rw [if_pos hs, if_pos (by omega)]
    · rw [if_neg hs]
      cases cp with
      | none => simp at hc; omega
      | some k => exact finish_none h
  | c :: t, out, val, seen, cp, tok, h, _ => by
    cases hd : hexDigitValue c with
    | some d =>
      rw [p6_hex hd]
      split
      · rfl
      split
      · rfl
      exact p6_full t _ _ _ _ _ h (by simp)
    | none =>
      rw [p6_other hd]
      by_cases h1 : c = c!":"
      · rw [if_pos h1]
        by_cases h2 : seen = 0
        · rw [if_pos h2]
          split
          · rfl
          · exact p6_full t _ _ _ _ _ h (by simp)
        rw [if_neg h2]
        split
        · rfl
        · rw [if_pos (by omega)]
      rw [if_neg h1, if_neg (by omega)]

/-- After `::` there is no room for a last group. -/
theorem p6_full_gap : ∀ (t out : List UInt8) (val seen : Nat) (k : Nat) (tok : CStr), 14 ≤ out.length → (t ≠ [] ∨ 0 < seen) → pton6Loop out val seen (some k) tok t = none
  | [], out, val, seen, k, tok, h, hc => by
    rw [p6_nil, if_pos (by simpa using hc)]
    split
    · rfl
    · exact finish_none (by simp; omega)
  | c :: t, out, val, seen, k, tok, h, _ => by
    cases hd : hexDigitValue c with
    | some d =>
      rw [p6_hex hd]
      split
      · rfl
      split
      · rfl
      exact p6_full_gap t _ _ _ _ _ h (by simp)
    | none =>
      rw [p6_other hd]
      by_cases h1 : c = c!":"
      · rw [if_pos h1]
        by_cases h2 : seen = 0
        · rw [if_pos h2]; rfl
        rw [if_neg h2]
        split
        · rfl
        split
        · rfl
        · exact p6_full _ _ _ _ _ _ (by simp; omega) (by simp)
      rw [if_neg h1, if_neg (by omega)]

theorem hexRun_eq (sc : Bool) : ∀ (n : Nat) (t : List UInt8), hexRun sc n t = ((t.take n).takeWhile isHexDigit).length
  | 0, _ => by simp [hexRun]
  | _ + 1, [] => by simp [hexRun]
  | n + 1, c :: t => by
    rw [hexRun, List.take_succ_cons, List.takeWhile_cons, isHexadecimal_eq]
    by_cases h : isHexDigit c
    · simp [h, hexRun_eq sc n t]
    · simp [h]

theorem hexRun_le' (sc : Bool) (n : Nat) (t : List UInt8) : hexRun sc n t ≤ n ∧ hexRun sc n t ≤ t.length := by
  rw [hexRun_eq]
  have := (List.takeWhile_sublist (l := t.take n) isHexDigit).length_le
  rw [List.length_take] at this; omega

/-- The digits of a group. -/
theorem p6_run (sc : Bool) (out : List UInt8) (cp : Option Nat) (tok : CStr) : ∀ (n : Nat) (t : List UInt8) (val seen : Nat), seen + n = 4 → val < 16 ^ seen →
    ∃ v, v < 16 ^ (seen + hexRun sc n t) ∧ pton6Loop out val seen cp tok t = pton6Loop out v (seen + hexRun sc n t) cp tok (t.drop (hexRun sc n t)) ∧
      (∀ c r, t.drop (hexRun sc n t) = c :: r → isHexDigit c = false ∨ seen + hexRun sc n t = 4)
  | 0, t, val, seen, hs, hv => ⟨val, hv, rfl, fun _ _ _ => .inr (by simp [hexRun]; omega)⟩
  | n + 1, [], val, seen, hs, hv => ⟨val, hv, rfl, fun _ _ h => by simp [hexRun] at h⟩
  | n + 1, c :: t, val, seen, hs, hv => by
    rw [hexRun, isHexadecimal_eq]
    cases hh : isHexDigit c with
    | false => exact ⟨val, hv, rfl, fun _ _ h => by injection h with h1 h2; subst h1; exact .inl hh⟩
    | true =>
      have hsome := hexDigitValue_eq c
      rw [hh, Option.isSome_iff_exists] at hsome
      obtain ⟨d, hd⟩ := hsome
      have hd16 := hexDigitValue_lt c d hd
      have hv1 : val * 16 + d < 16 ^ (seen + 1) := by rw [Nat.pow_succ]; omega
      have hv2 : 16 ^ (seen + 1) ≤ 16 ^ 4 := Nat.pow_le_pow_right (by omega) (by omega)
      obtain ⟨v, h1, h2, h3⟩ := p6_run sc out cp tok n t (val * 16 + d) (seen + 1) (by omega) hv1
      rw [if_pos rfl, ← Nat.add_assoc, Nat.add_right_comm]
      refine ⟨v, h1, ?_, h3⟩
      rw [p6_hex hd, if_neg (by omega), if_neg (by omega), h2, List.drop_succ_cons]

/-- No single colon at the end. -/
def NoTrail (t : List UInt8) : Prop := ∀ x c, t = x ++ [c, c!":"] → c = c!":"

theorem NoTrail.suffix {a t : List UInt8} (h : NoTrail (a ++ t)) : NoTrail t := fun x c hx => h (a ++ x) c (by rw [hx, List.append_assoc])

theorem NoTrail.drop {t : List UInt8} (h : NoTrail t) (n : Nat) : NoTrail (t.drop n) := by
  rw [← List.take_append_drop n t] at h; exact h.suffix

theorem colon_not_hex : hexDigitValue c!":" = none := by decide
theorem dot_not_hex : hexDigitValue c!"." = none := by decide
theorem hexDigit_cases (c : UInt8) : (isHexDigit c = true ∧ ∃ d, hexDigitValue c = some d) ∨ (isHexDigit c = false ∧ hexDigitValue c = none) := by
  have := hexDigitValue_eq c
  cases h : hexDigitValue c with
  | some d => rw [h] at this; exact .inl ⟨this.symm, d, rfl⟩
  | none => rw [h] at this; exact .inr ⟨this.symm, rfl⟩

theorem finish_some {out : List UInt8} {k : Nat} (h : out.length < 16) : (pton6Finish out (some k)).isSome = true := by
  simp only [pton6Finish]; rw [if_neg (by omega)]; rfl

theorem finish_plain (out : List UInt8) : (pton6Finish out none).isSome = decide (out.length = 16) := by
  simp only [pton6Finish]; by_cases h : out.length = 16 <;> simp [h]

theorem v6_eq (sc : Bool) (next : UInt8) (hn : next ≠ c!":" ∧ next ≠ c!".") : ∀ (fuel : Nat) (t out : List UInt8) (i : Nat) (seen : Bool) (cp : Option Nat), t.length < fuel → t ≠ [] →
    NoTrail t → i ≤ 7 → cp.isSome = seen → out.length = 2 * (if seen then i - 1 else i) → (seen = true → 0 < i) →
    v6Loop sc next fuel t i seen = .ok (pton6Loop out 0 0 cp t t).isSome
  | 0, _, _, _, _, _, h, _, _, _, _, _, _ => by omega
  | fuel + 1, t, out, i, seen, cp, hf, hne, htr, hi, hcp, hout, hpos => by
    rw [v6Loop, if_neg hne]
    by_cases h1 : t.getD 0 0 = c!":" ∧ ¬ seen
    · rw [if_pos h1]
      obtain ⟨hc, hs⟩ := h1
      have hs : seen = false := by simpa using hs
      subst hs
      simp only [Bool.false_eq_true, if_false] at hout
      cases t with
      | nil => exact absurd rfl hne
      | cons c t =>
        have hc : c = c!":" := hc
        subst hc
        cases cp with
        | some k => cases hcp
        | none =>
          have p1 : pton6Loop out 0 0 none (58 :: t) (58 :: t) = pton6Loop out 0 0 (some out.length) t t := by
            rw [p6_other colon_not_hex, if_pos rfl, if_pos rfl, if_neg (by simp)]
          rw [p1, List.tail_cons]
          by_cases h2 : t = []
          · rw [if_pos h2, h2, p6_nil, if_neg (by omega), finish_some (by omega)]
          rw [if_neg h2]
          by_cases h3 : i = 7
          · rw [if_pos h3, p6_full_gap _ _ _ _ _ _ (by omega) (.inl h2)]; rfl
          rw [if_neg h3]
          exact v6_eq sc next hn fuel t out (i + 1) true (some out.length) (by simp at hf; omega) h2 (htr.drop 1) (by omega) rfl (by simp; omega) (by omega)
    rw [if_neg h1]
    dsimp only
    obtain ⟨v, hv, hrun, hhead⟩ := p6_run sc out cp t 4 t 0 0 rfl (by omega)
    rw [Nat.zero_add] at hrun hhead
    have hjle := hexRun_le' sc 4 t
    generalize hj : hexRun sc 4 t = j at hrun hhead hjle
    by_cases h2 : j = 0
    · rw [if_pos h2]
      subst h2
      cases t with
      | nil => exact absurd rfl hne
      | cons c t =>
        have hnh : isHexDigit c = false := (hhead c t rfl).resolve_right (by omega)
        rcases hexDigit_cases c with h | ⟨_, h⟩
        · rw [hnh] at h; cases h.1
        rw [p6_other h]
        by_cases hc : c = c!":"
        · rw [if_pos hc, if_pos rfl]
          have hs : seen = true := by
            cases seen
            · exact absurd ⟨by rw [hc]; rfl, by simp⟩ h1
            · rfl
          rw [hs] at hcp
          rw [if_pos hcp]; rfl
        rw [if_neg hc]
        by_cases hd : c = c!"." ∧ out.length + 4 ≤ 16
        · rw [if_pos hd, hd.1]
          have : pton4 (46 :: t) = none := by
            have h5 := pton4_isSome (46 :: t)
            rw [p4_other (by decide), if_neg (by simp)] at h5
            simpa using h5
          rw [this]; rfl
        · rw [if_neg hd]; rfl
    rw [if_neg h2, hrun]
    cases hdrop : t.drop j with
    | nil =>
      have hjt : j = t.length := by
        have := congrArg List.length hdrop; simp at this; omega
      have hend : (pton6Loop out v j cp t []).isSome = decide (seen = true ∨ i = 7) := by
        rw [p6_nil, if_pos (by omega)]
        cases seen with
        | true =>
          cases cp with
          | none => cases hcp
          | some k =>
            simp only [if_true] at hout
            rw [if_neg (by omega), finish_some (by simp; omega)]; simp
        | false =>
          cases cp with
          | some k => cases hcp
          | none =>
            simp only [Bool.false_eq_true, if_false] at hout
            rw [if_neg (by omega), finish_plain, List.length_append, hout]
            by_cases h7 : i = 7
            · simp [h7]
            · simp [h7]; omega
      rw [hend]
      by_cases h3 : seen = true ∨ i = 7
      · rw [if_pos ⟨hjt, h3⟩, decide_eq_true h3]
      · rw [if_neg (by simp only [h3, and_false, not_false_eq_true]), if_neg (fun h => h3 (.inr h)), decide_eq_false h3, hjt, show rd t next t.length = .ok next by simp [rd], okb, if_pos hn.1, if_pos (.inl hn.2)]
    | cons c s =>
      have hjt : j < t.length := by
        have := congrArg List.length hdrop; simp at this; omega
      have hc := hhead c s hdrop
      rw [if_neg (by omega)]
      -- what inet_pton does with the byte behind the group
      have hhex : isHexDigit c = true → pton6Loop out v j cp t (c :: s) = none := by
        intro h
        rcases hexDigit_cases c with ⟨_, d, hd⟩ | h'
        · rw [p6_hex hd, if_pos (by rcases hc with hc | hc; · rw [h] at hc; cases hc
                                    · exact hc)]
        · rw [h] at h'; cases h'.1
      by_cases h7 : i = 7
      · rw [if_pos h7]
        rcases hexDigit_cases c with ⟨h, _⟩ | ⟨_, hh⟩
        · rw [hhex h]; rfl
        rw [p6_other hh]
        by_cases hcc : c = c!":"
        · rw [if_pos hcc, if_neg h2]
          by_cases hsn : s = []
          · rw [if_pos hsn]; rfl
          rw [if_neg hsn]
          split
          · rfl
          cases seen with
          | false =>
            simp only [Bool.false_eq_true, if_false] at hout
            rw [p6_full _ _ _ _ _ _ (by simp; omega) (.inr (.inl hsn))]; rfl
          | true =>
            simp only [if_true] at hout
            cases cp with
            | none => cases hcp
            | some k => rw [p6_full_gap _ _ _ _ _ _ (by simp; omega) (.inl hsn)]; rfl
        rw [if_neg hcc]
        by_cases hd : c = c!"." ∧ out.length + 4 ≤ 16
        · rw [if_pos hd]
          cases seen with
          | false => simp only [Bool.false_eq_true, if_false] at hout; omega
          | true =>
            simp only [if_true] at hout
            cases cp with
            | none => cases hcp
            | some k =>
              cases pton4 t with
              | none => rfl
              | some q => dsimp only; rw [finish_none (by simp; omega)]; rfl
        · rw [if_neg hd]; rfl
      rw [if_neg h7]
      have hrd : rd t next j = .ok c := by
        rw [rd, if_pos hjt]
        have : t[j]? = some c := by
          have := congrArg (fun l => l[0]?) hdrop
          simpa using this
        simp [List.getD_eq_getElem?_getD, this]
      rw [hrd, okb]
      by_cases hcc : c = c!":"
      · rw [if_neg (by simp [hcc])]
        subst hcc
        rw [p6_other colon_not_hex, if_pos rfl, if_neg h2]
        have hsn : s ≠ [] := by
          intro hs
          -- the group ends with a digit
          have h5 : t = t.take (j - 1) ++ [t.getD (j - 1) 0, c!":"] := by
            have hlt : j - 1 < t.length := by omega
            have ht : t.take j = t.take (j - 1) ++ [t.getD (j - 1) 0] := by
              obtain ⟨k, rfl⟩ : ∃ k, j = k + 1 := ⟨j - 1, by omega⟩
              have hk : k < t.length := by omega
              rw [List.take_add_one]
              simp [List.getD_eq_getElem?_getD, hk]
            conv_lhs => rw [← List.take_append_drop j t, hdrop, hs, ht]
            simp
          have h6 := htr _ _ h5
          have h7 : isHexDigit (t.getD (j - 1) 0) = true := by
            have h8 : t.getD (j - 1) 0 ∈ (t.take 4).takeWhile isHexDigit := by
              have h9 : (t.take 4).takeWhile isHexDigit = (t.take 4).take j := by
                have h10 : (t.take 4).takeWhile isHexDigit = (t.take 4).take ((t.take 4).takeWhile isHexDigit).length := by
                  have h11 := List.takeWhile_prefix isHexDigit (l := t.take 4)
                  exact List.prefix_iff_eq_take.1 h11
                rw [h10, ← hexRun_eq sc, hj]
              rw [h9, List.take_take, show min j 4 = j by omega]
              have h12 : j - 1 < (t.take j).length := by rw [List.length_take]; omega
              have h13 : t.getD (j - 1) 0 = (t.take j)[j - 1] := by
                have : j - 1 < t.length := by omega
                simp [List.getD_eq_getElem?_getD, this]
              rw [h13]; exact List.getElem_mem h12
            exact List.mem_takeWhile_imp h8
          rw [h6] at h7; cases h7
        rw [if_neg hsn, if_neg (by split at hout <;> omega)]
        have hds : t.drop (j + 1) = s := by
          rw [← List.drop_drop, hdrop]; rfl
        rw [hds]
        refine v6_eq sc next hn fuel s _ (i + 1) seen cp ?_ hsn ?_ (by omega) hcp ?_ (by omega)
        · rw [← hds, List.length_drop]; omega
        · rw [← hds]; exact htr.drop _
        · rw [List.length_append, hout]
          cases seen
          · simp; omega
          · have := hpos rfl; simp; omega
      · rw [if_pos hcc]
        rcases hexDigit_cases c with ⟨h, _⟩ | ⟨_, hh⟩
        · rw [hhex h, if_pos (.inl (by intro h'; subst h'; cases h))]; rfl
        rw [p6_other hh, if_neg hcc]
        by_cases hd : c = c!"."
        · by_cases h6 : i < 6 ∧ ¬ seen
          · rw [if_pos (.inr h6)]
            have hs : seen = false := by simpa using h6.2
            subst hs
            simp only [Bool.false_eq_true, if_false] at hout
            cases cp with
            | some k => cases hcp
            | none =>
              rw [if_pos ⟨hd, by omega⟩]
              cases pton4 t with
              | none => rfl
              | some q =>
                dsimp only
                rw [finish_plain, decide_eq_false (by simp; omega)]
          · rw [if_neg (by rintro (h | h); exact h hd; exact h6 h), ipv4_eq]
            rw [if_pos ⟨hd, by split at hout <;> omega⟩]
            dsimp only
            cases pton4 t with
            | none => rfl
            | some q =>
              dsimp only
              cases cp with
              | none =>
                have hs : seen = false := hcp.symm
                subst hs
                simp only [Bool.false_eq_true, if_false] at hout
                rw [finish_plain, decide_eq_true]
                · rfl
                · simp at h6; simp; omega
              | some k =>
                have hs : seen = true := hcp.symm
                subst hs
                simp only [if_true] at hout
                rw [finish_some (by simp; omega)]; rfl
        · rw [if_pos (.inl hd), if_neg (fun h => hd h.1)]; rfl

theorem p4_chars : ∀ (t done : List UInt8) (cur : Nat) (saw : Bool), (pton4Loop done cur saw t).isSome = true → ∀ c ∈ t, isDigit c = true ∨ c = c!"."
  | [], _, _, _, _, c, hc => by cases hc
  | a :: t, done, cur, saw, h, c, hc => by
    cases ha : isDigit a with
    | true =>
      rw [p4_digit ha] at h
      split at h
      · cases h
      split at h
      · cases h
      rcases List.mem_cons.1 hc with rfl | hc
      · exact .inl ha
      · exact p4_chars t _ _ _ h c hc
    | false =>
      rw [p4_other ha] at h
      split at h
      · rename_i h1
        split at h
        · cases h
        rcases List.mem_cons.1 hc with rfl | hc
        · exact .inr h1.1
        · exact p4_chars t _ _ _ h c hc
      · cases h

theorem pton4_chars {t : List UInt8} (h : (pton4 t).isSome = true) : ∀ c ∈ t, isDigit c = true ∨ c = c!"." := by
  rw [pton4_isSome] at h; exact p4_chars t _ _ _ h

/-- A single colon at the end is refused. -/
theorem p6_trail : ∀ (t out : List UInt8) (val seen : Nat) (cp : Option Nat) (tok : CStr) (x : List UInt8) (c : UInt8), t = x ++ [c, c!":"] → c ≠ c!":" → c!":" ∈ tok →
    pton6Loop out val seen cp tok t = none
  | [], _, _, _, _, _, x, c, h, _, _ => by simp at h
  | a :: t, out, val, seen, cp, tok, x, c, h, hc, htok => by
    have hlast : a = c ∧ t = [c!":"] ∧ x = [] ∨ ∃ y, x = a :: y ∧ t = y ++ [c, c!":"] := by
      cases x with
      | nil => injection h with h1 h2; exact .inl ⟨h1, h2, rfl⟩
      | cons b y => injection h with h1 h2; exact .inr ⟨y, by rw [h1], h2⟩
    have hmem : c!":" ∈ t := by
      rcases hlast with ⟨_, h, _⟩ | ⟨y, _, h⟩ <;> rw [h] <;> simp
    cases hd : hexDigitValue a with
    | some d =>
      rw [p6_hex hd]
      split
      · rfl
      split
      · rfl
      rcases hlast with ⟨h1, h2, h3⟩ | ⟨y, h1, h2⟩
      · rw [h2, p6_other colon_not_hex, if_pos rfl, if_neg (by omega), if_pos rfl]
      · exact p6_trail t _ _ _ _ _ y c h2 hc htok
    | none =>
      rw [p6_other hd]
      by_cases h1 : a = c!":"
      · rw [if_pos h1]
        rcases hlast with ⟨h2, _⟩ | ⟨y, _, h2⟩
        · exact absurd (h2 ▸ h1) hc
        by_cases h3 : seen = 0
        · rw [if_pos h3]
          split
          · rfl
          · exact p6_trail t _ _ _ _ _ y c h2 hc hmem
        rw [if_neg h3]
        split
        · rfl
        split
        · rfl
        · exact p6_trail t _ _ _ _ _ y c h2 hc hmem
      rw [if_neg h1]
      split
      · cases hp : pton4 tok with
        | none => rfl
        | some q =>
          rcases pton4_chars (t := tok) (by rw [hp]; rfl) _ htok with h | h <;> cases h
      · rfl

theorem p6_length : ∀ (t out : List UInt8) (val seen : Nat) (cp : Option Nat) (tok l : CStr), (∀ k, cp = some k → k ≤ out.length) → pton6Loop out val seen cp tok t = some l → l.length = 16 := by
  have fin : ∀ (out : List UInt8) (cp : Option Nat) (l : List UInt8), (∀ k, cp = some k → k ≤ out.length) → pton6Finish out cp = some l → l.length = 16 := by
    intro out cp l hk h
    cases cp with
    | none =>
      simp only [pton6Finish] at h
      split at h
      · cases h; assumption
      · cases h
    | some k =>
      simp only [pton6Finish] at h
      split at h
      · cases h
      · cases h
        have := hk k rfl
        simp; omega
  intro t
  induction t with
  | nil =>
    intro out val seen cp tok l hk h
    rw [p6_nil] at h
    split at h
    · split at h
      · cases h
      · exact fin _ _ _ (fun k hc => by have := hk k hc; simp; omega) h
    · exact fin _ _ _ hk h
  | cons a t ih =>
    intro out val seen cp tok l hk h
    cases hd : hexDigitValue a with
    | some d =>
      rw [p6_hex hd] at h
      split at h
      · cases h
      split at h
      · cases h
      exact ih _ _ _ _ _ _ hk h
    | none =>
      rw [p6_other hd] at h
      split at h
      · split at h
        · split at h
          · cases h
          · exact ih _ _ _ _ _ _ (fun k hc => by cases hc; omega) h
        split at h
        · cases h
        split at h
        · cases h
        · exact ih _ _ _ _ _ _ (fun k hc => by have := hk k hc; simp; omega) h
      split at h
      · split at h
        · exact fin _ _ _ (fun k hc => by have := hk k hc; simp; omega) h
        · cases h
      · cases h

/-- Where the loop of `inet_pton` starts. -/
def p6Start (s : CStr) : Option (List UInt8) := match s with
  | [] => none
  | 58 :: 58 :: t => pton6Loop [] 0 0 none (58 :: t) (58 :: t)
  | 58 :: _ => none
  | s => pton6Loop [] 0 0 none s s

theorem p6Start_colon (t : CStr) : p6Start (58 :: 58 :: t) = pton6Loop [] 0 0 none (58 :: t) (58 :: t) := rfl
theorem p6Start_single {c : UInt8} (t : CStr) (h : c ≠ 58) : p6Start (58 :: c :: t) = none := by
  rw [p6Start]
  · intro t' h'; injection h' with h1 h2; exact h h1
theorem p6Start_other {c : UInt8} (t : CStr) (h : c ≠ 58) : p6Start (c :: t) = pton6Loop [] 0 0 none (c :: t) (c :: t) := by
  rw [p6Start]
  · exact fun h' => by cases h'
  · intro t' h'; injection h' with h1 h2; exact h h1
  · intro t' h'; injection h' with h1 h2; exact h h1

theorem pton6_isSome (s : CStr) : (pton6 s).isSome = (p6Start s).isSome := by
  have : pton6 s = (p6Start s).bind fun l => if h : l.length = 16 then some ⟨l.toArray, by simpa using h⟩ else none := rfl
  rw [this]
  cases h : p6Start s with
  | none => rfl
  | some l =>
    have hl : l.length = 16 := by
      cases s with
      | nil => cases h
      | cons c s =>
        by_cases hc : c = 58
        · subst hc
          cases s with
          | nil => cases h
          | cons d s =>
            by_cases hd : d = 58
            · subst hd; exact p6_length _ _ _ _ _ _ _ (fun k hk => by cases hk) h
            · rw [p6Start_single s hd] at h; cases h
        · rw [p6Start_other s hc] at h
          exact p6_length _ _ _ _ _ _ _ (fun k hk => by cases hk) h
    simp [hl]

theorem snoc_getD (x : List UInt8) (c d : UInt8) : (x ++ [c, d]).getD ((x ++ [c, d]).length - 1) 0 = d ∧ (x ++ [c, d]).getD ((x ++ [c, d]).length - 2) 0 = c := by
  simp [List.getD_eq_getElem?_getD]

theorem two_last {t : List UInt8} (h : 2 ≤ t.length) : ∃ x c d, t = x ++ [c, d] := by
  refine ⟨t.take (t.length - 2), t.getD (t.length - 2) 0, t.getD (t.length - 1) 0, ?_⟩
  conv_lhs => rw [← List.take_append_drop (t.length - 2) t]
  congr 1
  have h1 : t.length - 2 < t.length := by omega
  have h2 : t.length - 1 < t.length := by omega
  rw [List.drop_eq_getElem_cons h1, List.drop_eq_getElem_cons (by omega), List.drop_eq_nil_of_le (by omega)]
  simp only [List.getD_eq_getElem?_getD, h1, h2, List.getElem?_eq_getElem, Option.getD_some]
  congr 3
  omega

/-- The highlighter and `inet_pton` agree on IPv6 addresses that are not followed by a colon or a dot. -/
theorem ipv6_eq (sc : Bool) (t : Text) (hn : t.next ≠ c!":" ∧ t.next ≠ c!".") : isValidIpv6 sc t = .ok (pton6 t.s).isSome := by
  rw [isValidIpv6, pton6_isSome]
  generalize t.s = s
  by_cases h1 : s.length < 2
  · rw [if_pos h1]
    match s, h1 with
    | [], _ => rfl
    | [c], _ =>
      have : ∀ c, (p6Start [c]).isSome = false := by apply forall_u8; decide +kernel
      rw [this]
  rw [if_neg h1]
  obtain ⟨x, y, z, hxyz⟩ := two_last (t := s) (by omega)
  have hg := snoc_getD x y z
  rw [← hxyz] at hg
  have hab : ∃ a b s', s = a :: b :: s' := by
    match s, h1 with
    | a :: b :: s', _ => exact ⟨a, b, s', rfl⟩
    | [_], h1 => simp at h1
    | [], h1 => simp at h1
  clear h1
  obtain ⟨a, b, s, rfl⟩ := hab
  · simp only [List.getD_cons_zero, List.getD_cons_succ]
    by_cases h2 : a = c!":" ∧ b ≠ c!":"
    · rw [if_pos h2, h2.1, p6Start_single _ h2.2]; rfl
    rw [if_neg h2, hg.1, hg.2]
    have hstart : p6Start (a :: b :: s) = (if a = c!":" then pton6Loop [] 0 0 none (b :: s) (b :: s) else pton6Loop [] 0 0 none (a :: b :: s) (a :: b :: s)) := by
      by_cases ha : a = c!":"
      · rw [if_pos ha]
        have hb : b = c!":" := by by_contra hb; exact h2 ⟨ha, hb⟩
        subst ha; subst hb; exact p6Start_colon s
      · rw [if_neg ha, p6Start_other _ ha]
    rw [hstart]
    by_cases h3 : z = c!":" ∧ y ≠ c!":"
    · rw [if_pos h3]
      rw [h3.1] at hxyz
      by_cases ha : a = c!":"
      · rw [if_pos ha]
        have hx : x ≠ [] := by
          rintro rfl
          injection hxyz with e1 e2
          exact h3.2 (e1 ▸ ha)
        cases x with
        | nil => exact absurd rfl hx
        | cons x0 x =>
          injection hxyz with e1 e2
          rw [p6_trail _ _ _ _ _ _ x y e2 h3.2 (by rw [e2]; simp)]; rfl
      · rw [if_neg ha, p6_trail _ _ _ _ _ _ x y hxyz h3.2 (by rw [hxyz]; simp)]; rfl
    rw [if_neg h3]
    have htr : NoTrail (a :: b :: s) := by
      intro x' c' hx'
      rw [hxyz] at hx'
      have := List.append_inj' hx' rfl
      injection this.2 with e1 e2
      injection e2 with e2 _
      by_contra hc
      exact h3 ⟨e2, e1 ▸ hc⟩
    by_cases ha : a = c!":"
    · simp only [if_pos ha, List.tail_cons]
      exact v6_eq sc t.next hn _ (b :: s) [] 0 false none (by simp) (by simp) (htr.drop 1) (by omega) rfl rfl (by simp)
    · simp only [if_neg ha]
      exact v6_eq sc t.next hn _ (a :: b :: s) [] 0 false none (by simp) (by simp) htr (by omega) rfl rfl (by simp)

/-! Keys -/

theorem alpha_index : ∀ c ∈ b64Alphabet, ∃ n : Fin 64, c = b64Char n := by decide +kernel
theorem alpha_mem : ∀ n : Fin 64, b64Char n ∈ b64Alphabet := by decide +kernel
theorem last_index : ∀ c ∈ b!"AEIMQUYcgkosw480", ∃ n : Fin 16, c = b64Char (4 * n) := by decide +kernel
theorem last_mem : ∀ n : Fin 16, b64Char (4 * n) ∈ b!"AEIMQUYcgkosw480" := by decide +kernel

theorem nat_byte (n : Nat) (h : n < 256) : (UInt8.ofNat n).toNat = n := by simp; omega

/-- Whole groups of text are whole groups of bytes. -/
theorem groups_bytes : ∀ (n : Nat) (t : List UInt8), t.length = 4 * n → (∀ c ∈ t, c ∈ b64Alphabet) → ∃ l : List UInt8, l.length = 3 * n ∧ ∀ r, rfc4648 (l ++ r) = t ++ rfc4648 r
  | 0, t, h, _ => ⟨[], rfl, fun r => by rw [List.length_eq_zero_iff.1 (by omega : t.length = 0)]; rfl⟩
  | n + 1, t, h, ha => by
    match t, h with
    | c0 :: c1 :: c2 :: c3 :: t, h =>
      obtain ⟨l, hl, hr⟩ := groups_bytes n t (by simp at h; omega) (fun c hc => ha c (by simp [hc]))
      obtain ⟨n0, rfl⟩ := alpha_index c0 (ha c0 (by simp))
      obtain ⟨n1, rfl⟩ := alpha_index c1 (ha c1 (by simp))
      obtain ⟨n2, rfl⟩ := alpha_index c2 (ha c2 (by simp))
      obtain ⟨n3, rfl⟩ := alpha_index c3 (ha c3 (by simp))
      have h0 := n0.isLt; have h1 := n1.isLt; have h2 := n2.isLt; have h3 := n3.isLt
      refine ⟨UInt8.ofNat (n0 * 4 + n1 / 16) :: UInt8.ofNat (n1 % 16 * 16 + n2 / 4) :: UInt8.ofNat (n2 % 4 * 64 + n3) :: l, by simp [hl]; omega, fun r => ?_⟩
      simp only [List.cons_append, rfc4648, hr]
      rw [nat_byte _ (by omega), nat_byte _ (by omega), nat_byte _ (by omega)]
      congr 2
      · omega
      congr 2
      · omega
      congr 2
      · omega
      congr 2
      omega

theorem bytes_groups : ∀ (n : Nat) (l : List UInt8), l.length = 3 * n → ∃ t : List UInt8, t.length = 4 * n ∧ (∀ c ∈ t, c ∈ b64Alphabet) ∧ ∀ r, rfc4648 (l ++ r) = t ++ rfc4648 r
  | 0, l, h => ⟨[], rfl, by simp, fun r => by rw [List.length_eq_zero_iff.1 (by omega : l.length = 0)]; rfl⟩
  | n + 1, l, h => by
    match l, h with
    | a :: b :: c :: l, h =>
      obtain ⟨t, ht, hm, hr⟩ := bytes_groups n l (by simp at h; omega)
      have ha := a.toNat_lt; have hb := b.toNat_lt; have hc := c.toNat_lt
      refine ⟨_ :: _ :: _ :: _ :: t, by simp [ht]; omega, ?_, fun r => by simp only [List.cons_append, rfc4648, hr]; rfl⟩
      intro x hx
      simp only [List.mem_cons] at hx
      rcases hx with rfl | rfl | rfl | rfl | hx
      · exact alpha_mem ⟨_, by omega⟩
      · exact alpha_mem ⟨_, by omega⟩
      · exact alpha_mem ⟨_, by omega⟩
      · exact alpha_mem ⟨_, by omega⟩
      · exact hm x hx

theorem key_text (v : List UInt8) : KeyText v ↔ ∃ t x y z, v = t ++ [x, y, z, c!"="] ∧ t.length = 40 ∧ (∀ c ∈ t ++ [x, y], c ∈ b64Alphabet) ∧ z ∈ b!"AEIMQUYcgkosw480" := by
  constructor
  · rintro ⟨k, rfl⟩
    obtain ⟨t, ht, hm, hr⟩ := bytes_groups 10 (k.toList.take 30) (by simp)
    have hd : ∃ a b, k.toList.drop 30 = [a, b] := by
      have : (k.toList.drop 30).length = 2 := by simp
      match k.toList.drop 30, this with
      | [a, b], _ => exact ⟨a, b, rfl⟩
    obtain ⟨a, b, hab⟩ := hd
    have := hr (k.toList.drop 30)
    rw [List.take_append_drop, hab] at this
    have ha := a.toNat_lt; have hb := b.toNat_lt
    refine ⟨t, _, _, _, this, ht, ?_, ?_⟩
    · intro c hc
      rcases List.mem_append.1 hc with hc | hc
      · exact hm c hc
      · simp only [List.mem_cons, List.not_mem_nil, or_false] at hc
        rcases hc with rfl | rfl
        · exact alpha_mem ⟨_, by omega⟩
        · exact alpha_mem ⟨_, by omega⟩
    · have := last_mem ⟨(a.toNat * 256 + b.toNat) % 16, by omega⟩
      rwa [show 4 * ((⟨(a.toNat * 256 + b.toNat) % 16, by omega⟩ : Fin 16) : Nat) = (a.toNat * 256 + b.toNat) * 4 % 64 by dsimp only; omega] at this
  · rintro ⟨t, x, y, z, rfl, ht, hm, hz⟩
    obtain ⟨l, hl, hr⟩ := groups_bytes 10 t ht (fun c hc => hm c (by simp [hc]))
    obtain ⟨n0, rfl⟩ := alpha_index x (hm x (by simp))
    obtain ⟨n1, rfl⟩ := alpha_index y (hm y (by simp))
    obtain ⟨n2, rfl⟩ := last_index z hz
    have h0 := n0.isLt; have h1 := n1.isLt; have h2 := n2.isLt
    refine ⟨⟨(l ++ [UInt8.ofNat (n0 * 4 + n1 / 16), UInt8.ofNat (n1 % 16 * 16 + n2)]).toArray, by simp [hl]⟩, ?_⟩
    rw [show (Vector.mk (l ++ [UInt8.ofNat (n0 * 4 + n1 / 16), UInt8.ofNat (n1 % 16 * 16 + n2)]).toArray (by simp [hl]) : Key).toList = l ++ [UInt8.ofNat (n0 * 4 + n1 / 16), UInt8.ofNat (n1 % 16 * 16 + n2)] from by simp, hr]
    simp only [rfc4648]
    rw [nat_byte _ (by omega), nat_byte _ (by omega)]
    congr 2
    · congr 1; omega
    congr 2
    · omega
    congr 2
    omega

theorem alpha_class : ∀ c, (isDigit c || isAlpha c || decide (c = c!"/") || decide (c = c!"+")) = b64Alphabet.contains c := by apply forall_u8; decide +kernel

theorem key_eq (sc : Bool) (t : Text) : isValidKey sc t = true ↔ KeyText t.s := by
  rw [key_text, isValidKey]
  generalize t.s = s
  have hcl : (fun c => isDecimal sc c || isAlphabet sc c || decide (c = c!"/") || decide (c = c!"+")) = b64Alphabet.contains := by
    funext c; rw [isDecimal_eq, isAlphabet_eq]; exact alpha_class c
  rw [hcl]
  constructor
  · intro h
    split at h
    · cases h
    rename_i h1
    split at h
    · cases h
    rename_i h2
    simp only [not_or, Decidable.not_not] at h1 h2
    obtain ⟨hl, h43⟩ := h1
    refine ⟨s.take 40, s.getD 40 0, s.getD 41 0, s.getD 42 0, ?_, by simp; omega, ?_, by simpa using h⟩
    · conv_lhs => rw [← List.take_append_drop 40 s]
      congr 1
      rw [List.drop_eq_getElem_cons (by omega), List.drop_eq_getElem_cons (by omega), List.drop_eq_getElem_cons (by omega), List.drop_eq_getElem_cons (by omega), List.drop_eq_nil_of_le (by omega), ← h43]
      simp only [List.getD_eq_getElem?_getD, List.getElem?_eq_getElem (show 40 < s.length by omega), List.getElem?_eq_getElem (show 41 < s.length by omega),
        List.getElem?_eq_getElem (show 42 < s.length by omega), List.getElem?_eq_getElem (show 43 < s.length by omega), Option.getD_some]
    · intro c hc
      have h3 : c ∈ s.take 42 := by
        have e : s.take 42 = s.take 40 ++ [s.getD 40 0, s.getD 41 0] := by
          rw [show s.take 42 = s.take (41 + 1) from rfl, List.take_add_one, show s.take 41 = s.take (40 + 1) from rfl, List.take_add_one, List.append_assoc]
          rw [List.getElem?_eq_getElem (show 40 < s.length by omega), List.getElem?_eq_getElem (show 41 < s.length by omega), List.getD_eq_getElem?_getD, List.getD_eq_getElem?_getD,
            List.getElem?_eq_getElem (show 40 < s.length by omega), List.getElem?_eq_getElem (show 41 < s.length by omega)]
          rfl
        rw [e]; exact hc
      have h4 := List.all_eq_true.1 h2 c h3
      simpa using h4
  · rintro ⟨t, x, y, z, rfl, ht, hm, hz⟩
    have e1 : (t ++ [x, y, z, c!"="]).take 42 = t ++ [x, y] := by
      rw [List.take_append, ht, List.take_of_length_le (by omega)]; rfl
    have e2 : (t ++ [x, y, z, c!"="]).getD 43 0 = c!"=" := by simp [List.getD_eq_getElem?_getD, ht]
    have e3 : (t ++ [x, y, z, c!"="]).getD 42 0 = z := by simp [List.getD_eq_getElem?_getD, ht]
    rw [if_neg (by rw [e2]; simp [ht]), e1, e3, if_neg]
    · simpa using hz
    · simp only [Decidable.not_not]
      rw [List.all_eq_true]
      intro c hc
      simpa using hm c hc

/-! Numbers -/

theorem decNum_eq (sc : Bool) : ∀ (t : List UInt8) (v : Nat), decNum sc t v = if ∀ c ∈ t, isDigit c = true then some (t.foldl (fun n c => 10 * n + (c.toNat - 48)) v) else none
  | [], v => by simp [decNum]
  | c :: t, v => by
    rw [decNum, isDecimal_eq]
    cases h : isDigit c with
    | true => rw [if_pos rfl, decNum_eq sc t]; simp [h]
    | false => rw [if_neg (by simp), if_neg]; intro h2; have := h2 c (by simp); rw [h] at this; cases this

theorem hexByte (sc : Bool) : ∀ c, (if (chI sc c - 48) % 2 ^ 32 < 10 then some (c.toNat - 48) else if (or32 sc c - 97) % 2 ^ 32 < 6 then some ((c ||| 32).toNat - 97 + 10) else none) =
    if isHexDigit c then some (hexDigitVal c) else none := by cases sc <;> (apply forall_u8; decide +kernel)

theorem hexNum_eq (sc : Bool) : ∀ (t : List UInt8) (v : Nat), hexNum sc t v = if ∀ c ∈ t, isHexDigit c = true then some (t.foldl (fun n c => 16 * n + hexDigitVal c) v) else none
  | [], v => by simp [hexNum]
  | c :: t, v => by
    have hb := hexByte sc c
    have ih := hexNum_eq sc t
    rw [hexNum]
    by_cases h1 : (chI sc c - 48) % 2 ^ 32 < 10
    · rw [if_pos h1] at hb ⊢
      cases h : isHexDigit c with
      | true => rw [h, if_pos rfl] at hb; injection hb with hb; rw [ih, hb]; simp [h]
      | false => rw [h] at hb; cases hb
    rw [if_neg h1] at hb ⊢
    by_cases h2 : (or32 sc c - 97) % 2 ^ 32 < 6
    · rw [if_pos h2] at hb ⊢
      cases h : isHexDigit c with
      | true => rw [h, if_pos rfl] at hb; injection hb with hb; rw [Nat.add_assoc, ih, hb]; simp [h]
      | false => rw [h] at hb; cases hb
    · rw [if_neg h2] at hb ⊢
      cases h : isHexDigit c with
      | true => rw [h] at hb; cases hb
      | false => rw [if_neg]; intro h3; have := h3 c (by simp); rw [h] at this; cases this

theorem number_eq (sc : Bool) (t : Text) (lo hi : Nat) : isValidUint sc t false lo hi = true ↔ Number lo hi t.s := by
  rw [isValidUint, Number]
  by_cases h1 : t.s.length > 10 ∨ t.s.length = 0
  · rw [if_pos h1]
    constructor
    · intro h; cases h
    · rintro ⟨h2, n, h3, _⟩
      rcases h1 with h1 | h1
      · omega
      · exact absurd (List.length_eq_zero_iff.1 h1) h3.1
  rw [if_neg h1, if_neg (by simp), decNum_eq]
  have hne : t.s ≠ [] := by intro h; rw [h] at h1; simp at h1
  by_cases h2 : ∀ c ∈ t.s, isDigit c = true
  · rw [if_pos h2]
    dsimp only
    rw [decide_eq_true_eq]
    constructor
    · rintro ⟨h3, h4⟩; exact ⟨by omega, _, ⟨hne, h2, rfl⟩, h4, h3⟩
    · rintro ⟨_, n, ⟨_, _, rfl⟩, h4, h3⟩; exact ⟨h3, h4⟩
  · rw [if_neg h2]
    constructor
    · intro h; cases h
    · rintro ⟨_, n, ⟨_, h, _⟩, _⟩; exact absurd h h2

theorem hex_bound : ∀ c, hexDigitVal c ≤ 15 ∨ isHexDigit c = false := by apply forall_u8; decide +kernel

theorem hexNum_bound : ∀ (t : List UInt8) (v n : Nat), (∀ c ∈ t, isHexDigit c = true) → v < 16 ^ n → t.foldl (fun n c => 16 * n + hexDigitVal c) v < 16 ^ (n + t.length)
  | [], v, n, _, h => by simpa using h
  | c :: t, v, n, hc, h => by
    have hb : hexDigitVal c ≤ 15 := (hex_bound c).resolve_right (by rw [hc c (by simp)]; simp)
    have := hexNum_bound t (16 * v + hexDigitVal c) (n + 1) (fun x hx => hc x (by simp [hx])) (by rw [Nat.pow_succ]; omega)
    rw [List.foldl_cons, List.length_cons, show n + (t.length + 1) = n + 1 + t.length by omega]; exact this

theorem mark_eq (sc : Bool) (t : Text) : isValidFwmark sc t = true ↔ Mark t.s := by
  have hs : isSame t b!"off" = true ↔ t.s = b!"off" := by
    rw [isSame, decide_eq_true_eq]
    constructor
    · exact fun h => h.2
    · intro h; exact ⟨by rw [h], h⟩
  rw [isValidFwmark, Bool.or_eq_true, hs, Mark]
  apply or_congr Iff.rfl
  by_cases hx : t.s.length > 2 ∧ t.s.getD 0 0 = c!"0" ∧ t.s.getD 1 0 = c!"x"
  · -- hexadecimal
    obtain ⟨hlen, h0, h1⟩ := hx
    obtain ⟨r, hr⟩ : ∃ r, t.s = b!"0x" ++ r := by
      match hts : t.s, hlen with
      | a :: b :: r, _ =>
        rw [hts] at h0 h1
        have h0 : a = c!"0" := h0
        have h1 : b = c!"x" := h1
        exact ⟨r, by rw [h0, h1]; rfl⟩
    have hrne : r ≠ [] := by intro h; rw [hr, h] at hlen; simp at hlen
    have hnd : ¬ Number 0 4294967295 t.s := by
      rintro ⟨_, n, ⟨_, h, _⟩, _⟩
      have := h c!"x" (by rw [hr]; simp)
      cases this
    rw [isValidUint]
    by_cases hl : t.s.length > 10 ∨ t.s.length = 0
    · rw [if_pos hl]
      constructor
      · intro h; cases h
      · rintro (h | ⟨h, _⟩)
        · exact absurd h hnd
        · omega
    rw [if_neg hl, if_pos ⟨rfl, hlen, h0, h1⟩, hr, show (b!"0x" ++ r).drop 2 = r from rfl, hexNum_eq]
    by_cases hh : ∀ c ∈ r, isHexDigit c = true
    · rw [if_pos hh]
      dsimp only
      have hb := hexNum_bound r 0 0 hh (by decide)
      have hrl : r.length ≤ 8 := by rw [hr] at hl; simp at hl; omega
      have : 16 ^ (0 + r.length) ≤ 16 ^ 8 := Nat.pow_le_pow_right (by omega) (by omega)
      rw [decide_eq_true_eq]
      constructor
      · intro _; exact .inr ⟨by rw [hr] at hl; omega, r, _, rfl, hrne, hh, rfl⟩
      · intro _; exact ⟨by omega, by omega⟩
    · rw [if_neg hh]
      constructor
      · intro h; cases h
      · rintro (h | ⟨_, h, n, he, _, hh', _⟩)
        · rw [hr] at hnd; exact absurd h hnd
        · have : r = h := List.append_cancel_left he
          subst this; exact absurd hh' hh
  · have hnh : ¬ HexNumber t.s := by
      rintro ⟨_, h, n, he, hne, _⟩
      apply hx
      rw [he]
      refine ⟨?_, rfl, rfl⟩
      cases h with
      | nil => exact absurd rfl hne
      | cons a h => simp
    rw [show isValidUint sc t true 0 4294967295 = isValidUint sc t false 0 4294967295 by
      rw [isValidUint, isValidUint, if_neg (c := (true = true ∧ _)) (by simpa using hx), if_neg (c := (false = true ∧ _)) (by simp)], number_eq]
    constructor
    · exact .inl
    · rintro (h | h)
      · exact h
      · exact absurd h hnh

theorem keepalive_eq (sc : Bool) (t : Text) : isValidKeepalive sc t = true ↔ Keepalive t.s := by
  have hs : isSame t b!"off" = true ↔ t.s = b!"off" := by
    rw [isSame, decide_eq_true_eq]
    constructor
    · exact fun h => h.2
    · intro h; exact ⟨by rw [h], h⟩
  rw [isValidKeepalive, Bool.or_eq_true, hs, number_eq, Keepalive]

/-! Names -/

theorem hostLoop_eq (sc : Bool) : ∀ (t : List UInt8) (d p : Nat), hostLoop sc t d p =
    if ∀ c ∈ t, isAlpha c = true ∨ isDigit c = true ∨ c = c!"-" ∨ c = c!"." then some (d + t.countP isDigit, p + t.count c!".") else none
  | [], d, p => by simp [hostLoop]
  | c :: t, d, p => by
    rw [hostLoop, isDecimal_eq, isAlphabet_eq]
    have hx : (∀ x ∈ c :: t, isAlpha x = true ∨ isDigit x = true ∨ x = c!"-" ∨ x = c!".") ↔ (isAlpha c = true ∨ isDigit c = true ∨ c = c!"-" ∨ c = c!".") ∧ ∀ x ∈ t, isAlpha x = true ∨ isDigit x = true ∨ x = c!"-" ∨ x = c!"." := by simp
    by_cases h1 : isDigit c = true
    · have hc : c ≠ c!"." := by intro h; rw [h] at h1; cases h1
      rw [if_pos h1, hostLoop_eq sc t, List.countP_cons, if_pos h1, List.count_cons_of_ne hc]
      simp only [hx, h1, true_or, or_true, true_and]
      congr 3
      omega
    rw [if_neg h1]
    by_cases h2 : c = c!"."
    · rw [if_pos h2, hostLoop_eq sc t, List.countP_cons, if_neg h1, h2, List.count_cons_self]
      rw [h2] at hx
      simp only [hx, or_true, true_and]
      congr 3
      omega
    rw [if_neg h2]
    by_cases h3 : ¬ isAlpha c = true ∧ c ≠ c!"-"
    · rw [if_pos h3, if_neg]
      intro h
      rcases (hx.1 h).1 with h | h | h | h
      · exact h3.1 h
      · exact h1 h
      · exact h3.2 h
      · exact h2 h
    · rw [if_neg h3, hostLoop_eq sc t, List.countP_cons, if_neg h1, List.count_cons_of_ne h2]
      have h4 : isAlpha c = true ∨ isDigit c = true ∨ c = c!"-" ∨ c = c!"." := by
        by_cases ha : isAlpha c = true
        · exact .inl ha
        · exact .inr (.inr (.inl (by by_contra hb; exact h3 ⟨ha, hb⟩)))
      simp only [hx, h4, true_and]
      rfl

theorem host_count : ∀ (t : List UInt8), t.countP isDigit + t.count c!"." + t.countP (fun c => !(isDigit c) && !(decide (c = c!"."))) = t.length
  | [] => rfl
  | c :: t => by
    have ih := host_count t
    rw [List.countP_cons, List.countP_cons, List.length_cons, List.count_cons]
    by_cases h1 : isDigit c = true
    · have hc : c ≠ c!"." := by intro h; rw [h] at h1; cases h1
      simp [h1, hc]; omega
    · by_cases h2 : c = c!"."
      · simp [h2]; rw [show isDigit 46 = false from rfl]; simp; omega
      · simp [h1, h2]; omega

theorem head_getD {t : List UInt8} (h : t ≠ []) : t.head? = some (t.getD 0 0) := by
  cases t with
  | nil => exact absurd rfl h
  | cons a t => rfl

theorem last_getD {t : List UInt8} (h : t ≠ []) : t.getLast? = some (t.getD (t.length - 1) 0) := by
  have : t.length - 1 < t.length := by have := List.length_pos_of_ne_nil h; omega
  rw [List.getLast?_eq_getElem?, List.getD_eq_getElem?_getD, List.getElem?_eq_getElem this]; rfl

theorem hostname_eq (sc : Bool) (t : Text) : isValidHostname sc t = true ↔ Hostname t.s := by
  rw [isValidHostname, Hostname]
  generalize t.s = s
  by_cases h1 : s.length > 63 ∨ s.length = 0
  · rw [if_pos h1]
    constructor
    · intro h; cases h
    · rintro ⟨h2, h3, _⟩
      have := List.length_pos_of_ne_nil h2
      omega
  rw [if_neg h1]
  have hne : s ≠ [] := by intro h; rw [h] at h1; simp at h1
  have hh := head_getD hne
  have hl := last_getD hne
  generalize s.getD 0 0 = a at hh
  generalize s.getD (s.length - 1) 0 = z at hl
  have hends : (∀ c, s.head? = some c ∨ s.getLast? = some c → c ≠ c!"-" ∧ c ≠ c!".") ↔ (a ≠ c!"-" ∧ a ≠ c!".") ∧ (z ≠ c!"-" ∧ z ≠ c!".") := by
    rw [hh, hl]
    constructor
    · intro h; exact ⟨h a (.inl rfl), h z (.inr rfl)⟩
    · rintro ⟨h1, h2⟩ c (h | h) <;> cases h
      · exact h1
      · exact h2
  rw [hends]
  by_cases h2 : a = c!"-" ∨ z = c!"-"
  · rw [if_pos h2]
    constructor
    · intro h; cases h
    · rintro ⟨_, _, _, h3, _⟩
      rcases h2 with h2 | h2
      · exact absurd h2 h3.1.1
      · exact absurd h2 h3.2.1
  rw [if_neg h2]
  by_cases h3 : a = c!"." ∨ z = c!"."
  · rw [if_pos h3]
    constructor
    · intro h; cases h
    · rintro ⟨_, _, _, h4, _⟩
      rcases h3 with h2 | h2
      · exact absurd h2 h4.1.2
      · exact absurd h2 h4.2.2
  rw [if_neg h3, hostLoop_eq]
  rw [not_or] at h2 h3
  by_cases h4 : ∀ c ∈ s, isAlpha c = true ∨ isDigit c = true ∨ c = c!"-" ∨ c = c!"."
  · rw [if_pos h4]
    dsimp only
    rw [decide_eq_true_eq]
    have hcount := host_count s
    have hiff : (∃ c ∈ s, isAlpha c = true ∨ c = c!"-") ↔ s.countP (fun c => !(isDigit c) && !(decide (c = c!"."))) ≠ 0 := by
      rw [← Nat.pos_iff_ne_zero, List.countP_pos_iff]
      apply exists_congr
      intro c
      apply and_congr_right
      intro hc
      have := h4 c hc
      have hcl : ∀ c, (isAlpha c = true ∨ isDigit c = true ∨ c = c!"-" ∨ c = c!".") → ((isAlpha c = true ∨ c = c!"-") ↔ (!(isDigit c) && !(decide (c = c!"."))) = true) := by apply forall_u8; decide +kernel
      exact hcl c this
    rw [hiff]
    constructor
    · intro h; exact ⟨hne, by omega, h4, ⟨⟨h2.1, h3.1⟩, h2.2, h3.2⟩, by omega⟩
    · rintro ⟨_, _, _, _, h5⟩; omega
  · rw [if_neg h4]
    constructor
    · intro h; cases h
    · rintro ⟨_, _, h, _⟩; exact absurd h h4

theorem scope_class (sc : Bool) : ∀ c, (isAlphabet sc c || isDecimal sc c || decide (c = c!"_") || decide (c = c!"=") || decide (c = c!"+") || decide (c = c!".") || decide (c = c!"-")) = true ↔
    (isAlpha c = true ∨ isDigit c = true ∨ c ∈ b!"_=+.-") := by cases sc <;> (apply forall_u8; decide +kernel)

theorem scope_eq (sc : Bool) (t : Text) : isValidScope sc t = true ↔ Scope t.s := by
  rw [isValidScope, Scope]
  generalize t.s = s
  by_cases h1 : s.length > 64 ∨ s.length = 0
  · rw [if_pos h1]
    constructor
    · intro h; cases h
    · rintro ⟨h2, h3, _⟩
      have := List.length_pos_of_ne_nil h2
      omega
  rw [if_neg h1, List.all_eq_true]
  constructor
  · intro h; exact ⟨by intro h'; rw [h'] at h1; simp at h1, by omega, fun c hc => (scope_class sc c).1 (h c hc)⟩
  · rintro ⟨_, _, h⟩ c hc; exact (scope_class sc c).2 (h c hc)

/-! Endpoints and networks -/

theorem ip4_iff (v : List UInt8) : (pton4 v).isSome = true ↔ Ip4 v := Option.isSome_iff_exists
theorem ip6_iff (v : List UInt8) : (pton6 v).isSome = true ↔ Ip6 v := Option.isSome_iff_exists

theorem ip4_chars {v : List UInt8} (h : Ip4 v) : ∀ c ∈ v, isDigit c = true ∨ c = c!"." := pton4_chars ((ip4_iff v).2 h)

theorem p6_chars : ∀ (t out : List UInt8) (val seen : Nat) (cp : Option Nat) (tok pre : CStr), tok = pre ++ t → (pton6Loop out val seen cp tok t).isSome = true →
    ∀ c ∈ t, isHexDigit c = true ∨ c = c!":" ∨ c = c!"."
  | [], _, _, _, _, _, _, _, _, c, hc => by cases hc
  | a :: t, out, val, seen, cp, tok, pre, htok, h, c, hc => by
    rcases hexDigit_cases a with ⟨ha, d, hd⟩ | ⟨_, hd⟩
    · rw [p6_hex hd] at h
      split at h
      · cases h
      split at h
      · cases h
      rcases List.mem_cons.1 hc with rfl | hc
      · exact .inl ha
      · exact p6_chars t _ _ _ _ tok (pre ++ [a]) (by rw [htok]; simp) h c hc
    · rw [p6_other hd] at h
      split at h
      · rename_i h1
        have key : ∀ (out : List UInt8) (val seen : Nat) (cp : Option Nat), (pton6Loop out val seen cp t t).isSome = true → isHexDigit c = true ∨ c = c!":" ∨ c = c!"." := by
          intro out val seen cp h
          rcases List.mem_cons.1 hc with rfl | hc
          · exact .inr (.inl h1)
          · exact p6_chars t out val seen cp t [] rfl h c hc
        split at h
        · split at h
          · cases h
          · exact key _ _ _ _ h
        split at h
        · cases h
        split at h
        · cases h
        · exact key _ _ _ _ h
      split at h
      · cases hp : pton4 tok with
        | none => rw [hp] at h; cases h
        | some q =>
          have := pton4_chars (t := tok) (by rw [hp]; rfl) c (by rw [htok]; exact List.mem_append_right _ hc)
          rcases this with h2 | h2
          · left; rw [isHexDigit, h2]; rfl
          · exact .inr (.inr h2)
      · cases h

theorem ip6_chars {v : List UInt8} (h : Ip6 v) : ∀ c ∈ v, isHexDigit c = true ∨ c = c!":" ∨ c = c!"." := by
  have h := (ip6_iff v).2 h
  rw [pton6_isSome] at h
  cases v with
  | nil => cases h
  | cons a v =>
    by_cases ha : a = 58
    · subst ha
      cases v with
      | nil => cases h
      | cons b v =>
        by_cases hb : b = 58
        · subst hb
          rw [p6Start_colon] at h
          intro c hc
          rcases List.mem_cons.1 hc with rfl | hc
          · exact .inr (.inl rfl)
          · exact p6_chars _ _ _ _ _ _ [] rfl h c hc
        · rw [p6Start_single v hb] at h; cases h
    · rw [p6Start_other v ha] at h
      exact p6_chars _ _ _ _ _ _ [] rfl h

theorem not_hex_of : ∀ c, c = c!"%" ∨ c = c!"]" ∨ c = c!"/" → ¬ (isHexDigit c = true ∨ c = c!":" ∨ c = c!".") := by apply forall_u8; decide +kernel

theorem not_scope_of : ∀ c, c = c!"%" ∨ c = c!"]" → ¬ (isAlpha c = true ∨ isDigit c = true ∨ c ∈ b!"_=+.-") := by apply forall_u8; decide +kernel

theorem port_eq (sc : Bool) (p : List UInt8) (next : UInt8) : isValidPort sc ⟨p, next⟩ = true ↔ Number 0 65535 p := number_eq ..

theorem bracket_end (sc : Bool) (next : UInt8) (t : List UInt8) (ok : Bool) : ∃ b, (if ¬ ok = true then Res.ok false else if t = [] then .ok false else if t.getD 0 0 ≠ c!":" then .ok false
    else .ok (isValidPort sc ⟨t.drop 1, next⟩)) = .ok b ∧ (b = true ↔ ok = true ∧ ∃ p, t = c!":" :: p ∧ Number 0 65535 p) := by
  cases ok with
  | false => exact ⟨false, rfl, by simp⟩
  | true =>
    rw [if_neg (by simp)]
    cases t with
    | nil => exact ⟨false, rfl, by simp⟩
    | cons d t =>
      rw [if_neg (by simp)]
      by_cases hd : d = c!":"
      · rw [if_neg (by simp [hd])]
        refine ⟨_, rfl, ?_⟩
        rw [List.drop_one, List.tail_cons, port_eq, hd]
        simp
      · rw [if_pos (by simpa using hd)]
        exact ⟨false, rfl, by simp [hd]⟩

theorem bracket_scope (sc : Bool) (next : UInt8) : ∀ (t host : List UInt8), ∃ b, bracketLoop sc next host true t = .ok b ∧
    (b = true ↔ ∃ z p, t = z ++ c!"]" :: c!":" :: p ∧ Number 0 65535 p ∧ Scope (host ++ z))
  | [], host => ⟨false, rfl, by simp⟩
  | c :: t, host => by
    rw [bracketLoop]
    by_cases h1 : c = c!"%"
    · rw [if_pos h1, if_pos rfl]
      refine ⟨false, rfl, ?_⟩
      constructor
      · intro h; cases h
      · rintro ⟨z, p, hz, _, hs⟩
        cases z with
        | nil => injection hz with e1 _; rw [h1] at e1; cases e1
        | cons z0 z =>
          injection hz with e1 _
          exact absurd (hs.2.2 c (by rw [e1]; simp)) (not_scope_of c (.inl h1))
    rw [if_neg h1]
    by_cases h2 : c = c!"]"
    · rw [if_pos h2, if_pos rfl, okb]
      obtain ⟨b, hb, hiff⟩ := bracket_end sc next t (isValidScope sc ⟨host, c⟩)
      refine ⟨b, hb, ?_⟩
      rw [hiff, scope_eq]
      constructor
      · rintro ⟨hs, p, rfl, hp⟩; exact ⟨[], p, by rw [h2]; rfl, hp, by rwa [List.append_nil]⟩
      · rintro ⟨z, p, hz, hp, hs⟩
        cases z with
        | nil => injection hz with e1 e2; exact ⟨by simpa using hs, p, e2, hp⟩
        | cons z0 z =>
          injection hz with e1 _
          exact absurd (hs.2.2 c (by rw [e1]; simp)) (not_scope_of c (.inr h2))
    · rw [if_neg h2]
      obtain ⟨b, hb, hiff⟩ := bracket_scope sc next t (host ++ [c])
      refine ⟨b, hb, hiff.trans ?_⟩
      constructor
      · rintro ⟨z, p, hz, hp, hs⟩; exact ⟨c :: z, p, by rw [hz]; rfl, hp, by simpa using hs⟩
      · rintro ⟨z, p, hz, hp, hs⟩
        cases z with
        | nil => injection hz with e1 _; exact absurd e1 h2
        | cons z0 z => injection hz with e1 e2; exact ⟨z, p, e2, hp, by rw [e1]; simpa using hs⟩

theorem bracket_host (sc : Bool) (next : UInt8) : ∀ (t host : List UInt8), ∃ b, bracketLoop sc next host false t = .ok b ∧
    (b = true ↔ ∃ h p, t = h ++ c!"]" :: c!":" :: p ∧ Number 0 65535 p ∧ (Ip6 (host ++ h) ∨ ∃ a z, h = a ++ c!"%" :: z ∧ Ip6 (host ++ a) ∧ Scope z))
  | [], host => ⟨false, rfl, by simp⟩
  | c :: t, host => by
    rw [bracketLoop]
    by_cases h1 : c = c!"%"
    · rw [if_pos h1, if_neg (by simp), ipv6_eq sc ⟨host, c⟩ ⟨by rw [h1]; exact (by decide : (37 : UInt8) ≠ 58), by rw [h1]; exact (by decide : (37 : UInt8) ≠ 46)⟩, okb]
      have hrhs : (∃ h p, c :: t = h ++ c!"]" :: c!":" :: p ∧ Number 0 65535 p ∧ (Ip6 (host ++ h) ∨ ∃ a z, h = a ++ c!"%" :: z ∧ Ip6 (host ++ a) ∧ Scope z)) ↔
          Ip6 host ∧ ∃ z p, t = z ++ c!"]" :: c!":" :: p ∧ Number 0 65535 p ∧ Scope ([] ++ z) := by
        constructor
        · rintro ⟨h, p, he, hp, hh⟩
          cases h with
          | nil => injection he with e1 _; rw [h1] at e1; cases e1
          | cons h0 h =>
            injection he with e1 e2
            rcases hh with hh | ⟨a, z, haz, ha, hz⟩
            · exact absurd (ip6_chars hh c (by rw [e1]; simp)) (not_hex_of c (.inl h1))
            · cases a with
              | nil => injection haz with e3 e4; exact ⟨by simpa using ha, z, p, by rw [e2, e4]; rfl, hp, hz⟩
              | cons a0 a =>
                injection haz with e3 e4
                exact absurd (ip6_chars ha c (by rw [e1, e3]; simp)) (not_hex_of c (.inl h1))
        · rintro ⟨hi, z, p, rfl, hp, hs⟩
          exact ⟨c :: z, p, rfl, hp, .inr ⟨[], z, by rw [h1]; rfl, by simpa using hi, hs⟩⟩
      dsimp only
      by_cases hi : (pton6 host).isSome = true
      · rw [if_neg (by simp [hi])]
        obtain ⟨b, hb, hiff⟩ := bracket_scope sc next t []
        refine ⟨b, hb, ?_⟩
        rw [hiff, hrhs]
        exact ⟨fun h => ⟨(ip6_iff host).1 hi, h⟩, fun h => h.2⟩
      · rw [if_pos hi]
        refine ⟨false, rfl, ?_⟩
        rw [hrhs]
        constructor
        · intro h; cases h
        · intro h; exact absurd ((ip6_iff host).2 h.1) hi
    rw [if_neg h1]
    by_cases h2 : c = c!"]"
    · rw [if_pos h2, if_neg (by simp), ipv6_eq sc ⟨host, c⟩ ⟨by rw [h2]; exact (by decide : (93 : UInt8) ≠ 58), by rw [h2]; exact (by decide : (93 : UInt8) ≠ 46)⟩, okb]
      obtain ⟨b, hb, hiff⟩ := bracket_end sc next t (pton6 host).isSome
      refine ⟨b, hb, ?_⟩
      rw [hiff, ip6_iff]
      constructor
      · rintro ⟨hs, p, rfl, hp⟩; exact ⟨[], p, by rw [h2]; rfl, hp, .inl (by rwa [List.append_nil])⟩
      · rintro ⟨h, p, he, hp, hh⟩
        cases h with
        | nil =>
          injection he with e1 e2
          rcases hh with hh | ⟨a, z, haz, _⟩
          · exact ⟨by simpa using hh, p, e2, hp⟩
          · simp at haz
        | cons h0 h =>
          injection he with e1 e2
          rcases hh with hh | ⟨a, z, haz, ha, hz⟩
          · exact absurd (ip6_chars hh c (by rw [e1]; simp)) (not_hex_of c (.inr (.inl h2)))
          · cases a with
            | nil => injection haz with e3 e4; rw [h2] at e1; rw [← e1] at e3; cases e3
            | cons a0 a =>
              injection haz with e3 e4
              exact absurd (ip6_chars ha c (by rw [e1, e3]; simp)) (not_hex_of c (.inr (.inl h2)))
    · rw [if_neg h2]
      obtain ⟨b, hb, hiff⟩ := bracket_host sc next t (host ++ [c])
      refine ⟨b, hb, hiff.trans ?_⟩
      constructor
      · rintro ⟨h, p, he, hp, hh⟩
        refine ⟨c :: h, p, by rw [he]; rfl, hp, ?_⟩
        rcases hh with hh | ⟨a, z, haz, ha, hz⟩
        · exact .inl (by simpa using hh)
        · exact .inr ⟨c :: a, z, by rw [haz]; rfl, by simpa using ha, hz⟩
      · rintro ⟨h, p, he, hp, hh⟩
        cases h with
        | nil => injection he with e1 _; exact absurd e1 h2
        | cons h0 h =>
          injection he with e1 e2
          subst e1
          refine ⟨h, p, e2, hp, ?_⟩
          rcases hh with hh | ⟨a, z, haz, ha, hz⟩
          · exact .inl (by simpa using hh)
          · cases a with
            | nil => injection haz with e3 _; exact absurd e3 h1
            | cons a0 a =>
              injection haz with e3 e4
              exact .inr ⟨a, z, e4, by rw [e3]; simpa using ha, hz⟩

theorem host_no_colon {h : List UInt8} (hh : Ip4 h ∨ Hostname h) : c!":" ∉ h ∧ h.head? ≠ some c!"[" := by
  have key : ∀ c ∈ h, isAlpha c = true ∨ isDigit c = true ∨ c = c!"-" ∨ c = c!"." := by
    intro c hc
    rcases hh with hh | hh
    · rcases ip4_chars hh c hc with h | h
      · exact .inr (.inl h)
      · exact .inr (.inr (.inr h))
    · exact hh.2.2.1 c hc
  have no : ∀ c, c = c!":" ∨ c = c!"[" → ¬ (isAlpha c = true ∨ isDigit c = true ∨ c = c!"-" ∨ c = c!".") := by apply forall_u8; decide +kernel
  refine ⟨fun hc => no _ (.inl rfl) (key _ hc), fun hc => no _ (.inr rfl) (key _ (List.mem_of_mem_head? hc))⟩

theorem split_first {d : UInt8} {v : List UInt8} (h : d ∈ v) : v = v.takeWhile (· ≠ d) ++ d :: (v.dropWhile (· ≠ d)).tail ∧ v.dropWhile (· ≠ d) = d :: (v.dropWhile (· ≠ d)).tail := by
  have hd : v.dropWhile (· ≠ d) = d :: (v.dropWhile (· ≠ d)).tail := by
    induction v with
    | nil => cases h
    | cons a v ih =>
      by_cases ha : a = d
      · rw [List.dropWhile_cons, if_neg (by simp [ha]), ha]; rfl
      · rw [List.dropWhile_cons, if_pos (by simp [ha])]
        exact ih ((List.mem_cons.1 h).resolve_left (fun h => ha h.symm))
  refine ⟨?_, hd⟩
  conv_lhs => rw [← List.takeWhile_append_dropWhile (p := (· ≠ d)) (l := v), hd]

theorem first_of {d : UInt8} {x y : List UInt8} (h : d ∉ x) : (x ++ d :: y).takeWhile (· ≠ d) = x ∧ (x ++ d :: y).dropWhile (· ≠ d) = d :: y := by
  have hx : ∀ a ∈ x, decide (a ≠ d) = true := by intro a ha; rw [decide_eq_true_eq]; intro he; exact h (he ▸ ha)
  rw [List.takeWhile_append_of_pos hx, List.dropWhile_append_of_pos hx]
  simp

theorem dropWhile_nil {d : UInt8} {v : List UInt8} (h : d ∉ v) : v.dropWhile (· ≠ d) = [] ∧ v.takeWhile (· ≠ d) = v := by
  have : ∀ a ∈ v, decide (a ≠ d) = true := by intro a ha; rw [decide_eq_true_eq]; intro he; exact h (he ▸ ha)
  exact ⟨List.dropWhile_eq_nil_iff.2 this, List.takeWhile_eq_self_iff.2 this⟩

theorem endpoint_eq (sc : Bool) (t : Text) : ∃ b, isValidEndpoint sc t = .ok b ∧ (b = true ↔ EndpointValue t.s) := by
  rw [isValidEndpoint]
  cases hs : t.s with
  | nil =>
    refine ⟨false, rfl, ?_⟩
    rw [EndpointValue]; simp
  | cons c s =>
    dsimp only
    by_cases h1 : c = c!"["
    · rw [if_pos h1]
      obtain ⟨b, hb, hiff⟩ := bracket_host sc t.next s []
      refine ⟨b, hb, ?_⟩
      rw [hiff, EndpointValue]
      constructor
      · rintro ⟨h, p, rfl, hp, hh⟩; exact .inl ⟨h, p, by rw [h1]; rfl, hp, hh⟩
      · rintro (⟨h, p, he, hp, hh⟩ | ⟨h, p, he, hp, hh⟩)
        · injection he with _ e; exact ⟨h, p, e, hp, hh⟩
        · exfalso
          cases h with
          | nil =>
            rcases hh with hh | hh
            · have := (ip4_iff []).2 hh; rw [pton4_isSome] at this; simp [pton4Loop] at this
            · exact hh.1 rfl
          | cons h0 h =>
            injection he with e _
            exact (host_no_colon hh).2 (by rw [← e, h1]; rfl)
    rw [if_neg h1, ← hs]
    have hno : ∀ h p, t.s = h ++ c!":" :: p → (Ip4 h ∨ Hostname h) → h = t.s.takeWhile (· ≠ c!":") ∧ t.s.dropWhile (· ≠ c!":") = c!":" :: p := by
      intro h p he hh
      have := first_of (y := p) (host_no_colon hh).1
      rw [← he] at this
      exact ⟨this.1.symm, this.2⟩
    have hbr : EndpointValue t.s ↔ ∃ h p, t.s = h ++ c!":" :: p ∧ Number 0 65535 p ∧ (Ip4 h ∨ Hostname h) := by
      rw [EndpointValue]
      constructor
      · rintro (⟨h, p, he, _⟩ | h)
        · rw [hs] at he; injection he with e _; exact absurd e h1
        · exact h
      · exact .inr
    rw [hbr]
    by_cases hmem : c!":" ∈ t.s
    · obtain ⟨e1, e2⟩ := split_first hmem
      generalize (t.s.dropWhile (· ≠ c!":")).tail = p at e1 e2
      rw [e2]
      dsimp only
      have hrhs : (∃ h p, t.s = h ++ c!":" :: p ∧ Number 0 65535 p ∧ (Ip4 h ∨ Hostname h)) ↔ Number 0 65535 p ∧ (Ip4 (t.s.takeWhile (· ≠ c!":")) ∨ Hostname (t.s.takeWhile (· ≠ c!":"))) := by
        constructor
        · rintro ⟨h, p', he, hp, hh⟩
          obtain ⟨g1, g2⟩ := hno h p' he hh
          rw [e2] at g2; injection g2 with _ g2
          rw [g2, ← g1]; exact ⟨hp, hh⟩
        · rintro ⟨hp, hh⟩; exact ⟨_, p, e1, hp, hh⟩
      rw [hrhs]
      by_cases hp : isValidPort sc ⟨p, t.next⟩ = true
      · rw [if_neg (by simp [hp]), ipv4_eq, okb]
        have hp' := (port_eq sc p t.next).1 hp
        by_cases h4 : (pton4 (t.s.takeWhile (· ≠ c!":"))).isSome = true
        · rw [if_pos h4]
          exact ⟨true, rfl, by simp only [true_iff]; exact ⟨hp', .inl ((ip4_iff _).1 h4)⟩⟩
        · rw [if_neg h4]
          refine ⟨_, rfl, ?_⟩
          rw [hostname_eq]
          constructor
          · intro h; exact ⟨hp', .inr h⟩
          · rintro ⟨_, h | h⟩
            · exact absurd ((ip4_iff _).2 h) h4
            · exact h
      · rw [if_pos hp]
        refine ⟨false, rfl, ?_⟩
        constructor
        · intro h; cases h
        · intro h; exact absurd ((port_eq sc p t.next).2 h.1) hp
    · rw [(dropWhile_nil hmem).1]
      refine ⟨false, rfl, ?_⟩
      constructor
      · intro h; cases h
      · rintro ⟨h, p, he, _⟩; exact absurd (by rw [he]; simp) hmem

theorem cidrNum_eq (sc : Bool) : ∀ (t : List UInt8) (v : Nat), t.length ≤ 3 → v * 10 ^ t.length + 10 ^ t.length ≤ 1000 →
    cidrNum sc t v = if ∀ c ∈ t, isDigit c = true then some (t.foldl (fun n c => 10 * n + (c.toNat - 48)) v) else none
  | [], v, _, _ => by simp [cidrNum]
  | c :: t, v, hl, hv => by
    rw [cidrNum, isDecimal_eq]
    cases h : isDigit c with
    | true =>
      have hb := digit_bound c h
      have hl' : t.length ≤ 2 := by simpa using hl
      have hsmall : 10 * v + (c.toNat - 48) < 2 ^ 16 ∧ (10 * v + (c.toNat - 48)) * 10 ^ t.length + 10 ^ t.length ≤ 1000 := by
        rw [List.length_cons] at hv
        have : t.length = 0 ∨ t.length = 1 ∨ t.length = 2 := by omega
        rcases this with h | h | h <;> rw [h] at hv ⊢ <;> simp only [Nat.reduceAdd, Nat.reducePow] at hv ⊢ <;> omega
      rw [if_pos rfl, Nat.mod_eq_of_lt hsmall.1, cidrNum_eq sc t _ (by omega) hsmall.2]; simp [h]
    | false => rw [if_neg (by simp), if_neg]; intro h2; have := h2 c (by simp); rw [h] at this; cases this

theorem network_eq (sc : Bool) (t : Text) (hn : t.next ≠ c!":" ∧ t.next ≠ c!".") : ∃ b, isValidNetwork sc t = .ok b ∧ (b = true ↔ Network t.s) := by
  rw [isValidNetwork]
  have hip : ∀ ip, (Ip4 ip ∨ Ip6 ip) → c!"/" ∉ ip := by
    intro ip h hc
    rcases h with h | h
    · rcases ip4_chars h _ hc with h | h <;> cases h
    · exact not_hex_of _ (.inr (.inr rfl)) (ip6_chars h _ hc)
  by_cases hmem : c!"/" ∈ t.s
  · obtain ⟨e1, e2⟩ := split_first hmem
    generalize (t.s.dropWhile (· ≠ c!"/")).tail = m at e1 e2
    rw [e2]
    dsimp only
    generalize t.s.takeWhile (· ≠ c!"/") = ip at e1
    have hrhs : Network t.s ↔ ∃ n, m.length ≤ 3 ∧ IsDecimal m n ∧ ((Ip4 ip ∧ n ≤ 32) ∨ (Ip6 ip ∧ n ≤ 128)) := by
      rw [Network]
      constructor
      · rintro (h | h | ⟨ip', m', n, he, hl, hd, hi⟩)
        · exact absurd hmem (hip _ (.inl h))
        · exact absurd hmem (hip _ (.inr h))
        · have h1 : c!"/" ∉ ip' := hip _ (hi.imp (·.1) (·.1))
          have g := first_of (y := m') h1
          rw [← he, e2] at g
          have g2 : m = m' := by injection g.2
          rw [e1, g2] at he
          have := List.append_cancel_right he
          subst this; subst g2
          exact ⟨n, hl, hd, hi⟩
      · rintro ⟨n, hl, hd, hi⟩; exact .inr (.inr ⟨ip, m, n, e1, hl, hd, hi⟩)
    rw [hrhs]
    by_cases hl : m.length > 3 ∨ m.length = 0
    · rw [if_pos hl]
      refine ⟨false, rfl, ?_⟩
      constructor
      · intro h; cases h
      · rintro ⟨n, h1, h2, _⟩
        have := List.length_pos_of_ne_nil h2.1
        omega
    rw [if_neg hl, cidrNum_eq sc m 0 (by omega) (by have : 10 ^ m.length ≤ 10 ^ 3 := Nat.pow_le_pow_right (by omega) (by omega); omega)]
    have hne : m ≠ [] := by intro h; rw [h] at hl; simp at hl
    by_cases hd : ∀ c ∈ m, isDigit c = true
    · rw [if_pos hd]
      dsimp only
      rw [ipv4_eq, okb]
      generalize hv : m.foldl (fun n c => 10 * n + (c.toNat - 48)) 0 = v
      have hdec : ∀ n, IsDecimal m n ↔ n = v := fun n => ⟨fun h => by rw [h.2.2, ← hv]; rfl, fun h => ⟨hne, hd, by rw [h, ← hv]; rfl⟩⟩
      have hrhs2 : (∃ n, m.length ≤ 3 ∧ IsDecimal m n ∧ ((Ip4 ip ∧ n ≤ 32) ∨ (Ip6 ip ∧ n ≤ 128))) ↔ (Ip4 ip ∧ v ≤ 32) ∨ (Ip6 ip ∧ v ≤ 128) := by
        constructor
        · rintro ⟨n, _, h, hi⟩; rw [(hdec n).1 h] at hi; exact hi
        · intro h; exact ⟨v, by omega, (hdec v).2 rfl, h⟩
      rw [hrhs2]
      have hdis : Ip4 ip → ¬ Ip6 ip := by
        intro h4 h6
        have hc := ip4_chars h4
        have h6' := (ip6_iff ip).2 h6
        -- a text without a colon is no IPv6 address
        rw [pton6_isSome] at h6'
        cases ip with
        | nil => cases h6'
        | cons a r =>
          have ha : a ≠ 58 := by
            intro h; rcases hc a (by simp) with h' | h' <;> rw [h] at h' <;> cases h'
          rw [p6Start_other r ha] at h6'
          have nocolon : ∀ (t out : List UInt8) (val seen : Nat) (tok : CStr), c!":" ∉ t → out = [] → (pton6Loop out val seen none tok t).isSome = false := by
            intro t
            induction t with
            | nil =>
              intro out val seen tok _ ho
              subst ho
              rw [p6_nil]
              split
              · simp only [List.length_nil]; rw [if_neg (by omega), finish_plain]; rfl
              · rfl
            | cons b t ih =>
              intro out val seen tok hb ho
              subst ho
              rcases hexDigit_cases b with ⟨_, d, hd⟩ | ⟨_, hd⟩
              · rw [p6_hex hd]
                split
                · rfl
                split
                · rfl
                exact ih _ _ _ _ (fun h => hb (by simp [h])) rfl
              · rw [p6_other hd, if_neg (fun h => hb (by simp [h]))]
                split
                · cases pton4 tok with
                  | none => rfl
                  | some q => dsimp only; rw [finish_plain]; simp
                · rfl
          rw [nocolon _ _ _ _ _ (by intro h; rcases hc _ h with h | h <;> cases h) rfl] at h6'
          cases h6'
      by_cases h4 : (pton4 ip).isSome = true
      · have h4' := (ip4_iff ip).1 h4
        rw [if_pos h4]
        refine ⟨_, rfl, ?_⟩
        rw [decide_eq_true_eq]
        constructor
        · intro h; exact .inl ⟨h4', h⟩
        · rintro (h | h)
          · exact h.2
          · exact absurd h.1 (hdis h4')
      · have h4' : ¬ Ip4 ip := fun h => h4 ((ip4_iff ip).2 h)
        rw [if_neg h4, ipv6_eq sc ⟨ip, c!"/"⟩ ⟨(by decide : (47 : UInt8) ≠ 58), (by decide : (47 : UInt8) ≠ 46)⟩, okb]
        by_cases h6 : (pton6 ip).isSome = true
        · rw [if_pos h6]
          refine ⟨_, rfl, ?_⟩
          rw [decide_eq_true_eq]
          constructor
          · intro h; exact .inr ⟨(ip6_iff ip).1 h6, h⟩
          · rintro (h | h)
            · exact absurd h.1 h4'
            · exact h.2
        · rw [if_neg h6]
          refine ⟨false, rfl, ?_⟩
          constructor
          · intro h; cases h
          · rintro (h | h)
            · exact absurd h.1 h4'
            · exact absurd ((ip6_iff ip).2 h.1) h6
    · rw [if_neg hd]
      refine ⟨false, rfl, ?_⟩
      constructor
      · intro h; cases h
      · rintro ⟨n, _, h, _⟩; exact absurd h.2.1 hd
  · rw [(dropWhile_nil hmem).1]
    dsimp only
    rw [ipv4_eq, okb]
    have hrhs : Network t.s ↔ Ip4 t.s ∨ Ip6 t.s := by
      rw [Network]
      constructor
      · rintro (h | h | ⟨ip', m', n, he, _⟩)
        · exact .inl h
        · exact .inr h
        · exact absurd (by rw [he]; simp) hmem
      · rintro (h | h)
        · exact .inl h
        · exact .inr (.inl h)
    rw [hrhs, ← ip4_iff, ← ip6_iff]
    by_cases h4 : (pton4 t.s).isSome = true
    · rw [if_pos h4]; exact ⟨true, rfl, by simp [h4]⟩
    · rw [if_neg h4, ipv6_eq sc t hn]; exact ⟨_, rfl, by simp [h4]⟩

end WG.Hl
