import Verif.Spec.Highlight
import Verif.Proof.Openbsd
import Mathlib.Data.List.TakeWhile
/-! C72: the spans of the highlighter. -/
namespace WG.Hl
open Obsd (okb)
open Spec (Gap Tiles Decorated)

/-- The spans cover what is before `p`, but for white space. -/
inductive Upto (cfg : CStr) : List HSpan → Nat → Prop
  | nil : Upto cfg [] 0
  | gap {l p} : Upto cfg l p → p < cfg.length → Gap (cfg.getD p 0) → Upto cfg l (p + 1)
  | span {l p} (t : HType) (n : Nat) : Upto cfg l p → 0 < n → p + n ≤ cfg.length → t ≠ .end_ → Upto cfg (l ++ [⟨t, p, n⟩]) (p + n)

theorem Upto.le {cfg l p} (h : Upto cfg l p) : p ≤ cfg.length := by
  induction h with
  | nil => omega
  | gap _ h _ => omega
  | span _ _ _ _ h _ => omega

/-- Tiles, seen from the front. -/
theorem Upto.tiles {cfg l p} (h : Upto cfg l p) : ∀ rest, Tiles cfg p rest → (∀ c ∈ rest, True) → Tiles cfg 0 (l ++ rest) := by
  induction h with
  | nil => intro rest hr _; exact hr
  | @gap l p hu hp hg ih =>
    intro rest hr _
    apply ih rest _ (by simp)
    have hd : cfg.drop p = cfg.getD p 0 :: cfg.drop (p + 1) := by
      rw [List.drop_eq_getElem_cons hp]; simp [List.getD_eq_getElem?_getD, hp]
    cases rest with
    | nil => exact hr
    | cons h t =>
      rw [Tiles] at hr ⊢
      by_cases he : h.type = .end_
      · rw [if_pos he] at hr ⊢
        refine ⟨hr.1, ?_⟩
        rw [hd]
        intro c hc
        rcases List.mem_cons.1 hc with rfl | hc
        · exact hg
        · exact hr.2 c hc
      · rw [if_neg he] at hr ⊢
        obtain ⟨h1, h2, h3, h4, h5⟩ := hr
        refine ⟨by omega, h2, h3, ?_, h5⟩
        rw [hd, show h.start - p = (h.start - (p + 1)) + 1 by omega, List.take_succ_cons]
        intro c hc
        rcases List.mem_cons.1 hc with rfl | hc
        · exact hg
        · exact h4 c hc
  | @span l p t n hu hn hp ht ih =>
    intro rest hr _
    rw [List.append_assoc]
    apply ih _ _ (by simp)
    rw [List.singleton_append, Tiles, if_neg ht]
    exact ⟨by simp, hn, hp, by simp, hr⟩

/-- There is always memory. -/
def Rich (m : Mach) : Prop := ∀ n, m.mem n = true

theorem append_spans {m : Mach} (hm : Rich m) (a : Arr) (s : Span) (t : HType) : (append m a s t).spans = if s.len = 0 then a.spans else a.spans ++ [⟨t, s.start, s.len⟩] := by
  rw [append]
  by_cases h : s.len = 0
  · rw [if_pos h, if_pos h]
  · rw [if_neg h, if_neg h]
    by_cases h2 : a.spans.length ≥ a.cap
    · rw [if_pos h2, if_pos (hm _)]
    · rw [if_neg h2]

/-- An array whose spans cover what is before `p`. -/
def Good (cfg : CStr) (a : Arr) (p : Nat) : Prop := Upto cfg a.spans p

theorem Good.append {m : Mach} (hm : Rich m) {cfg : CStr} {a : Arr} {p : Nat} (h : Good cfg a p) (n : Nat) {t : HType} (ht : t ≠ .end_) (hn : p + n ≤ cfg.length) :
    Good cfg (append m a ⟨p, n⟩ t) (p + n) := by
  rw [Good, append_spans hm]
  by_cases h0 : n = 0
  · simp only [h0, if_pos]; exact h
  · rw [if_neg h0]; exact .span t n h (by omega) hn ht

theorem append_ne {m : Mach} (hm : Rich m) {a : Arr} (h : a.spans ≠ []) (s : Span) (t : HType) : (Hl.append m a s t).spans ≠ [] := by
  rw [append_spans hm]; by_cases h0 : s.len = 0 <;> simp [h0, h]

theorem rd_ok (t : List UInt8) (next : UInt8) {i : Nat} (h : i ≤ t.length) : ∃ c, rd t next i = .ok c := by
  rw [rd]
  by_cases h1 : i < t.length
  · exact ⟨_, if_pos h1⟩
  · rw [if_neg h1, if_pos (by omega)]; exact ⟨_, rfl⟩

theorem octet_le (sc : Bool) : ∀ (n : Nat) (t : List UInt8) (j v : Nat), (octet sc n t j v).1 ≤ j + t.length
  | 0, _, j, v => by simp [octet]
  | _ + 1, [], j, v => by simp [octet]
  | n + 1, c :: t, j, v => by
    rw [octet]
    by_cases h : isDecimal sc c
    · rw [if_pos h]; have := octet_le sc n t (j + 1) (10 * v + (c.toNat - 48)); simp; omega
    · rw [if_neg h]; simp

theorem v4Loop_ok (sc : Bool) (next : UInt8) : ∀ (n : Nat) (t : List UInt8), ∃ b, v4Loop sc next n t = .ok b
  | 0, _ => ⟨_, rfl⟩
  | n + 1, t => by
    rw [v4Loop]
    by_cases h0 : t = []
    · rw [if_pos h0]; exact ⟨_, rfl⟩
    rw [if_neg h0]
    dsimp only
    by_cases h1 : (octet sc 3 t 0 0).1 = 0 ∨ ((octet sc 3 t 0 0).1 > 1 ∧ t.getD 0 0 = c!"0") ∨ (octet sc 3 t 0 0).2 > 255
    · rw [if_pos h1]; exact ⟨_, rfl⟩
    rw [if_neg h1]
    by_cases h2 : (octet sc 3 t 0 0).1 = t.length ∧ n = 0
    · rw [if_pos h2]; exact ⟨_, rfl⟩
    rw [if_neg h2]
    obtain ⟨c, hc⟩ := rd_ok t next (i := (octet sc 3 t 0 0).1) (by have := octet_le sc 3 t 0 0; omega)
    rw [hc, okb]
    by_cases h3 : c ≠ c!"."
    · rw [if_pos h3]; exact ⟨_, rfl⟩
    · rw [if_neg h3]; exact v4Loop_ok sc next n _

theorem ipv4_ok (sc : Bool) (s : Text) : ∃ b, isValidIpv4 sc s = .ok b := v4Loop_ok ..

theorem hexRun_le (sc : Bool) : ∀ (n : Nat) (t : List UInt8), hexRun sc n t ≤ t.length
  | 0, _ => by simp [hexRun]
  | _ + 1, [] => by simp [hexRun]
  | n + 1, c :: t => by
    rw [hexRun]
    by_cases h : isHexadecimal sc c
    · rw [if_pos h]; have := hexRun_le sc n t; simp; omega
    · rw [if_neg h]; simp

theorem v6Loop_ok (sc : Bool) (next : UInt8) : ∀ (fuel : Nat) (t : List UInt8) (i : Nat) (seen : Bool), t.length < fuel → ∃ b, v6Loop sc next fuel t i seen = .ok b
  | 0, _, _, _, h => by omega
  | fuel + 1, t, i, seen, h => by
    rw [v6Loop]
    by_cases h0 : t = []
    · rw [if_pos h0]; exact ⟨_, rfl⟩
    rw [if_neg h0]
    have hl : 0 < t.length := List.length_pos_of_ne_nil h0
    by_cases h1 : t.getD 0 0 = c!":" ∧ ¬ seen
    · rw [if_pos h1]
      by_cases h2 : t.tail = []
      · rw [if_pos h2]; exact ⟨_, rfl⟩
      rw [if_neg h2]
      by_cases h3 : i = 7
      · rw [if_pos h3]; exact ⟨_, rfl⟩
      rw [if_neg h3]; exact v6Loop_ok sc next fuel _ _ _ (by rw [List.length_tail]; omega)
    rw [if_neg h1]
    dsimp only
    generalize hj : hexRun sc 4 t = j
    have hjl : j ≤ t.length := hj ▸ hexRun_le sc 4 t
    by_cases h2 : j = 0
    · rw [if_pos h2]; exact ⟨_, rfl⟩
    rw [if_neg h2]
    by_cases h3 : j = t.length ∧ (seen ∨ i = 7)
    · rw [if_pos h3]; exact ⟨_, rfl⟩
    rw [if_neg h3]
    by_cases h4 : i = 7
    · rw [if_pos h4]; exact ⟨_, rfl⟩
    rw [if_neg h4]
    obtain ⟨c, hc⟩ := rd_ok t next hjl
    rw [hc, okb]
    by_cases h5 : c ≠ c!":"
    · rw [if_pos h5]
      by_cases h6 : c ≠ c!"." ∨ (i < 6 ∧ ¬ seen)
      · rw [if_pos h6]; exact ⟨_, rfl⟩
      · rw [if_neg h6]; exact ipv4_ok ..
    · rw [if_neg h5]; exact v6Loop_ok sc next fuel _ _ _ (by rw [List.length_drop]; omega)

theorem ipv6_ok (sc : Bool) (s : Text) : ∃ b, isValidIpv6 sc s = .ok b := by
  rw [isValidIpv6]
  by_cases h1 : s.s.length < 2
  · rw [if_pos h1]; exact ⟨_, rfl⟩
  rw [if_neg h1]
  by_cases h2 : s.s.getD 0 0 = c!":" ∧ s.s.getD 1 0 ≠ c!":"
  · rw [if_pos h2]; exact ⟨_, rfl⟩
  rw [if_neg h2]
  by_cases h3 : s.s.getD (s.s.length - 1) 0 = c!":" ∧ s.s.getD (s.s.length - 2) 0 ≠ c!":"
  · rw [if_pos h3]; exact ⟨_, rfl⟩
  rw [if_neg h3]
  apply v6Loop_ok
  by_cases h4 : s.s.getD 0 0 = c!":"
  · rw [if_pos h4, List.length_tail]; omega
  · rw [if_neg h4]; omega

theorem bracketLoop_ok (sc : Bool) (next : UInt8) : ∀ (t host : List UInt8) (seen : Bool), ∃ b, bracketLoop sc next host seen t = .ok b ∧ (b = true → c!":" ∈ t)
  | [], _, _ => ⟨_, rfl, by simp⟩
  | c :: t, host, seen => by
    rw [bracketLoop]
    by_cases h1 : c = c!"%"
    · rw [if_pos h1]
      by_cases h2 : seen
      · rw [if_pos h2]; exact ⟨_, rfl, by simp⟩
      rw [if_neg h2]
      obtain ⟨b, hb⟩ := ipv6_ok sc ⟨host, c⟩
      rw [hb, okb]
      cases b
      · exact ⟨_, rfl, by simp⟩
      · obtain ⟨r, h3, h4⟩ := bracketLoop_ok sc next t [] true
        exact ⟨r, h3, fun h => List.mem_cons_of_mem _ (h4 h)⟩
    rw [if_neg h1]
    by_cases h2 : c = c!"]"
    · rw [if_pos h2]
      obtain ⟨b, hb⟩ : ∃ b, (if seen then Res.ok (isValidScope sc ⟨host, c⟩) else isValidIpv6 sc ⟨host, c⟩) = .ok b := by
        cases seen
        · exact ipv6_ok ..
        · exact ⟨_, rfl⟩
      rw [hb, okb]
      cases b
      · exact ⟨_, rfl, by simp⟩
      rw [if_neg (by simp)]
      by_cases h3 : t = []
      · rw [if_pos h3]; exact ⟨_, rfl, by simp⟩
      rw [if_neg h3]
      by_cases h4 : t.getD 0 0 ≠ c!":"
      · rw [if_pos h4]; exact ⟨_, rfl, by simp⟩
      rw [if_neg h4]
      refine ⟨_, rfl, fun _ => ?_⟩
      cases t with
      | nil => exact absurd rfl h3
      | cons d t => simp at h4; simp [h4]
    rw [if_neg h2]
    obtain ⟨r, h3, h4⟩ := bracketLoop_ok sc next t (host ++ [c]) seen
    exact ⟨r, h3, fun h => List.mem_cons_of_mem _ (h4 h)⟩

theorem endpoint_ok (sc : Bool) (s : Text) : ∃ b, isValidEndpoint sc s = .ok b ∧ (b = true → c!":" ∈ s.s) := by
  rw [isValidEndpoint]
  cases hs : s.s with
  | nil => exact ⟨_, rfl, by simp⟩
  | cons c t =>
    dsimp only
    by_cases h1 : c = c!"["
    · rw [if_pos h1]
      obtain ⟨r, h3, h4⟩ := bracketLoop_ok sc s.next t [] false
      exact ⟨r, h3, fun h => List.mem_cons_of_mem _ (h4 h)⟩
    rw [if_neg h1, ← hs]
    cases hd : s.s.dropWhile (· ≠ c!":") with
    | nil => exact ⟨_, rfl, by simp⟩
    | cons colon port =>
      have hmem : c!":" ∈ s.s := by
        have h0 := List.head_dropWhile_not (p := (· ≠ c!":")) (l := s.s) (by rw [hd]; simp)
        have h0' : ∀ (l : List UInt8) (hl : l ≠ []), decide (l.head hl ≠ c!":") = false → ∀ x y, l = x :: y → x = c!":" := by
          intro l hl h x y hxy; subst hxy; exact Classical.not_not.1 (of_decide_eq_false h)
        have : colon = c!":" := h0' _ _ h0 _ _ hd
        rw [← this]
        exact (List.dropWhile_sublist (· ≠ c!":")).subset (by rw [hd]; simp)
      dsimp only
      by_cases h2 : ¬ isValidPort sc ⟨port, s.next⟩
      · rw [if_pos h2]; exact ⟨_, rfl, by simp⟩
      rw [if_neg h2]
      obtain ⟨b, hb⟩ := ipv4_ok sc ⟨s.s.takeWhile (· ≠ c!":"), colon⟩
      rw [hb, okb]
      cases b
      · exact ⟨_, rfl, fun _ => hmem⟩
      · exact ⟨_, rfl, fun _ => hmem⟩

theorem network_ok (sc : Bool) (s : Text) : ∃ b, isValidNetwork sc s = .ok b := by
  rw [isValidNetwork]
  cases s.s.dropWhile (· ≠ c!"/") with
  | nil =>
    dsimp only
    obtain ⟨b, hb⟩ := ipv4_ok sc s
    rw [hb, okb]
    cases b
    · exact ipv6_ok ..
    · exact ⟨_, rfl⟩
  | cons slash cidr =>
    dsimp only
    by_cases h1 : cidr.length > 3 ∨ cidr.length = 0
    · rw [if_pos h1]; exact ⟨_, rfl⟩
    rw [if_neg h1]
    cases cidrNum sc cidr 0 with
    | none => exact ⟨_, rfl⟩
    | some n =>
      dsimp only
      obtain ⟨b, hb⟩ := ipv4_ok sc ⟨s.s.takeWhile (· ≠ c!"/"), slash⟩
      rw [hb, okb]
      cases b
      · obtain ⟨b, hb⟩ := ipv6_ok sc ⟨s.s.takeWhile (· ≠ c!"/"), slash⟩
        rw [if_neg (by simp), hb, okb]
        cases b <;> exact ⟨_, rfl⟩
      · exact ⟨_, rfl⟩

theorem text_ok (cfg : CStr) {p n : Nat} (h : p + n ≤ cfg.length) : text cfg ⟨p, n⟩ = .ok ⟨(cfg.drop p).take n, cfg.getD (p + n) 0⟩ := if_pos h

theorem text_len {cfg : CStr} {p n : Nat} (h : p + n ≤ cfg.length) : ((cfg.drop p).take n).length = n := by
  rw [List.length_take, List.length_drop]; omega

/-- A result that is an array with spans which cover what is before `p`. -/
def Done (cfg : CStr) (p : Nat) (r : Res Arr) : Prop := ∃ a, r = .ok a ∧ Good cfg a p ∧ a.spans ≠ []

theorem Done.mk {m : Mach} (hm : Rich m) {cfg : CStr} {a : Arr} {p n : Nat} {t : HType} (ht : t ≠ .end_) (h : Good cfg a p) (hn : p + n ≤ cfg.length) (hne : a.spans ≠ []) :
    Done cfg (p + n) (.ok (append m a ⟨p, n⟩ t)) := ⟨_, rfl, h.append hm n ht hn, append_ne hm hne _ _⟩

theorem Done.one {m : Mach} (hm : Rich m) {cfg : CStr} {a : Arr} {p n : Nat} {b : Bool} {t : HType} (ht : t ≠ .end_) (h : Good cfg a p) (hn : p + n ≤ cfg.length)
    (hne : a.spans ≠ []) : Done cfg (p + n) (.ok (one m a ⟨p, n⟩ b t)) := by
  rw [Hl.one]; exact .mk hm (by cases b <;> simp [ht]) h hn hne

/-- Three spans in a row. -/
theorem Done.three {m : Mach} (hm : Rich m) {cfg : CStr} {a : Arr} {p n k : Nat} {t u v : HType} (ht : t ≠ .end_) (hu : u ≠ .end_) (hv : v ≠ .end_) (h : Good cfg a p)
    (hn : p + n ≤ cfg.length) (hk : k < n) (hne : a.spans ≠ []) :
    Done cfg (p + n) (.ok (append m (append m (append m a ⟨p, k⟩ t) ⟨p + k, 1⟩ u) ⟨p + k + 1, n - k - 1⟩ v)) := by
  have h3 := ((h.append hm k ht (by omega)).append hm 1 hu (by omega)).append hm (n - k - 1) hv (by omega)
  rw [show p + k + 1 + (n - k - 1) = p + n by omega] at h3
  exact ⟨_, rfl, h3, append_ne hm (append_ne hm (append_ne hm hne _ _) _ _) _ _⟩

theorem multivalueValue_done {m : Mach} (hm : Rich m) {cfg : CStr} {a : Arr} {p n : Nat} (h : Good cfg a p) (hn : p + n ≤ cfg.length) (hne : a.spans ≠ []) (field : Field) :
    Done cfg (p + n) (multivalueValue m cfg a ⟨p, n⟩ field) := by
  rw [multivalueValue, text_ok cfg hn, okb]
  by_cases hf : field = .dns
  · rw [if_pos hf]
    obtain ⟨b, hb⟩ := ipv4_ok m.sc ⟨(cfg.drop p).take n, cfg.getD (p + n) 0⟩
    rw [hb, okb]
    obtain ⟨b, hb⟩ : ∃ b', (if b then Res.ok true else isValidIpv6 m.sc ⟨(cfg.drop p).take n, cfg.getD (p + n) 0⟩) = .ok b' := by
      cases b
      · exact ipv6_ok ..
      · exact ⟨_, rfl⟩
    rw [hb, okb]
    cases b
    · exact .one hm (by simp) h hn hne
    · exact .mk hm (by simp) h hn hne
  rw [if_neg hf]
  by_cases hg : field = .address ∨ field = .allowedIPs
  · rw [if_pos hg]
    obtain ⟨b, hb⟩ := network_ok m.sc ⟨(cfg.drop p).take n, cfg.getD (p + n) 0⟩
    rw [hb, okb]
    cases b
    · exact .mk hm (by simp) h hn hne
    rw [if_neg (by simp)]
    dsimp only
    generalize hk : (((cfg.drop p).take n).takeWhile (· ≠ c!"/")).length = k
    by_cases hkn : k = n
    · rw [if_pos hkn]; exact .mk hm (by simp) h hn hne
    · rw [if_neg hkn]
      have : k ≤ n := by
        have := (List.takeWhile_sublist (l := (cfg.drop p).take n) (· ≠ c!"/")).length_le
        rw [text_len hn] at this; omega
      exact .three hm (by simp) (by simp) (by simp) h hn (by omega) hne
  · rw [if_neg hg]; exact .mk hm (by simp) h hn hne

/-- Blank from `a` up to `b`. -/
def Blank (cfg : CStr) (a b : Nat) : Prop := ∀ k, a ≤ k → k < b → Gap (cfg.getD k 0)

theorem Good.blank {cfg : CStr} {a : Arr} {p : Nat} (h : Good cfg a p) : ∀ (n : Nat), p + n ≤ cfg.length → Blank cfg p (p + n) → Good cfg a (p + n)
  | 0, _, _ => h
  | n + 1, hn, hb => by
    have h1 : Good cfg a (p + n) := h.blank n (by omega) fun k h1 h2 => hb k h1 (by omega)
    exact Upto.gap (p := p + n) h1 (by omega) (hb (p + n) (by omega) (by omega))

theorem Good.to {cfg : CStr} {a : Arr} {p q : Nat} (h : Good cfg a p) (hpq : p ≤ q) (hq : q ≤ cfg.length) (hb : Blank cfg p q) : Good cfg a q := by
  have := h.blank (q - p) (by omega) (by rwa [show p + (q - p) = q by omega])
  rwa [show p + (q - p) = q by omega] at this

/-- Where a piece stands: nothing of it yet at `i`, or `last` bytes of it and then only blanks. -/
def Piece (cfg : CStr) (cur : Span) (last i : Nat) : Prop :=
  (cur.len = 0 ∧ cur.start = i) ∨ (cur.len ≠ 0 ∧ 0 < last ∧ last ≤ cur.len ∧ cur.start + cur.len = i ∧ Blank cfg (cur.start + last) i)

theorem getD_of {cfg : CStr} {i : Nat} {c : UInt8} {t : List UInt8} (h : cfg.drop i = c :: t) : cfg.getD i 0 = c ∧ i < cfg.length ∧ cfg.drop (i + 1) = t := by
  have hl : i < cfg.length := by
    by_contra hc
    rw [List.drop_eq_nil_of_le (by omega)] at h; cases h
  rw [List.drop_eq_getElem_cons hl] at h
  injection h with h1 h2
  exact ⟨by simp [List.getD_eq_getElem?_getD, hl, h1], hl, h2⟩

theorem Piece.gap {cfg : CStr} {cur : Span} {last i : Nat} (h : Piece cfg cur last i) (hne : cur.len ≠ 0) (hg : Gap (cfg.getD i 0)) : Piece cfg ⟨cur.start, cur.len + 1⟩ last (i + 1) := by
  rcases h with h | ⟨_, h1, h2, h3, h4⟩
  · exact absurd h.1 hne
  · refine .inr ⟨by simp, h1, by dsimp only; omega, by dsimp only; omega, fun k ha hb => ?_⟩
    by_cases hk : k = i
    · rw [hk]; exact hg
    · exact h4 k ha (by omega)

theorem Piece.more {cfg : CStr} {cur : Span} {last i : Nat} (h : Piece cfg cur last i) : Piece cfg ⟨cur.start, cur.len + 1⟩ (cur.len + 1) (i + 1) := by
  refine .inr ⟨by simp, by omega, by dsimp only; omega, ?_, fun k ha hb => ?_⟩
  · rcases h with h | h <;> dsimp only <;> omega
  · rcases h with h | h <;> dsimp only at ha <;> omega

theorem multiLoop_done {m : Mach} (hm : Rich m) {cfg : CStr} (field : Field) (tail : List UInt8) : ∀ (t : List UInt8) (i : Nat) (a : Arr) (cur : Span) (last : Nat),
    cfg.drop i = t ++ tail → Good cfg a cur.start → a.spans ≠ [] → Piece cfg cur last i → (cur.len = 0 → last = 0) →
    ∃ a' cur' last', multiLoop m cfg field t i a cur last = .ok (a', cur', last') ∧ Good cfg a' cur'.start ∧ a'.spans ≠ [] ∧
      Piece cfg cur' last' (i + t.length) ∧ (cur'.len = 0 → last' = 0)
  | [], i, a, cur, last, _, hg, hne, hp, h0 => ⟨_, _, _, rfl, hg, hne, hp, h0⟩
  | c :: t, i, a, cur, last, hd, hg, hne, hp, h0 => by
    obtain ⟨hc, hl, hd'⟩ := getD_of (show cfg.drop i = c :: (t ++ tail) from hd)
    rw [multiLoop]
    have hlen : i + (c :: t).length = i + 1 + t.length := by simp; omega
    rw [hlen]
    by_cases h1 : c = c!","
    · rw [if_pos h1]
      have hle : cur.start + last ≤ cfg.length := by
        rcases hp with h | h
        · rw [h0 h.1]; omega
        · omega
      obtain ⟨a', ha, hg', hne'⟩ := multivalueValue_done hm hg hle hne field
      rw [ha, okb]
      have hgi : Good cfg a' i := by
        apply hg'.to _ (by omega)
        · rcases hp with h | h
          · rw [h0 h.1]; intro k h1 h2; omega
          · exact h.2.2.2.2
        · rcases hp with h | h
          · rw [h0 h.1]; omega
          · omega
      exact multiLoop_done hm field tail t (i + 1) _ ⟨i + 1, 0⟩ 0 hd' (hgi.append hm 1 (by simp) (by omega)) (append_ne hm hne' _ _) (.inl ⟨rfl, rfl⟩) (fun _ => rfl)
    rw [if_neg h1]
    by_cases h2 : c = c!" " ∨ c = 9
    · rw [if_pos h2]
      have hgap : Gap (cfg.getD i 0) := by rw [hc]; rcases h2 with h | h <;> subst h <;> simp [Gap]
      by_cases h3 : i = cur.start ∧ cur.len = 0
      · rw [if_pos h3]
        refine multiLoop_done hm field tail t (i + 1) a ⟨cur.start + 1, cur.len⟩ last hd' (.gap hg (by omega) (h3.1 ▸ hgap)) hne (.inl ⟨h3.2, by dsimp only; omega⟩) h0
      · rw [if_neg h3]
        have hcl : cur.len ≠ 0 := by
          intro hcl; rcases hp with h | h
          · exact h3 ⟨h.2.symm, hcl⟩
          · exact h.1 hcl
        exact multiLoop_done hm field tail t (i + 1) a _ last hd' hg hne (hp.gap hcl hgap) (by simp)
    · rw [if_neg h2]
      exact multiLoop_done hm field tail t (i + 1) a _ _ hd' hg hne hp.more (by simp)

theorem Upto.retype {cfg : CStr} {l : List HSpan} {p : Nat} (h : Upto cfg l p) {t : HType} (ht : t ≠ .end_) {x : HSpan} (hx : l.getLast? = some x) : Upto cfg (l.dropLast ++ [{ x with type := t }]) p := by
  induction h with
  | nil => cases hx
  | gap _ h1 h2 ih => exact .gap (ih hx) h1 h2
  | span u n h1 h2 h3 h4 ih =>
    rw [List.getLast?_append_of_ne_nil _ (by simp)] at hx
    simp at hx
    subst hx
    rw [List.dropLast_concat]
    exact .span t n h1 h2 h3 ht

theorem drop_take (cfg : CStr) {p n : Nat} : cfg.drop p = (cfg.drop p).take n ++ cfg.drop (p + n) := by
  rw [← List.drop_drop, List.take_append_drop]

theorem multivalue_done {m : Mach} (hm : Rich m) {cfg : CStr} {a : Arr} {p n : Nat} (h : Good cfg a p) (hn : p + n ≤ cfg.length) (hne : a.spans ≠ []) (field : Field) :
    Done cfg (p + n) (multivalue m cfg a ⟨p, n⟩ field) := by
  rw [multivalue, text_ok cfg hn, okb]
  obtain ⟨a', cur, last, hr, hg, hne', hp, h0⟩ := multiLoop_done hm field _ ((cfg.drop p).take n) p a ⟨p, 0⟩ 0 (drop_take cfg) h hne (.inl ⟨rfl, rfl⟩) (fun _ => rfl)
  rw [hr, okb]
  dsimp only
  rw [text_len hn] at hp
  by_cases hl : last ≠ 0
  · rw [if_pos hl]
    have hp' : cur.start + last ≤ p + n ∧ Blank cfg (cur.start + last) (p + n) := by
      rcases hp with hp | hp
      · exact absurd (h0 hp.1) hl
      · exact ⟨by omega, hp.2.2.2.2⟩
    obtain ⟨a2, h1, h2, h3⟩ := multivalueValue_done hm hg (n := last) (by omega) hne' field
    exact ⟨a2, h1, h2.to hp'.1 hn hp'.2, h3⟩
  · rw [if_neg hl]
    have hg' : Good cfg a' (p + n) := by
      rcases hp with hp | hp
      · rw [← hp.2]; exact hg
      · omega
    cases hx : a'.spans.getLast? with
    | none => rw [List.getLast?_eq_none_iff] at hx; exact absurd hx hne'
    | some x =>
      dsimp only
      by_cases ht : x.type = .delimiter
      · rw [if_pos ht]; exact ⟨_, rfl, hg'.retype (by simp) hx, by simp⟩
      · rw [if_neg ht]; exact ⟨_, rfl, hg', hne'⟩

theorem value_done {m : Mach} (hm : Rich m) {cfg : CStr} {a : Arr} {p n : Nat} (h : Good cfg a p) (hn : p + n ≤ cfg.length) (hne : a.spans ≠ []) (field : Field) :
    Done cfg (p + n) (value m cfg a ⟨p, n⟩ field) := by
  rw [value, text_ok cfg hn, okb]
  cases field with
  | endpoint =>
    dsimp only
    obtain ⟨b, hb, hc⟩ := endpoint_ok m.sc ⟨(cfg.drop p).take n, cfg.getD (p + n) 0⟩
    rw [hb, okb]
    cases b
    · exact .mk hm (by simp) h hn hne
    rw [if_neg (by simp)]
    have hlt : (((cfg.drop p).take n).reverse.takeWhile (· ≠ c!":")).length < n := by
      have h1 : c!":" ∈ ((cfg.drop p).take n).reverse := by simpa using hc rfl
      have h2 := List.takeWhile_append_dropWhile (p := (· ≠ c!":")) (l := ((cfg.drop p).take n).reverse)
      have h3 : ((cfg.drop p).take n).reverse.dropWhile (· ≠ c!":") ≠ [] := by
        intro h4
        have := (List.dropWhile_eq_nil_iff.1 h4 : _) _ h1
        simp at this
      have h5 := congrArg List.length h2
      rw [List.length_append, List.length_reverse, text_len hn] at h5
      have := List.length_pos_of_ne_nil h3
      omega
    generalize (((cfg.drop p).take n).reverse.takeWhile (· ≠ c!":")).length = k at hlt
    rw [if_neg (by omega)]
    exact .three hm (by simp) (by simp) (by simp) h hn (by omega) hne
  | address => exact multivalue_done hm h hn hne _
  | dns => exact multivalue_done hm h hn hne _
  | allowedIPs => exact multivalue_done hm h hn hne _
  | interfaceSection => exact .mk hm (by simp) h hn hne
  | peerSection => exact .mk hm (by simp) h hn hne
  | invalid => exact .mk hm (by simp) h hn hne
  | _ => exact .one hm (by simp) h hn hne

/-- The invariant of the loop, at `i`. -/
def Inv (cfg : CStr) (i : Nat) (st : St) : Prop :=
  match st.on with
  | .none => Good cfg st.arr i ∧ st.cur = ⟨i, 0⟩
  | .key | .section_ => Good cfg st.arr st.cur.start ∧ st.cur.len ≠ 0 ∧ Piece cfg st.cur st.last i
  | .value => Good cfg st.arr st.eq ∧ st.eq < cfg.length ∧ st.eq < st.cur.start ∧ st.cur.start ≤ cfg.length ∧ Blank cfg (st.eq + 1) st.cur.start ∧ Piece cfg st.cur st.last i
  | .comment => Good cfg st.arr st.cur.start ∧ st.cur.start + st.cur.len = i

theorem flush_inv {m : Mach} (hm : Rich m) {cfg : CStr} {i : Nat} {st : St} (hi : i ≤ cfg.length) (h : Inv cfg i st) : ∃ st', flush m cfg st = .ok st' ∧ Good cfg st'.arr i := by
  rw [Inv] at h
  rw [flush]
  cases hon : st.on with
  | none => rw [hon] at h; exact ⟨_, rfl, h.1⟩
  | key =>
    rw [hon] at h
    obtain ⟨hg, hne, hp⟩ := h
    rcases hp with hp | ⟨_, h1, h2, h3, h4⟩
    · exact absurd hp.1 hne
    exact ⟨_, rfl, (hg.append hm st.last (by simp) (by omega)).to (by omega) hi h4⟩
  | section_ =>
    rw [hon] at h
    obtain ⟨hg, hne, hp⟩ := h
    rcases hp with hp | ⟨_, h1, h2, h3, h4⟩
    · exact absurd hp.1 hne
    dsimp only
    rw [text_ok cfg (by omega), okb]
    exact ⟨_, rfl, (hg.append hm st.last (by split <;> simp) (by omega)).to (by omega) hi h4⟩
  | comment =>
    rw [hon] at h
    obtain ⟨hg, hp⟩ := h
    refine ⟨_, rfl, ?_⟩
    have := hg.append hm st.cur.len (t := .comment) (by simp) (by omega)
    rwa [hp] at this
  | value =>
    rw [hon] at h
    obtain ⟨hg, he, hes, hsl, hb, hp⟩ := h
    dsimp only
    rcases hp with hp | ⟨hne, h1, h2, h3, h4⟩
    · rw [if_neg (by simp [hp.1])]
      exact ⟨_, rfl, (hg.append hm 1 (by simp) (by omega)).to (by omega) hi (hp.2 ▸ hb)⟩
    · rw [if_pos hne]
      have hg1 : Good cfg (append m st.arr ⟨st.eq, 1⟩ .delimiter) st.cur.start := (hg.append hm 1 (by simp) (by omega)).to (by omega) hsl hb
      obtain ⟨a, ha, hga, _⟩ := value_done hm hg1 (n := st.last) (by omega) (by rw [append_spans hm, if_neg (by simp)]; simp) st.field
      rw [ha, okb]
      exact ⟨_, rfl, hga.to (by omega) hi h4⟩

theorem step_inv {m : Mach} (hm : Rich m) {cfg : CStr} {i : Nat} {c : UInt8} {t : List UInt8} {st : St} (hd : cfg.drop i = c :: t) (h : Inv cfg i st) :
    ∃ st', step m cfg i c st = .ok st' ∧ Inv cfg (i + 1) st' := by
  obtain ⟨hc, hl, _⟩ := getD_of hd
  rw [step]
  by_cases h1 : c = 10 ∨ (st.on ≠ .comment ∧ c = c!"#")
  · rw [if_pos h1]
    obtain ⟨st', hf, hg⟩ := flush_inv hm (by omega) h
    rw [hf, okb]
    by_cases h2 : c = c!"#"
    · rw [if_pos h2]; exact ⟨_, rfl, hg, rfl⟩
    · rw [if_neg h2]
      refine ⟨_, rfl, .gap hg hl ?_, rfl⟩
      rw [hc]
      rcases h1 with h1 | h1
      · exact .inr (.inr h1)
      · exact absurd h1.2 h2
  rw [if_neg h1]
  by_cases h2 : st.on = .comment
  · rw [if_pos h2]
    rw [Inv, h2] at h
    refine ⟨_, rfl, ?_⟩
    rw [Inv]; simp only [h2]
    exact ⟨h.1, by omega⟩
  rw [if_neg h2]
  by_cases h3 : c = c!" " ∨ c = 9
  · rw [if_pos h3]
    have hgap : Gap (cfg.getD i 0) := by rw [hc]; rcases h3 with h | h <;> subst h <;> simp [Gap]
    by_cases h4 : i = st.cur.start ∧ st.cur.len = 0
    · rw [if_pos h4]
      refine ⟨_, rfl, ?_⟩
      rw [Inv] at h ⊢
      cases hon : st.on with
      | none => rw [hon] at h; dsimp only; exact ⟨.gap h.1 hl hgap, by rw [h.2]⟩
      | key => rw [hon] at h; exact absurd h4.2 h.2.1
      | section_ => rw [hon] at h; exact absurd h4.2 h.2.1
      | comment => exact absurd hon h2
      | value =>
        rw [hon] at h
        obtain ⟨hg, he, hes, hsl, hb, hp⟩ := h
        dsimp only
        refine ⟨hg, he, by omega, by omega, fun k h1 h2 => ?_, .inl ⟨h4.2, by dsimp only; omega⟩⟩
        by_cases hk : k = i
        · rw [hk]; exact hgap
        · exact hb k h1 (by omega)
    · rw [if_neg h4]
      refine ⟨_, rfl, ?_⟩
      rw [Inv] at h ⊢
      cases hon : st.on with
      | none => rw [hon] at h; exact absurd ⟨by rw [h.2], by rw [h.2]⟩ h4
      | key => rw [hon] at h; exact ⟨h.1, by simp, h.2.2.gap h.2.1 hgap⟩
      | section_ => rw [hon] at h; exact ⟨h.1, by simp, h.2.2.gap h.2.1 hgap⟩
      | comment => exact absurd hon h2
      | value =>
        rw [hon] at h
        obtain ⟨hg, he, hes, hsl, hb, hp⟩ := h
        refine ⟨hg, he, hes, hsl, hb, hp.gap (fun h0 => ?_) hgap⟩
        rcases hp with hp | hp
        · exact h4 ⟨hp.2.symm, h0⟩
        · exact hp.1 h0
  rw [if_neg h3]
  by_cases h4 : c = c!"=" ∧ st.on = .key
  · rw [if_pos h4]
    rw [Inv, h4.2] at h
    obtain ⟨hg, hne, hp⟩ := h
    rcases hp with hp | ⟨_, h5, h6, h7, h8⟩
    · exact absurd hp.1 hne
    rw [text_ok cfg (by omega), okb]
    refine ⟨_, rfl, ?_⟩
    have hgi : ∀ t : HType, t ≠ .end_ → Good cfg (append m st.arr ⟨st.cur.start, st.last⟩ t) i := fun t ht => (hg.append hm st.last ht (by omega)).to (by omega) (by omega) h8
    refine ⟨hgi _ (by split <;> simp), hl, by simp, by dsimp only; omega, fun k h1 h2 => by dsimp only at h1 h2; omega, .inl ⟨rfl, rfl⟩⟩
  rw [if_neg h4]
  refine ⟨_, rfl, ?_⟩
  rw [Inv] at h ⊢
  cases hon : st.on with
  | none =>
    rw [hon] at h
    have hp : Piece cfg st.cur st.last i := .inl ⟨by rw [h.2], by rw [h.2]⟩
    have hg : Good cfg st.arr st.cur.start := by rw [h.2]; exact h.1
    by_cases hb : c = c!"["
    · simp only [if_pos hb, if_true]; exact ⟨hg, by simp, hp.more⟩
    · simp only [if_neg hb, if_true]; exact ⟨hg, by simp, hp.more⟩
  | key => rw [hon] at h; exact ⟨h.1, by simp, h.2.2.more⟩
  | section_ => rw [hon] at h; exact ⟨h.1, by simp, h.2.2.more⟩
  | comment => exact absurd hon h2
  | value =>
    rw [hon] at h
    obtain ⟨hg, he, hes, hsl, hb, hp⟩ := h
    exact ⟨hg, he, hes, hsl, hb, hp.more⟩

theorem loop_inv {m : Mach} (hm : Rich m) {cfg : CStr} : ∀ (t : List UInt8) (i : Nat) (st : St), cfg.drop i = t → i ≤ cfg.length → Inv cfg i st →
    ∃ st', loop m cfg t i st = .ok st' ∧ Good cfg st'.arr cfg.length
  | [], i, st, hd, hi, h => by
    have : i = cfg.length := by have := congrArg List.length hd; simp at this; omega
    subst this
    exact flush_inv hm (Nat.le_refl _) h
  | c :: t, i, st, hd, hi, h => by
    obtain ⟨st', h1, h2⟩ := step_inv hm hd h
    obtain ⟨_, h3, h4⟩ := getD_of hd
    rw [loop, h1, okb]
    exact loop_inv hm t (i + 1) st' h4 (by omega) h2

/-- C72: with memory, the highlighter finishes for every configuration without touching memory it must not, and its spans are in order, disjoint, not empty and inside the configuration, leave out only white space, and end with the mark of the end. -/
theorem c72_spans (m : Mach) (hm : ∀ n, m.mem n = true) (cfg : CStr) : ∃ spans, highlightConfig m cfg = .ok spans ∧ Tiles cfg 0 spans := by
  obtain ⟨st, h1, h2⟩ := loop_inv hm cfg 0 {} rfl (by omega) (show Inv cfg 0 {} from ⟨.nil, rfl⟩)
  rw [highlightConfig, h1, okb]
  refine ⟨_, rfl, ?_⟩
  rw [append_spans hm, if_neg (by simp)]
  apply Upto.tiles h2 _ _ (by simp)
  rw [Tiles, if_pos rfl]
  exact ⟨rfl, by simp⟩


theorem slice_ok (input : List UInt8) {p q : Nat} (h : p ≤ q) (hq : q ≤ input.length) : slice input p ((q : Int) - p) = .ok ((input.drop p).take (q - p)) := by
  rw [slice, show ((q : Int) - p).toNat = q - p by omega, if_pos (by omega)]

theorem slice_ok' (input : List UInt8) {p n : Nat} (hq : p + n ≤ input.length) : slice input p n = .ok ((input.drop p).take n) := by
  rw [slice, show ((n : Int)).toNat = n by omega, if_pos (by omega)]

/-- What `paint` prints. -/
def painted (input : List UInt8) : List HSpan → Nat → List UInt8
  | [], _ => []
  | h :: t, last =>
    if h.type = .end_ then input.drop last
    else (input.drop last).take (h.start - last) ++ color h.type ++ (input.drop h.start).take h.len ++ b!"\x1b[0m" ++ painted input t (h.start + h.len)

theorem paint_ok {input cfg : List UInt8} (hc : cfg.length ≤ input.length) : ∀ (spans : List HSpan) (p : Nat), p ≤ input.length → Tiles cfg p spans → paint input spans p = .ok (painted input spans p)
  | [], _, _, h => h.elim
  | h :: t, p, hp, ht => by
    rw [Tiles] at ht
    rw [paint, painted]
    by_cases he : h.type = .end_
    · rw [if_pos he, if_pos he, slice_ok input hp (Nat.le_refl _), ← List.length_drop, List.take_length]
    · rw [if_neg he] at ht
      rw [if_neg he, if_neg he, slice_ok input ht.1 (by omega), okb, slice_ok' input (by omega), okb, paint_ok hc t _ (by omega) ht.2.2.2.2, okb]

/-- The bytes from `p` on, each with what is printed around it. -/
def around (input : List UInt8) (spans : List HSpan) (p n : Nat) : List UInt8 :=
  (List.range' p n).flatMap fun k => Spec.before spans color k ++ [input.getD k 0] ++ Spec.after spans k

theorem around_add (input : List UInt8) (spans : List HSpan) (p n k : Nat) : around input spans p (n + k) = around input spans p n ++ around input spans (p + n) k := by
  rw [around, around, around, ← List.flatMap_append, List.range'_append_1]

theorem take_snoc {input : List UInt8} {p n : Nat} (h : p + n < input.length) : (input.drop p).take (n + 1) = (input.drop p).take n ++ [input.getD (p + n) 0] := by
  rw [List.take_add_one]; simp [List.getD_eq_getElem?_getD, h]

/-- Where no span starts or ends, the bytes are printed as they are. -/
theorem around_plain (input : List UInt8) (spans : List HSpan) (p : Nat) : ∀ n, p + n ≤ input.length →
    (∀ k, p ≤ k → k < p + n → Spec.before spans color k = [] ∧ Spec.after spans k = []) → around input spans p n = (input.drop p).take n
  | 0, _, _ => by simp [around]
  | n + 1, hl, h => by
    rw [around_add, around_plain input spans p n (by omega) (fun k h1 h2 => h k h1 (by omega)), take_snoc (by omega)]
    have := h (p + n) (by omega) (by omega)
    simp [around, this.1, this.2]

/-- No span that is not yet printed starts or ends before `q`; `pre` are those printed, which end before `p`. -/
theorem around_painted (input : List UInt8) {cfg : CStr} (hc : cfg.length ≤ input.length) : ∀ (t pre : List HSpan) (p : Nat), p ≤ input.length → Tiles cfg p t →
    (∀ h ∈ pre, h.type ≠ .end_ → 0 < h.len ∧ h.start + h.len ≤ p) → painted input t p = around input (pre ++ t) p (input.length - p) := by
  intro t
  induction t with
  | nil => intro _ _ _ h; exact h.elim
  | cons h t ih =>
    intro pre p hp ht hpre
    have hnb : ∀ k, p ≤ k → pre.find? (fun h => h.type ≠ .end_ ∧ h.start = k) = none := by
      intro k hk
      rw [List.find?_eq_none]
      intro x hx
      by_cases hxe : x.type = .end_
      · simp [hxe]
      · have := hpre x hx hxe
        simp [hxe]; omega
    have hna : ∀ k, p ≤ k → pre.any (fun h => h.type ≠ .end_ ∧ h.start + h.len = k + 1) = false := by
      intro k hk
      rw [List.any_eq_false]
      intro x hx
      by_cases hxe : x.type = .end_
      · simp [hxe]
      · have := hpre x hx hxe
        simp [hxe]; omega
    rw [Tiles] at ht
    rw [painted]
    by_cases he : h.type = .end_
    · rw [if_pos he] at ht ⊢
      rw [around_plain _ _ _ _ (by omega), ← List.length_drop, List.take_length]
      intro k h1 h2
      rw [Spec.before, Spec.after, List.find?_append, hnb k h1, List.any_append, hna k h1, ht.1]
      simp [he]
    · rw [if_neg he] at ht ⊢
      obtain ⟨h1, h2, h3, h4, h5⟩ := ht
      -- what comes later starts behind this span
      have hlater : ∀ (u : List HSpan) (q : Nat), Tiles cfg q u → ∀ x ∈ u, x.type ≠ .end_ → 0 < x.len ∧ q ≤ x.start := by
        intro u
        induction u with
        | nil => intro _ _ x hx; cases hx
        | cons y u ihu =>
          intro q hq x hx hxe
          rw [Tiles] at hq
          by_cases hy : y.type = .end_
          · rw [if_pos hy] at hq
            rw [hq.1] at hx
            rcases List.mem_singleton.1 hx with rfl
            exact absurd hy hxe
          · rw [if_neg hy] at hq
            rcases List.mem_cons.1 hx with rfl | hx
            · exact ⟨hq.2.1, hq.1⟩
            · have := ihu _ hq.2.2.2.2 x hx hxe; exact ⟨this.1, by omega⟩
      have hl := hlater t _ h5
      have hb : ∀ k, p ≤ k → k < h.start + h.len → Spec.before (pre ++ h :: t) color k = if h.start = k then color h.type else [] := by
        intro k hk hk2
        rw [Spec.before, List.find?_append, hnb k hk, Option.none_or, List.find?_cons]
        by_cases hs : h.start = k
        · simp [he, hs]
        · rw [if_neg hs]
          have : t.find? (fun h => h.type ≠ .end_ ∧ h.start = k) = none := by
            rw [List.find?_eq_none]
            intro x hx
            by_cases hxe : x.type = .end_
            · simp [hxe]
            · have := hl x hx hxe
              simp [hxe]; omega
          rw [show decide (h.type ≠ .end_ ∧ h.start = k) = false by simp [hs]]
          dsimp only
          rw [this]; rfl
      have ha : ∀ k, p ≤ k → k < h.start + h.len → Spec.after (pre ++ h :: t) k = if h.start + h.len = k + 1 then b!"\x1b[0m" else [] := by
        intro k hk hk2
        rw [Spec.after, List.any_append, hna k hk, Bool.false_or, List.any_cons]
        have : t.any (fun h => h.type ≠ .end_ ∧ h.start + h.len = k + 1) = false := by
          rw [List.any_eq_false]
          intro x hx
          by_cases hxe : x.type = .end_
          · simp [hxe]
          · have := hl x hx hxe
            simp [hxe]; omega
        rw [this, Bool.or_false]
        by_cases hs : h.start + h.len = k + 1
        · simp [he, hs]
        · simp [hs]
      rw [ih (pre ++ [h]) (h.start + h.len) (by omega) h5, List.append_assoc pre [h] t, List.singleton_append]
      · rw [show input.length - p = (h.start - p) + (h.len + (input.length - (h.start + h.len))) by omega, around_add, around_add]
        rw [show p + (h.start - p) = h.start by omega]
        rw [around_plain input (pre ++ h :: t) p (h.start - p) (by omega)]
        · obtain ⟨n, hn⟩ : ∃ n, h.len = n + 1 := ⟨h.len - 1, by omega⟩
          have hsp : around input (pre ++ h :: t) h.start h.len = color h.type ++ (input.drop h.start).take h.len ++ b!"\x1b[0m" := by
            have key : ∀ j, j ≤ n → around input (pre ++ h :: t) h.start (j + 1) = color h.type ++ (input.drop h.start).take (j + 1) ++ (if j = n then b!"\x1b[0m" else []) := by
              intro j
              induction j with
              | zero =>
                intro _
                rw [take_snoc (by omega)]
                have hb0 := hb h.start (by omega) (by omega)
                have ha0 := ha h.start (by omega) (by omega)
                rw [if_pos rfl] at hb0
                simp only [around, List.range'_succ, List.range'_zero, List.flatMap_cons, List.flatMap_nil, hb0, ha0, Nat.zero_add, Nat.add_zero, List.take_zero, List.nil_append, List.append_nil]
                have : (h.start + h.len = h.start + 1) = (0 = n) := by rw [hn]; apply propext; omega
                simp only [this]
              | succ j ihj =>
                intro hj
                rw [around_add, ihj (by omega), take_snoc (n := j + 1) (by omega), if_neg (by omega)]
                have hb0 := hb (h.start + (j + 1)) (by omega) (by omega)
                have ha0 := ha (h.start + (j + 1)) (by omega) (by omega)
                rw [if_neg (by omega)] at hb0
                simp only [around, List.range'_succ, List.range'_zero, List.flatMap_cons, List.flatMap_nil, hb0, ha0, List.nil_append, List.append_nil, List.append_assoc]
                have : (h.start + h.len = h.start + (j + 1) + 1) = (j + 1 = n) := by rw [hn]; apply propext; omega
                simp only [this]
            have := key n (Nat.le_refl _)
            rw [if_pos rfl, ← hn] at this
            exact this
          rw [hsp]
          simp only [List.append_assoc]
        · intro k hk1 hk2
          rw [hb k hk1 (by omega), ha k hk1 (by omega), if_neg (by omega), if_neg (by omega)]
          exact ⟨rfl, rfl⟩
      · intro x hx hxe
        rcases List.mem_append.1 hx with hx | hx
        · have := hpre x hx hxe; exact ⟨this.1, by omega⟩
        · rcases List.mem_singleton.1 hx with rfl
          exact ⟨h2, by omega⟩

theorem cstr_len (l : List UInt8) : (cstr l).length ≤ l.length := (List.takeWhile_sublist _).length_le

/-- C72: the program prints every byte of its input, in the colours of the spans, also what follows a NUL. -/
theorem c72_prints (m : Mach) (hm : ∀ n, m.mem n = true) (input : List UInt8) :
    ∃ spans, highlightConfig m (cstr input) = .ok spans ∧ main m input = .ok (b!"\x1b[0m" ++ Spec.colored input spans color) := by
  obtain ⟨spans, h1, h2⟩ := c72_spans m hm (cstr input)
  refine ⟨spans, h1, ?_⟩
  rw [main, h1, okb, paint_ok (cstr_len input) spans 0 (by omega) h2, okb, around_painted input (cstr_len input) spans [] 0 (by omega) h2 (by simp)]
  rw [around, Spec.colored, List.range_eq_range']
  rfl

theorem deco_color (t : HType) {i o : List UInt8} (h : Decorated i o) : Decorated i (color t ++ o) := by
  cases t
  all_goals first
    | exact .esc [51, 48] (by decide) (.esc [49] (by decide) h)
    | exact .esc [51, 52] (by decide) (.esc [49] (by decide) h)
    | exact .esc [51, 51] (by decide) (.esc [49] (by decide) h)
    | exact .esc [51, 50] (by decide) (.esc [49] (by decide) h)
    | exact .esc [51, 49] (by decide) (.esc [52] (by decide) h)
    | exact .esc [51, 50] (by decide) h
    | exact .esc [51, 51] (by decide) h
    | exact .esc [51, 53] (by decide) h
    | exact .esc [51, 52] (by decide) h
    | exact .esc [51, 54] (by decide) h
    | exact .esc [51, 55] (by decide) h
    | exact h

theorem deco_reset {i o : List UInt8} (h : Decorated i o) : Decorated i (b!"\x1b[0m" ++ o) := .esc [48] (by decide) h

/-- C72: so what the program prints is its input with colours inserted. -/
theorem c72_only_colours (m : Mach) (hm : ∀ n, m.mem n = true) (input : List UInt8) : ∃ out, main m input = .ok out ∧ Decorated input out := by
  obtain ⟨spans, h1, h2⟩ := c72_prints m hm input
  refine ⟨_, h2, deco_reset ?_⟩
  rw [Spec.colored]
  have key : ∀ (n : Nat) (rest : List UInt8) (o : List UInt8), n ≤ input.length → rest = input.drop n → Decorated rest o →
      Decorated input (((List.range n).flatMap fun k => Spec.before spans color k ++ [input.getD k 0] ++ Spec.after spans k) ++ o) := by
    intro n
    induction n with
    | zero => intro rest o _ hr h; subst hr; exact h
    | succ n ih =>
      intro rest o hn hr h
      rw [List.range_succ, List.flatMap_append, List.append_assoc]
      apply ih (input.drop n) _ (by omega) rfl
      rw [List.drop_eq_getElem_cons (by omega), ← hr]
      have hg : input.getD n 0 = input[n] := by simp [List.getD_eq_getElem?_getD, show n < input.length by omega]
      simp only [List.flatMap_cons, List.flatMap_nil, List.append_nil, hg, List.append_assoc]
      have h3 : Decorated (input[n] :: rest) ([input[n]] ++ (Spec.after spans n ++ o)) := by
        apply Decorated.byte
        rw [Spec.after]
        split
        · exact deco_reset h
        · exact h
      rw [Spec.before]
      cases spans.find? fun h => h.type ≠ .end_ ∧ h.start = n with
      | none => exact h3
      | some x => exact deco_color _ h3
  have := key input.length [] [] (Nat.le_refl _) (by simp) .nil
  rwa [List.append_nil] at this

/-- A machine with memory. -/
def richMach : Mach := ⟨true, fun _ => true⟩

-- a configuration with most kinds of parts
example : ∃ spans, highlightConfig richMach b!"[Interface]\nDNS = ::1, a\n#x\n" = .ok spans ∧ spans =
    [⟨.section_, 0, 11⟩, ⟨.field, 12, 3⟩, ⟨.delimiter, 16, 1⟩, ⟨.ip, 18, 3⟩, ⟨.delimiter, 21, 1⟩, ⟨.host, 23, 1⟩, ⟨.comment, 25, 2⟩, ⟨.end_, 0, 2 ^ 64 - 1⟩] :=
  ⟨_, by decide +kernel, rfl⟩

example : (∀ n, richMach.mem n = true) ∧ main richMach b!"a #b" = .ok b!"\x1b[0m\x1b[31m\x1b[4ma\x1b[0m \x1b[36m#b\x1b[0m" := ⟨fun _ => rfl, by decide +kernel⟩

/-- C72: errors have a colour of their own, and everything has one. -/
theorem c72_error_colour (t : HType) : (color t = color .error ↔ t = .error) ∧ (t ≠ .end_ → color t ≠ []) := by cases t <;> decide

/-- C72, finding: without memory `highlight_config` returns NULL, which the program reads (highlight.c:74 does not check it). -/
theorem c72_counterexample_null : ∃ m : Mach, highlightConfig m b!"a" = .ok [] ∧ main m b!"a" = .ub :=
  ⟨⟨true, fun _ => false⟩, by decide +kernel, by decide +kernel⟩

/-- C72, finding: and with a list that ends with a comma it reads `spans[-1]` of NULL itself (highlighter.c:510). -/
theorem c72_counterexample_list : ∃ m : Mach, highlightConfig m b!"DNS=," = .ub := ⟨⟨true, fun _ => false⟩, by decide +kernel⟩

/-- C72, finding: when an allocation fails later, the spans so far are lost and the rest is given as if it were all: here the 64 comments before the failure and the one at it. -/
theorem c72_counterexample_lost : ∃ (m : Mach) (cfg : List UInt8), cfg = (List.replicate 66 b!"#\n").flatten ∧ (∀ n, n ≠ 1 → m.mem n = true) ∧
    highlightConfig m cfg = .ok [⟨.comment, 130, 1⟩, ⟨.end_, 0, 2 ^ 64 - 1⟩] :=
  ⟨⟨true, fun n => n ≠ 1⟩, _, rfl, fun n h => by simpa using h, by decide +kernel⟩

end WG.Hl
