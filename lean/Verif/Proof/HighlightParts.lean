import Verif.Proof.Highlight
import Verif.Props.Highlight
import Verif.Proof.Dump
/-! The spans of the highlighter are the parts of the configuration. -/
namespace WG.Hl
open Obsd (okb)
open Spec

/-- The text of parts. -/
def partsText (l : List Part) : List UInt8 := l.flatMap (·.2)

theorem partsText_cons (t : Option HType) (v : List UInt8) (x : List Part) : partsText ((t, v) :: x) = v ++ partsText x := rfl

theorem place_append : ∀ (x y : List Part) (o : Nat), place o (x ++ y) = place o x ++ place (o + (partsText x).length) y
  | [], y, o => by simp [partsText, place]
  | (none, v) :: x, y, o => by
    rw [List.cons_append, place, place, place_append x y, partsText_cons, List.length_append, ← Nat.add_assoc]
  | (some t, v) :: x, y, o => by
    rw [List.cons_append, place, place, partsText_cons, List.length_append, ← Nat.add_assoc]
    by_cases hv : v = []
    · subst hv
      rw [if_pos rfl, if_pos rfl, place_append x y]; rfl
    · rw [if_neg hv, if_neg hv, place_append x y]; rfl

theorem append_place {m : Mach} (hm : Rich m) (a : Arr) (o : Nat) (v : List UInt8) (t : HType) : (append m a ⟨o, v.length⟩ t).spans = a.spans ++ place o [(some t, v)] := by
  rw [append_spans hm, place]
  by_cases h : v = []
  · subst h; simp [place]
  · rw [if_neg h, if_neg (by simpa using h)]; rfl

/-- Without the blanks at the end. -/
def rtrim (v : List UInt8) : List UInt8 := (v.reverse.dropWhile isBlank).reverse

theorem core_eq (v : List UInt8) : core v = rtrim (v.dropWhile isBlank) := rfl

theorem pad_eq (v : List UInt8) : lead v ++ core v ++ trail v = v := by
  rw [List.append_assoc, core, trail, ← List.reverse_append, List.takeWhile_append_dropWhile, List.reverse_reverse, lead, List.takeWhile_append_dropWhile]

theorem trail_blank (v : List UInt8) : ∀ c ∈ trail v, isBlank c = true := by
  intro c hc
  rw [trail, List.mem_reverse] at hc
  exact List.mem_takeWhile_imp hc

theorem all_blank {v : List UInt8} (h : ∀ c ∈ v, isBlank c = true) : lead v = v ∧ core v = [] ∧ trail v = [] := by
  have : v.dropWhile isBlank = [] := List.dropWhile_eq_nil_iff.2 h
  refine ⟨List.takeWhile_eq_self_iff.2 h, ?_, ?_⟩
  · rw [core, this]; rfl
  · rw [trail, this]; rfl

theorem core_blank_cons {c : UInt8} (v : List UInt8) (h : isBlank c = true) : lead (c :: v) = c :: lead v ∧ core (c :: v) = core v ∧ trail (c :: v) = trail v := by
  rw [lead, List.takeWhile_cons_of_pos h, core, trail, List.dropWhile_cons_of_pos h]; exact ⟨rfl, rfl, rfl⟩

theorem core_cons {c : UInt8} (v : List UInt8) (h : isBlank c = false) : lead (c :: v) = [] ∧ core (c :: v) = rtrim (c :: v) := by
  rw [lead, List.takeWhile_cons_of_neg (by simp [h]), core, List.dropWhile_cons_of_neg (by simp [h])]; exact ⟨rfl, rfl⟩

/-- `len_at_last_space` after some bytes. -/
def lastOf : Nat → Nat → List UInt8 → Nat
  | l, _, [] => l
  | l, n, c :: t => lastOf (if isBlank c then l else n + 1) (n + 1) t

theorem rtrim_cons (c : UInt8) (t : List UInt8) : rtrim (c :: t) = if rtrim t = [] then (if isBlank c then [] else [c]) else c :: rtrim t := by
  rw [rtrim, rtrim, List.reverse_cons]
  by_cases h : (t.reverse.dropWhile isBlank).reverse = []
  · rw [if_pos h]
    have h' : t.reverse.dropWhile isBlank = [] := by simpa using h
    rw [List.dropWhile_append, h', List.isEmpty_nil, if_pos rfl]
    by_cases hc : isBlank c
    · rw [List.dropWhile_cons_of_pos hc, if_pos hc]; rfl
    · rw [List.dropWhile_cons_of_neg hc, if_neg hc]; rfl
  · rw [if_neg h, List.dropWhile_append]
    have h' : t.reverse.dropWhile isBlank ≠ [] := by simpa using h
    rw [if_neg (by simpa using h'), List.reverse_append]; rfl

theorem lastOf_eq : ∀ (t : List UInt8) (l n : Nat), lastOf l n t = if rtrim t = [] then l else n + (rtrim t).length
  | [], l, n => by simp [lastOf, rtrim]
  | c :: t, l, n => by
    rw [lastOf, lastOf_eq t, rtrim_cons]
    by_cases h : rtrim t = []
    · rw [if_pos h, if_pos h]
      by_cases hc : isBlank c = true
      · rw [if_pos hc, if_pos hc, if_pos rfl]
      · rw [if_neg hc, if_neg hc, if_neg (by simp)]; rfl
    · rw [if_neg h, if_neg h, if_neg (by simp), List.length_cons]; omega

theorem lastOf_core {c : UInt8} (t : List UInt8) (h : isBlank c = false) : lastOf 1 1 t = (core (c :: t)).length := by
  rw [lastOf_eq, (core_cons t h).2, rtrim_cons, if_neg (c := isBlank c = true) (by simp [h])]
  by_cases hr : rtrim t = []
  · rw [if_pos hr, if_pos hr]; rfl
  · rw [if_neg hr, if_neg hr, List.length_cons]; omega

theorem text_at (x v y : List UInt8) : text (x ++ v ++ y) ⟨x.length, v.length⟩ = .ok ⟨v, y.headD 0⟩ := by
  rw [text_ok _ (by simp)]
  have h1 : (x ++ v ++ y).drop x.length = v ++ y := by rw [List.append_assoc]; exact List.drop_left' rfl
  have h2 : (x ++ v ++ y).getD (x.length + v.length) 0 = y.headD 0 := by
    rw [List.getD_eq_getElem?_getD, ← List.length_append, List.getElem?_append_right (by omega), Nat.sub_self]
    cases y <;> rfl
  rw [h1, h2, List.take_left' rfl]

/-- What the byte behind a value cannot be. -/
def Quiet (y : List UInt8) : Prop := y.headD 0 ≠ c!":" ∧ y.headD 0 ≠ c!"."

theorem Quiet.blank {x y : List UInt8} (hx : ∀ c ∈ x, isBlank c = true) (hy : Quiet y) : Quiet (x ++ y) := by
  cases x with
  | nil => exact hy
  | cons c t =>
    have : ∀ c, isBlank c = true → c ≠ c!":" ∧ c ≠ c!"." := by apply forall_u8; decide +kernel
    exact this c (hx c (by simp))

theorem one_check {m : Mach} (hm : Rich m) (a : Arr) (o : Nat) (v : List UInt8) {P : List UInt8 → Prop} {b : Bool} (hb : b = true ↔ P v) (t : HType) :
    (one m a ⟨o, v.length⟩ b t).spans = a.spans ++ place o (check P t v) := by
  rw [one, append_place hm, check]
  by_cases h : P v
  · rw [if_pos (hb.2 h), if_pos h]
  · rw [if_neg (fun hb' => h (hb.1 hb')), if_neg h]

/-- The item of a list field. -/
noncomputable def itemOf (f : Field) : List UInt8 → List Part := if f = .dns then dnsItem else networkItem

theorem item_spec {m : Mach} (hm : Rich m) (x v y : List UInt8) (hy : Quiet y) (a : Arr) {f : Field} (hf : f = .dns ∨ f = .address ∨ f = .allowedIPs) :
    ∃ a', multivalueValue m (x ++ v ++ y) a ⟨x.length, v.length⟩ f = .ok a' ∧ a'.spans = a.spans ++ place x.length (itemOf f v) := by
  rw [multivalueValue, text_at, okb, itemOf]
  by_cases hd : f = .dns
  · rw [if_pos hd, if_pos hd, ipv4_eq, okb]
    dsimp only
    rw [dnsItem]
    by_cases h4 : (pton4 v).isSome = true
    · rw [if_pos h4, okb, if_pos rfl, if_pos (.inl ((ip4_iff v).1 h4))]
      exact ⟨_, rfl, append_place hm ..⟩
    · rw [if_neg h4, ipv6_eq _ ⟨v, y.headD 0⟩ hy, okb]
      dsimp only
      by_cases h6 : (pton6 v).isSome = true
      · rw [if_pos h6, if_pos (.inr ((ip6_iff v).1 h6))]
        exact ⟨_, rfl, append_place hm ..⟩
      · rw [if_neg h6, if_neg (fun h => h.elim (fun h => h4 ((ip4_iff v).2 h)) (fun h => h6 ((ip6_iff v).2 h)))]
        exact ⟨_, rfl, one_check hm a _ v (hostname_eq m.sc ⟨v, _⟩) _⟩
  · rw [if_neg hd, if_neg hd, if_pos (by rcases hf with h | h | h <;> simp_all)]
    obtain ⟨b, hb, hbv⟩ := network_eq m.sc ⟨v, y.headD 0⟩ hy
    rw [hb, okb, networkItem]
    by_cases hn : Network v
    · have hbt : b = true := hbv.2 hn
      rw [if_pos hn, if_neg (by simp [hbt])]
      dsimp only
      have hlen : (v.takeWhile (· ≠ c!"/")).length + (v.dropWhile (· ≠ c!"/")).length = v.length := by
        rw [← List.length_append, List.takeWhile_append_dropWhile]
      by_cases hs : (v.takeWhile (· ≠ c!"/")).length = v.length
      · rw [if_pos hs]
        refine ⟨_, rfl, ?_⟩
        have hd0 : v.dropWhile (· ≠ c!"/") = [] := List.eq_nil_of_length_eq_zero (by omega)
        have ht : v.takeWhile (· ≠ c!"/") = v := by
          have := List.takeWhile_append_dropWhile (p := (· ≠ c!"/")) (l := v); rwa [hd0, List.append_nil] at this
        rw [append_place hm, hd0, ht]
        simp [place]
      · rw [if_neg hs]
        refine ⟨_, rfl, ?_⟩
        have h1 : ((v.dropWhile (· ≠ c!"/")).take 1).length = 1 := by rw [List.length_take]; omega
        have h2 : ((v.dropWhile (· ≠ c!"/")).drop 1).length = v.length - (v.takeWhile (· ≠ c!"/")).length - 1 := by rw [List.length_drop]; omega
        have e2 := append_place hm (append m (append m a ⟨x.length, (v.takeWhile (· ≠ c!"/")).length⟩ .ip) ⟨x.length + (v.takeWhile (· ≠ c!"/")).length, 1⟩ .delimiter)
          (x.length + (v.takeWhile (· ≠ c!"/")).length + 1) ((v.dropWhile (· ≠ c!"/")).drop 1) .cidr
        have e1 := append_place hm (append m a ⟨x.length, (v.takeWhile (· ≠ c!"/")).length⟩ .ip) (x.length + (v.takeWhile (· ≠ c!"/")).length) ((v.dropWhile (· ≠ c!"/")).take 1) .delimiter
        rw [h1] at e1
        rw [h2, e1, append_place hm] at e2
        rw [e2]
        have := place_append [(some .ip, v.takeWhile (· ≠ c!"/"))] [(some .delimiter, (v.dropWhile (· ≠ c!"/")).take 1), (some .cidr, (v.dropWhile (· ≠ c!"/")).drop 1)] x.length
        have h' := place_append [(some .delimiter, (v.dropWhile (· ≠ c!"/")).take 1)] [(some .cidr, (v.dropWhile (· ≠ c!"/")).drop 1)] (x.length + (v.takeWhile (· ≠ c!"/")).length)
        simp only [partsText, List.flatMap_cons, List.flatMap_nil, List.append_nil, List.singleton_append] at this h'
        rw [this, h', h1]; simp only [List.append_assoc]
    · have hbf : ¬ b = true := fun h => hn (hbv.1 h)
      rw [if_neg hn, if_pos hbf]
      exact ⟨_, rfl, append_place hm ..⟩

theorem blank_cond (c : UInt8) : (c = c!" " ∨ c = 9) ↔ isBlank c = true := by rw [isBlank, decide_eq_true_eq]

theorem multi_grow {m : Mach} {cfg : CStr} {f : Field} (rest : List UInt8) : ∀ (x : List UInt8) (i : Nat) (a : Arr) (s n l : Nat), c!"," ∉ x → 0 < n →
    multiLoop m cfg f (x ++ rest) i a ⟨s, n⟩ l = multiLoop m cfg f rest (i + x.length) a ⟨s, n + x.length⟩ (lastOf l n x)
  | [], i, a, s, n, l, _, _ => rfl
  | c :: x, i, a, s, n, l, hx, hn => by
    have hc : c ≠ c!"," := fun h => hx (by simp [h])
    rw [List.cons_append, multiLoop, if_neg hc]
    have ih := fun l => multi_grow (m := m) (cfg := cfg) (f := f) rest x (i + 1) a s (n + 1) l (fun h => hx (List.mem_cons_of_mem _ h)) (by omega)
    have e1 : i + (c :: x).length = i + 1 + x.length := by simp; omega
    have e2 : n + (c :: x).length = n + 1 + x.length := by simp; omega
    rw [e1, e2, lastOf]
    by_cases hb : isBlank c = true
    · rw [if_pos ((blank_cond c).2 hb), if_neg (fun h => by have := h.2; dsimp only at this; omega), if_pos hb]; exact ih l
    · rw [if_neg (fun h => hb ((blank_cond c).1 h)), if_neg hb]; exact ih (n + 1)

theorem multi_piece {m : Mach} {cfg : CStr} {f : Field} (rest : List UInt8) (a : Arr) : ∀ (p : List UInt8) (i : Nat), c!"," ∉ p →
    multiLoop m cfg f (p ++ rest) i a ⟨i, 0⟩ 0 = multiLoop m cfg f rest (i + p.length) a ⟨i + (lead p).length, p.length - (lead p).length⟩ (core p).length
  | [], i, _ => rfl
  | c :: p, i, hp => by
    have hc : c ≠ c!"," := fun h => hp (by simp [h])
    have hp' : c!"," ∉ p := fun h => hp (List.mem_cons_of_mem _ h)
    rw [List.cons_append, multiLoop, if_neg hc]
    have e1 : i + (c :: p).length = i + 1 + p.length := by simp; omega
    rw [e1]
    by_cases hb : isBlank c = true
    · rw [if_pos ((blank_cond c).2 hb), if_pos ⟨rfl, rfl⟩, (core_blank_cons p hb).1, (core_blank_cons p hb).2.1, multi_piece rest a p (i + 1) hp']
      simp only [List.length_cons]
      rw [show i + ((lead p).length + 1) = i + 1 + (lead p).length by omega, Nat.add_sub_add_right]
    · have hb' : isBlank c = false := by simpa using hb
      rw [if_neg (fun h => hb ((blank_cond c).1 h)), multi_grow rest p _ a i _ _ hp' (by simp), (core_cons p hb').1]
      dsimp only
      rw [Nat.zero_add, lastOf_core p hb', List.length_cons, List.length_nil, Nat.sub_zero, Nat.add_comm 1]; rfl

/-- hl:508-511: what follows the loop. -/
def multiFin (m : Mach) (cfg : CStr) (f : Field) (r : Arr × Span × Nat) : Res Arr :=
  if r.2.2 ≠ 0 then multivalueValue m cfg r.1 ⟨r.2.1.start, r.2.2⟩ f
  else match r.1.spans.getLast? with
    | none => .ub
    | some h => .ok (if h.type = .delimiter then { r.1 with spans := r.1.spans.dropLast ++ [{ h with type := .error }] } else r.1)

theorem partsText_padded {f : List UInt8 → List Part} {v : List UInt8} (h : partsText (f (core v)) = core v) : partsText (padded f v) = v := by
  rw [padded, partsText, List.cons_append, List.flatMap_cons, List.flatMap_append]
  have : (f (core v)).flatMap (·.2) = core v := h
  rw [this]
  simp only [List.flatMap_cons, List.flatMap_nil, List.append_nil]
  rw [← List.append_assoc]; exact pad_eq v

theorem place_padded {f : List UInt8 → List Part} (v : List UInt8) (o : Nat) : place o (padded f v) = place (o + (lead v).length) (f (core v)) := by
  rw [padded, List.cons_append, place, place_append]
  simp [place]

theorem check_text (P : List UInt8 → Prop) (t : HType) (v : List UInt8) : partsText (check P t v) = v := by simp [check, partsText]

theorem dns_text (v : List UInt8) : partsText (dnsItem v) = v := by
  rw [dnsItem]
  by_cases h : Ip4 v ∨ Ip6 v
  · rw [if_pos h]; simp [partsText]
  · rw [if_neg h]; exact check_text ..

theorem network_text (v : List UInt8) : partsText (networkItem v) = v := by
  rw [networkItem]
  by_cases h : Network v
  · rw [if_pos h]
    simp only [partsText, List.flatMap_cons, List.flatMap_nil, List.append_nil]
    rw [List.take_append_drop, List.takeWhile_append_dropWhile]
  · rw [if_neg h]; simp [partsText]

theorem item_text (f : Field) (v : List UInt8) : partsText (itemOf f v) = v := by
  rw [itemOf]
  by_cases h : f = .dns
  · rw [if_pos h]; exact dns_text v
  · rw [if_neg h]; exact network_text v

theorem item_nil (f : Field) (o : Nat) : place o (itemOf f []) = [] := by
  have key : ∀ (l : List Part) (o : Nat), partsText l = [] → place o l = [] := by
    intro l
    induction l with
    | nil => intro o _; rfl
    | cons a l ih =>
      intro o h
      obtain ⟨t, v⟩ := a
      rw [partsText, List.flatMap_cons, List.append_eq_nil_iff] at h
      have h1 : v = [] := h.1
      subst h1
      cases t with
      | none => exact ih _ h.2
      | some t => rw [place, if_pos rfl]; exact ih _ h.2
  exact key _ _ (item_text f [])

theorem items_cons (f : List UInt8 → List Part) (p : List UInt8) {r : List (List UInt8)} (h : r ≠ []) :
    items f (p :: r) = padded f p ++ (some (if r.map core = [[]] then .error else .delimiter), b!",") :: items f r := by
  cases r with
  | nil => exact absurd rfl h
  | cons => rfl

theorem multi_last {m : Mach} (hm : Rich m) {f : Field} (hf : f = .dns ∨ f = .address ∨ f = .allowedIPs) {y : List UInt8} (hy : Quiet y) (v X : List UInt8) (a : Arr)
    (Z : List HSpan) (j : Nat) (hc : c!"," ∉ v) (ha : a.spans = Z ++ [⟨.delimiter, j, 1⟩]) :
    ∃ a', (multiLoop m (X ++ v ++ y) f v X.length a ⟨X.length, 0⟩ 0).bind (multiFin m (X ++ v ++ y) f) = .ok a' ∧
      a'.spans = Z ++ ⟨if (splitOn c!"," v).map core = [[]] then .error else .delimiter, j, 1⟩ :: place X.length (items (itemOf f) (splitOn c!"," v)) := by
  have e0 := multi_piece (m := m) (cfg := X ++ v ++ y) (f := f) [] a v X.length hc
  rw [List.append_nil] at e0
  rw [e0, multiLoop, okb, splitOn_free _ _ hc, multiFin]
  dsimp only
  by_cases hcv : core v = []
  · rw [hcv, if_neg (by simp), ha, List.getLast?_concat]
    dsimp only
    rw [if_pos rfl]
    refine ⟨_, rfl, ?_⟩
    dsimp only
    rw [List.dropLast_concat]
    simp only [List.map_cons, List.map_nil, items, hcv, if_true]
    rw [place_padded, hcv, item_nil]
  · rw [if_pos (by simpa using hcv)]
    have e1 : X ++ v ++ y = (X ++ lead v) ++ core v ++ (trail v ++ y) := by
      conv_lhs => rw [← pad_eq v]
      simp
    obtain ⟨a1, h1, h2⟩ := item_spec hm (X ++ lead v) (core v) _ (hy.blank (trail_blank v)) a hf
    rw [← e1, List.length_append] at h1
    rw [List.length_append] at h2
    refine ⟨a1, h1, ?_⟩
    rw [h2, ha, if_neg (by simpa using hcv)]
    rw [items, place_padded]; simp

theorem multi_tail {m : Mach} (hm : Rich m) {f : Field} (hf : f = .dns ∨ f = .address ∨ f = .allowedIPs) {y : List UInt8} (hy : Quiet y) : ∀ (k : Nat) (v X : List UInt8) (a : Arr)
    (Z : List HSpan) (j : Nat), v.length ≤ k → a.spans = Z ++ [⟨.delimiter, j, 1⟩] →
    ∃ a', (multiLoop m (X ++ v ++ y) f v X.length a ⟨X.length, 0⟩ 0).bind (multiFin m (X ++ v ++ y) f) = .ok a' ∧
      a'.spans = Z ++ ⟨if (splitOn c!"," v).map core = [[]] then .error else .delimiter, j, 1⟩ :: place X.length (items (itemOf f) (splitOn c!"," v)) := by
  intro k
  induction k with
  | zero =>
    intro v X a Z j hv ha
    obtain rfl : v = [] := List.eq_nil_of_length_eq_zero (by omega)
    exact multi_last hm hf hy [] X a Z j (by simp) ha
  | succ k ih =>
    intro v X a Z j hv ha
    by_cases hc : c!"," ∈ v
    · obtain ⟨hsplit, _⟩ := split_first hc
      generalize hp : v.takeWhile (· ≠ c!",") = p at hsplit
      generalize (v.dropWhile (· ≠ c!",")).tail = r at hsplit
      have hpc : c!"," ∉ p := by
        intro h; rw [← hp] at h
        have := List.mem_takeWhile_imp h; simp at this
      subst hsplit
      rw [multi_piece (c!"," :: r) a p _ hpc, splitOn_append _ _ _ hpc, items_cons _ _ (splitOn_ne_nil _ _), multiLoop, if_pos rfl]
      have e1 : X ++ (p ++ c!"," :: r) ++ y = (X ++ lead p) ++ core p ++ (trail p ++ (c!"," :: r ++ y)) := by
        conv_lhs => rw [← pad_eq p]
        simp
      have hq : Quiet (trail p ++ (c!"," :: r ++ y)) := .blank (trail_blank p) ⟨by simp, by simp⟩
      obtain ⟨a1, h1, h2⟩ := item_spec hm (X ++ lead p) (core p) _ hq a hf
      rw [← e1, List.length_append] at h1
      rw [List.length_append] at h2
      dsimp only
      rw [h1, okb]
      have e2 : X ++ (p ++ c!"," :: r) ++ y = (X ++ p ++ [c!","]) ++ r ++ y := by simp
      have e3 : X.length + p.length + 1 = (X ++ p ++ [c!","]).length := by simp; omega
      rw [e2, e3]
      have h3 : (append m a1 ⟨X.length + p.length, 1⟩ .delimiter).spans = a1.spans ++ [⟨.delimiter, X.length + p.length, 1⟩] := by
        rw [append_spans hm, if_neg (by simp)]
      obtain ⟨a2, h4, h5⟩ := ih r (X ++ p ++ [c!","]) (append m a1 ⟨X.length + p.length, 1⟩ .delimiter) _ _ (by simp at hv; omega) h3
      refine ⟨a2, h4, ?_⟩
      have hne : ¬ (core p :: (splitOn c!"," r).map core = [[]]) := by
        intro h
        injection h with _ h
        have := splitOn_ne_nil c!"," r
        simp at h; exact this h
      rw [h5, h2, ha, List.map_cons, if_neg hne, place_append, place_padded, partsText_padded (item_text f _)]
      have hw : ∀ t, place (X.length + p.length) ((some t, [44]) :: items (itemOf f) (splitOn 44 r)) = ⟨t, X.length + p.length, 1⟩ :: place ((X ++ p ++ [44]).length) (items (itemOf f) (splitOn 44 r)) := by
        intro t
        rw [place, if_neg (by simp)]; simp [Nat.add_assoc]
      rw [hw]
      simp
    · exact multi_last hm hf hy v X a Z j hc ha

theorem multi_spec {m : Mach} (hm : Rich m) {f : Field} (hf : f = .dns ∨ f = .address ∨ f = .allowedIPs) (x v y : List UInt8) (hy : Quiet y) (hv : core v ≠ []) (a : Arr) :
    ∃ a', multivalue m (x ++ v ++ y) a ⟨x.length, v.length⟩ f = .ok a' ∧ a'.spans = a.spans ++ place x.length (listOf (itemOf f) v) := by
  have h0 : multivalue m (x ++ v ++ y) a ⟨x.length, v.length⟩ f = (multiLoop m (x ++ v ++ y) f v x.length a ⟨x.length, 0⟩ 0).bind (multiFin m (x ++ v ++ y) f) := by
    rw [multivalue, text_at, okb]; rfl
  rw [h0, listOf]
  by_cases hc : c!"," ∈ v
  · obtain ⟨hsplit, _⟩ := split_first hc
    generalize hp : v.takeWhile (· ≠ c!",") = p at hsplit
    generalize (v.dropWhile (· ≠ c!",")).tail = r at hsplit
    have hpc : c!"," ∉ p := by
      intro h; rw [← hp] at h
      have := List.mem_takeWhile_imp h; simp at this
    subst hsplit
    rw [multi_piece (c!"," :: r) a p _ hpc, splitOn_append _ _ _ hpc, items_cons _ _ (splitOn_ne_nil _ _), multiLoop, if_pos rfl]
    have e1 : x ++ (p ++ c!"," :: r) ++ y = (x ++ lead p) ++ core p ++ (trail p ++ (c!"," :: r ++ y)) := by
      conv_lhs => rw [← pad_eq p]
      simp
    have hq : Quiet (trail p ++ (c!"," :: r ++ y)) := .blank (trail_blank p) ⟨by simp, by simp⟩
    obtain ⟨a1, h1, h2⟩ := item_spec hm (x ++ lead p) (core p) _ hq a hf
    rw [← e1, List.length_append] at h1
    rw [List.length_append] at h2
    dsimp only
    rw [h1, okb]
    have e2 : x ++ (p ++ c!"," :: r) ++ y = (x ++ p ++ [c!","]) ++ r ++ y := by simp
    have e3 : x.length + p.length + 1 = (x ++ p ++ [c!","]).length := by simp; omega
    rw [e2, e3]
    have h3 : (append m a1 ⟨x.length + p.length, 1⟩ .delimiter).spans = a1.spans ++ [⟨.delimiter, x.length + p.length, 1⟩] := by
      rw [append_spans hm, if_neg (by simp)]
    obtain ⟨a2, h4, h5⟩ := multi_tail hm hf hy _ r (x ++ p ++ [c!","]) (append m a1 ⟨x.length + p.length, 1⟩ .delimiter) _ _ (Nat.le_refl _) h3
    refine ⟨a2, h4, ?_⟩
    rw [h5, h2, place_append, place_padded, partsText_padded (item_text f _)]
    have hw : ∀ t, place (x.length + p.length) ((some t, [44]) :: items (itemOf f) (splitOn 44 r)) = ⟨t, x.length + p.length, 1⟩ :: place ((x ++ p ++ [44]).length) (items (itemOf f) (splitOn 44 r)) := by
      intro t
      rw [place, if_neg (by simp)]; simp [Nat.add_assoc]
    rw [hw]
    simp
  · have e0 := multi_piece (m := m) (cfg := x ++ v ++ y) (f := f) [] a v x.length hc
    rw [List.append_nil] at e0
    rw [e0, multiLoop, okb, splitOn_free _ _ hc, multiFin]
    dsimp only
    rw [if_pos (by simpa using hv)]
    have e1 : x ++ v ++ y = (x ++ lead v) ++ core v ++ (trail v ++ y) := by
      conv_lhs => rw [← pad_eq v]
      simp
    obtain ⟨a1, h1, h2⟩ := item_spec hm (x ++ lead v) (core v) _ (hy.blank (trail_blank v)) a hf
    rw [← e1, List.length_append] at h1
    rw [List.length_append] at h2
    refine ⟨a1, h1, ?_⟩
    rw [h2, items, place_padded]

end WG.Hl
