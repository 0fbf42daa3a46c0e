import Verif.Proof.HighlightParts
/-! C73: what the highlighter takes each part of a configuration for. -/
namespace WG.Hl
open Obsd (okb)
open Spec

theorem upper_lower (sc : Bool) : ∀ c, lower (upper sc c) = lower c ∧ upper sc (lower c) = upper sc c := by cases sc <;> (apply forall_u8; decide +kernel)

theorem caseless_eq (sc : Bool) (name c : List UInt8) (nx : UInt8) : isCaselessSame sc ⟨name, nx⟩ c = decide (c.map lower = name.map lower) := by
  rw [isCaselessSame]
  apply decide_eq_decide.2
  dsimp only
  have key : ∀ a b : UInt8, upper sc a = upper sc b ↔ lower a = lower b := by
    intro a b
    constructor
    · intro h; rw [← (upper_lower sc a).1, h, (upper_lower sc b).1]
    · intro h; rw [← (upper_lower sc a).2, h, (upper_lower sc b).2]
  induction c generalizing name with
  | nil => cases name <;> simp
  | cons a c ih =>
    cases name with
    | nil => simp
    | cons b name =>
      have ih := ih name
      simp only [List.length_cons, List.zip_cons_cons, List.all_cons, Bool.and_eq_true, decide_eq_true_eq, key, List.map_cons, List.cons.injEq, Nat.add_right_cancel_iff] at ih ⊢
      constructor
      · rintro ⟨h1, h2, h3⟩; exact ⟨h2, ih.1 ⟨h1, h3⟩⟩
      · rintro ⟨h1, h2⟩; exact ⟨(ih.2 h2).1, h1, (ih.2 h2).2⟩

/-- What `fields` says of a field. -/
noncomputable def rowOf : Field → Option (Sect × (List UInt8 → List Part))
  | .privateKey => some (.interface, check KeyText .privateKey)
  | .listenPort => some (.interface, check (Number 0 65535) .port)
  | .address => some (.interface, listOf networkItem)
  | .dns => some (.interface, listOf dnsItem)
  | .mtu => some (.interface, check (Number 576 65535) .mtu)
  | .publicKey => some (.peer, check KeyText .publicKey)
  | .presharedKey => some (.peer, check KeyText .presharedKey)
  | .allowedIPs => some (.peer, listOf networkItem)
  | .endpoint => some (.peer, endpointParts)
  | .persistentKeepalive => some (.peer, check Keepalive .keepalive)
  | .fwMark => some (.interface, check Mark .fwMark)
  | .table => some (.interface, check (·.length < 512) .table)
  | .preUp | .postUp | .preDown | .postDown => some (.interface, check (· ≠ []) .cmd)
  | .saveConfig => some (.interface, check (fun v => v = b!"true" ∨ v = b!"false") .saveConfig)
  | .interfaceSection | .peerSection | .invalid => none

theorem fieldOf_eq (sc : Bool) (name : List UInt8) (nx : UInt8) : fieldOf name = rowOf (getField sc ⟨name, nx⟩) := by
  have h : fields.map (fun f => (f.1, some f.2)) = fieldNames.map fun x => (x.1, rowOf x.2) := rfl
  rw [fieldOf, getField]
  have h1 : ((fields.map (fun f => (f.1, some f.2))).find? fun f => f.1.map lower = name.map lower) =
      ((fieldNames.map fun x => (x.1, rowOf x.2)).find? fun f => f.1.map lower = name.map lower) := by rw [h]
  rw [List.find?_map, List.find?_map] at h1
  have h2 : (fun x : CStr × Field => isCaselessSame sc ⟨name, nx⟩ x.1) = ((fun f => decide (f.1.map lower = name.map lower)) ∘ fun x : CStr × Field => (x.1, rowOf x.2)) := by
    funext x; rw [caseless_eq]; rfl
  rw [h2]
  have h3 : ((fun f => decide (f.1.map lower = name.map lower)) ∘ fun f : List UInt8 × Sect × (List UInt8 → List Part) => (f.1, some f.2)) = fun f => decide (f.1.map lower = name.map lower) := rfl
  rw [h3] at h1
  cases ha : fields.find? fun f => decide (f.1.map lower = name.map lower) with
  | none =>
    rw [ha] at h1
    cases hb : fieldNames.find? ((fun f => decide (f.1.map lower = name.map lower)) ∘ fun x : CStr × Field => (x.1, rowOf x.2)) with
    | none => rfl
    | some y => rw [hb] at h1; cases h1
  | some x =>
    rw [ha] at h1
    cases hb : fieldNames.find? ((fun f => decide (f.1.map lower = name.map lower)) ∘ fun x : CStr × Field => (x.1, rowOf x.2)) with
    | none => rw [hb] at h1; cases h1
    | some y =>
      rw [hb] at h1
      simp only [Option.map_some, Option.some.injEq, Prod.mk.injEq] at h1
      simp only [Option.map_some, Option.getD_some]
      exact h1.2

/-- The section of the machine. -/
def secF : Option Sect → Field
  | none => .invalid
  | some .interface => .interfaceSection
  | some .peer => .peerSection

theorem sectiontype_eq (sc : Bool) (v : List UInt8) (nx : UInt8) : getSectiontype sc ⟨v, nx⟩ = secF (sectionOf v) := by
  rw [getSectiontype, sectionOf, caseless_eq, caseless_eq]
  have h1 : (b!"[Peer]").map lower = b!"[peer]" := by decide
  have h2 : (b!"[Interface]").map lower = b!"[interface]" := by decide
  rw [h1, h2]
  by_cases hp : v.map lower = b!"[peer]"
  · rw [if_pos (by simp [hp]), if_pos hp]; rfl
  · rw [if_neg (by simpa using fun h => hp h.symm), if_neg hp]
    by_cases hi : v.map lower = b!"[interface]"
    · rw [if_pos (by simp [hi]), if_pos hi]; rfl
    · rw [if_neg (by simpa using fun h => hi h.symm), if_neg hi]; rfl

theorem nameType_eq (s : Option Sect) (f : Field) : (if sectionForField f = .invalid ∨ f = .invalid ∨ sectionForField f ≠ secF s then HType.error else .field) =
    if s ≠ none ∧ (rowOf f).map (·.1) = s then .field else .error := by
  rcases s with _ | s
  · cases f <;> simp [secF, sectionForField]
  · cases s <;> cases f <;> simp [secF, sectionForField, rowOf]

theorem table_eq (sc : Bool) (t : Text) : isValidTable sc t = true ↔ t.s.length < 512 := by
  rw [isValidTable, Bool.or_eq_true, Bool.or_eq_true, Bool.or_eq_true, decide_eq_true_eq]
  constructor
  · rintro (((h | h) | h) | h)
    · rw [isSame, decide_eq_true_eq] at h; rw [h.1]; decide
    · rw [isSame, decide_eq_true_eq] at h; rw [h.1]; decide
    · exact h
    · have := ((number_eq sc t _ _).1 h).1; omega
  · intro h; exact .inl (.inr h)

theorem same_eq (t : Text) (c : CStr) : isSame t c = true ↔ t.s = c := by
  rw [isSame, decide_eq_true_eq]
  exact ⟨fun h => h.2, fun h => ⟨by rw [h], h⟩⟩

theorem endpoint_colon {v : List UInt8} (h : EndpointValue v) : c!":" ∈ v := by
  rcases h with ⟨h, p, rfl, _⟩ | ⟨h, p, rfl, _⟩ <;> simp

theorem core_ne_nil {v : List UInt8} (h : core v = v) (hv : v ≠ []) : core v ≠ [] := by rw [h]; exact hv

/-- The value of a field, by its row. -/
def rowParts (r : Option (Sect × (List UInt8 → List Part))) (v : List UInt8) : List Part :=
  match r with
  | some f => f.2 v
  | none => [(some .error, v)]

theorem value_spec {m : Mach} (hm : Rich m) (f : Field) (x v y : List UInt8) (hy : Quiet y) (hv : core v ≠ []) (a : Arr) :
    ∃ a', value m (x ++ v ++ y) a ⟨x.length, v.length⟩ f = .ok a' ∧ a'.spans = a.spans ++ place x.length (rowParts (rowOf f) v) := by
  rw [value, text_at, okb]
  cases f with
  | privateKey => exact ⟨_, rfl, one_check hm a _ v (key_eq m.sc ⟨v, _⟩) _⟩
  | publicKey => exact ⟨_, rfl, one_check hm a _ v (key_eq m.sc ⟨v, _⟩) _⟩
  | presharedKey => exact ⟨_, rfl, one_check hm a _ v (key_eq m.sc ⟨v, _⟩) _⟩
  | mtu => exact ⟨_, rfl, one_check hm a _ v (number_eq m.sc ⟨v, _⟩ _ _) _⟩
  | listenPort => exact ⟨_, rfl, one_check hm a _ v (number_eq m.sc ⟨v, _⟩ _ _) _⟩
  | persistentKeepalive => exact ⟨_, rfl, one_check hm a _ v (keepalive_eq m.sc ⟨v, _⟩) _⟩
  | fwMark => exact ⟨_, rfl, one_check hm a _ v (mark_eq m.sc ⟨v, _⟩) _⟩
  | table => exact ⟨_, rfl, one_check hm a _ v (P := (·.length < 512)) (table_eq m.sc ⟨v, _⟩) _⟩
  | saveConfig =>
    refine ⟨_, rfl, one_check hm a _ v (P := fun v => v = b!"true" ∨ v = b!"false") ?_ _⟩
    rw [isValidSaveconfig, Bool.or_eq_true, same_eq, same_eq]
  | preUp => exact ⟨_, rfl, one_check hm a _ v (P := (· ≠ [])) (by simp [isValidCmd]) _⟩
  | postUp => exact ⟨_, rfl, one_check hm a _ v (P := (· ≠ [])) (by simp [isValidCmd]) _⟩
  | preDown => exact ⟨_, rfl, one_check hm a _ v (P := (· ≠ [])) (by simp [isValidCmd]) _⟩
  | postDown => exact ⟨_, rfl, one_check hm a _ v (P := (· ≠ [])) (by simp [isValidCmd]) _⟩
  | address => exact multi_spec hm (by simp) x v y hy hv a
  | dns => exact multi_spec hm (by simp) x v y hy hv a
  | allowedIPs => exact multi_spec hm (by simp) x v y hy hv a
  | interfaceSection => exact ⟨_, rfl, append_place hm ..⟩
  | peerSection => exact ⟨_, rfl, append_place hm ..⟩
  | invalid => exact ⟨_, rfl, append_place hm ..⟩
  | endpoint =>
    dsimp only
    obtain ⟨b, hb, hbv⟩ := endpoint_eq m.sc ⟨v, y.headD 0⟩
    rw [hb, okb]
    show ∃ a' : Arr, _ ∧ a'.spans = a.spans ++ place x.length (endpointParts v)
    rw [endpointParts]
    by_cases hE : EndpointValue v
    · have hbt : b = true := hbv.2 hE
      rw [if_pos hE, if_neg (by simp [hbt])]
      obtain ⟨hsp, _⟩ := split_first (d := c!":") (v := v.reverse) (by simpa using endpoint_colon hE)
      generalize v.reverse.takeWhile (· ≠ c!":") = p at hsp ⊢
      generalize (v.reverse.dropWhile (· ≠ c!":")).tail = q at hsp
      have hv2 : v = q.reverse ++ c!":" :: p.reverse := by
        have := congrArg List.reverse hsp; rw [List.reverse_reverse] at this; rw [this]; simp
      have hlen : v.length = q.length + 1 + p.length := by rw [hv2]; simp; omega
      dsimp only
      rw [if_neg (by omega)]
      refine ⟨_, rfl, ?_⟩
      have e0 : v.length - 1 - p.length = q.reverse.length := by rw [List.length_reverse]; omega
      have e3 : v.take (v.length - p.reverse.length - 1) = q.reverse := by
        rw [show v.length - p.reverse.length - 1 = q.reverse.length by simp; omega, hv2]; exact List.take_left' rfl
      have e4 : v.length - q.reverse.length - 1 = p.reverse.length := by simp; omega
      rw [e0, e3, e4, append_place hm]
      have e5 := append_place hm (append m a ⟨x.length, q.reverse.length⟩ .host) (x.length + q.reverse.length) [c!":"] .delimiter
      rw [show ([c!":"] : List UInt8).length = 1 from rfl, append_place hm] at e5
      rw [e5]
      have h1 := place_append [(some .host, q.reverse)] [(some .delimiter, b!":"), (some .port, p.reverse)] x.length
      have h2 := place_append [(some .delimiter, b!":")] [(some .port, p.reverse)] (x.length + q.reverse.length)
      simp only [partsText, List.flatMap_cons, List.flatMap_nil, List.append_nil, List.singleton_append] at h1 h2
      rw [h1, h2]
      simp only [List.append_assoc]
      rfl
    · rw [if_neg hE, if_pos (fun h => hE (hbv.1 h))]
      exact ⟨_, rfl, append_place hm ..⟩

theorem loop_blank {m : Mach} {cfg : CStr} (rest : List UInt8) : ∀ (x : List UInt8) (i : Nat) (st : St), (∀ c ∈ x, isBlank c = true) → st.on ≠ .comment → st.cur = ⟨i, 0⟩ →
    loop m cfg (x ++ rest) i st = loop m cfg rest (i + x.length) { st with cur := ⟨i + x.length, 0⟩ }
  | [], i, st, _, _, hc => by
    rw [List.nil_append, List.length_nil, Nat.add_zero, ← hc]
  | c :: x, i, st, hx, ho, hc => by
    have hb := hx c (by simp)
    have hn : ∀ c, isBlank c = true → c ≠ 10 ∧ c ≠ c!"#" := by apply forall_u8; decide +kernel
    rw [List.cons_append, loop, step, if_neg (by have := hn c hb; simp [this]), if_neg ho, if_pos ((blank_cond c).2 hb), if_pos (by rw [hc]; exact ⟨rfl, rfl⟩), okb,
      loop_blank rest x (i + 1) { st with cur := ⟨st.cur.start + 1, st.cur.len⟩ } (fun c h => hx c (by simp [h])) ho (by rw [hc])]
    rw [show i + (c :: x).length = i + 1 + x.length by simp; omega]

theorem loop_grow {m : Mach} {cfg : CStr} (rest : List UInt8) : ∀ (x : List UInt8) (i s n : Nat) (st : St), 10 ∉ x → c!"#" ∉ x → st.on ≠ .comment → st.on ≠ .none → (st.on = .key → c!"=" ∉ x) →
    0 < n → st.cur = ⟨s, n⟩ → loop m cfg (x ++ rest) i st = loop m cfg rest (i + x.length) { st with cur := ⟨s, n + x.length⟩, last := lastOf st.last n x }
  | [], i, s, n, st, _, _, _, _, _, _, hc => by
    rw [List.nil_append, List.length_nil, Nat.add_zero, Nat.add_zero, ← hc, lastOf]
  | c :: x, i, s, n, st, h10, hh, hco, hno, hk, hn, hc => by
    have c10 : c ≠ 10 := fun h => h10 (by simp [h])
    have ch : c ≠ c!"#" := fun h => hh (by simp [h])
    have ck : ¬ (c = c!"=" ∧ st.on = .key) := fun h => hk h.2 (by simp [h.1])
    rw [List.cons_append, loop, step, if_neg (by simp [c10, ch]), if_neg hco, show i + (c :: x).length = i + 1 + x.length by simp; omega,
      show n + (c :: x).length = n + 1 + x.length by simp; omega, lastOf]
    have hx10 : 10 ∉ x := fun h => h10 (List.mem_cons_of_mem _ h)
    have hxh : c!"#" ∉ x := fun h => hh (List.mem_cons_of_mem _ h)
    have hxk : st.on = .key → c!"=" ∉ x := fun ho h => hk ho (List.mem_cons_of_mem _ h)
    by_cases hb : isBlank c = true
    · rw [if_pos ((blank_cond c).2 hb), if_neg (by rw [hc]; dsimp only; omega), okb, if_pos hb]
      exact loop_grow rest x (i + 1) s (n + 1) { st with cur := ⟨st.cur.start, st.cur.len + 1⟩ } hx10 hxh hco hno hxk (by omega) (by rw [hc])
    · rw [if_neg (fun h => hb ((blank_cond c).1 h)), if_neg ck, okb, if_neg hb, if_neg hno]
      have := loop_grow rest x (i + 1) s (n + 1) { st with last := st.cur.len + 1, cur := ⟨st.cur.start, st.cur.len + 1⟩ } hx10 hxh hco hno hxk (by omega) (by rw [hc]) (m := m) (cfg := cfg)
      rw [this, hc]

theorem loop_comment {m : Mach} {cfg : CStr} (rest : List UInt8) : ∀ (x : List UInt8) (i s n : Nat) (st : St), 10 ∉ x → st.on = .comment → st.cur = ⟨s, n⟩ →
    loop m cfg (x ++ rest) i st = loop m cfg rest (i + x.length) { st with cur := ⟨s, n + x.length⟩ }
  | [], i, s, n, st, _, _, hc => by rw [List.nil_append, List.length_nil, Nat.add_zero, Nat.add_zero, ← hc]
  | c :: x, i, s, n, st, h10, ho, hc => by
    have c10 : c ≠ 10 := fun h => h10 (by simp [h])
    rw [List.cons_append, loop, step, if_neg (by simp [c10, ho]), if_pos ho, okb, show i + (c :: x).length = i + 1 + x.length by simp; omega,
      show n + (c :: x).length = n + 1 + x.length by simp; omega]
    exact loop_comment rest x (i + 1) s (n + 1) { st with cur := ⟨st.cur.start, st.cur.len + 1⟩ } (fun h => h10 (List.mem_cons_of_mem _ h)) ho (by rw [hc])

/-- The first byte of a line that is not blank. -/
theorem loop_first {m : Mach} {cfg : CStr} (c : UInt8) (t : List UInt8) (i : Nat) (st : St) (hb : isBlank c = false) (h10 : c ≠ 10) (hh : c ≠ c!"#") (ho : st.on = .none) (hc : st.cur = ⟨i, 0⟩) :
    loop m cfg (c :: t) i st = loop m cfg t (i + 1) { st with on := if c = c!"[" then .section_ else .key, last := 1, cur := ⟨i, 1⟩ } := by
  rw [loop, step, if_neg (by simp [h10, hh]), if_neg (by simp [ho]), if_neg (fun h => by have := (blank_cond c).1 h; rw [hb] at this; cases this), if_neg (by simp [ho]), okb, if_pos ho, hc]

/-- The first byte of a value that is not blank. -/
theorem loop_value {m : Mach} {cfg : CStr} (c : UInt8) (t : List UInt8) (i : Nat) (st : St) (hb : isBlank c = false) (h10 : c ≠ 10) (hh : c ≠ c!"#") (ho : st.on = .value) (hc : st.cur = ⟨i, 0⟩) :
    loop m cfg (c :: t) i st = loop m cfg t (i + 1) { st with last := 1, cur := ⟨i, 1⟩ } := by
  rw [loop, step, if_neg (by simp [h10, hh]), if_neg (by simp [ho]), if_neg (fun h => by have := (blank_cond c).1 h; rw [hb] at this; cases this), if_neg (by simp [ho]), okb, if_neg (by simp [ho]), hc]

theorem rtrim_nb (c : UInt8) (t : List UInt8) (h : isBlank c = false) : rtrim (c :: t) = c :: rtrim t := by
  rw [rtrim_cons]
  by_cases hr : rtrim t = []
  · rw [if_pos hr, if_neg (by simp [h]), hr]
  · rw [if_neg hr]

theorem rtrim_mid (x : List UInt8) (c : UInt8) (t : List UInt8) (h : isBlank c = false) : rtrim (x ++ c :: t) = x ++ c :: rtrim t := by
  induction x with
  | nil => exact rtrim_nb c t h
  | cons a x ih => rw [List.cons_append, rtrim_cons, ih, if_neg (by simp)]; rfl

theorem rtrim_blank {t : List UInt8} (h : ∀ c ∈ t, isBlank c = true) : rtrim t = [] := by
  rw [rtrim, List.dropWhile_eq_nil_iff.2 (by simpa using h)]; rfl

theorem rtrim_mem {t : List UInt8} {c : UInt8} (hb : isBlank c = false) : c ∈ rtrim t ↔ c ∈ t := by
  constructor
  · intro h; rw [rtrim, List.mem_reverse] at h
    have := (List.dropWhile_sublist isBlank).subset h; simpa using this
  · intro h
    obtain ⟨x, y, rfl⟩ := List.append_of_mem h
    rw [rtrim_mid x c y hb]; simp

theorem rtrim_idem (t : List UInt8) : rtrim (rtrim t) = rtrim t := by
  induction t with
  | nil => rfl
  | cons c t ih =>
    rw [rtrim_cons c t]
    by_cases h : rtrim t = []
    · rw [if_pos h]
      by_cases hc : isBlank c = true
      · rw [if_pos hc]; rfl
      · rw [if_neg hc, rtrim_cons, show rtrim [] = [] from rfl, if_pos rfl, if_neg hc]
    · rw [if_neg h, rtrim_cons, ih, if_neg h]

/-- A text is blank, or starts with blanks and something else. -/
theorem blank_or (b : List UInt8) : (∀ c ∈ b, isBlank c = true) ∨ ∃ l c t, b = l ++ c :: t ∧ (∀ x ∈ l, isBlank x = true) ∧ isBlank c = false := by
  induction b with
  | nil => exact .inl (by simp)
  | cons a b ih =>
    by_cases h : isBlank a = true
    · rcases ih with ih | ⟨l, c, t, rfl, h1, h2⟩
      · left; intro c hc; rcases List.mem_cons.1 hc with rfl | hc
        · exact h
        · exact ih c hc
      · right; refine ⟨a :: l, c, t, rfl, ?_, h2⟩
        intro x hx; rcases List.mem_cons.1 hx with rfl | hx
        · exact h
        · exact h1 x hx
    · right; exact ⟨[], a, b, rfl, by simp, by simpa using h⟩

theorem pad_split {l : List UInt8} {c : UInt8} (t : List UInt8) (hl : ∀ x ∈ l, isBlank x = true) (hc : isBlank c = false) : lead (l ++ c :: t) = l ∧ core (l ++ c :: t) = c :: rtrim t := by
  rw [lead, List.takeWhile_append_of_pos hl, List.takeWhile_cons_of_neg (by simp [hc]), List.append_nil, core_eq, List.dropWhile_append_of_pos hl,
    List.dropWhile_cons_of_neg (by simp [hc]), rtrim_nb c t hc]
  exact ⟨rfl, rfl⟩

theorem core_first {c : UInt8} {t : List UInt8} (hc : isBlank c = false) : core (c :: t) = c :: rtrim t := by
  rw [(core_cons t hc).2, rtrim_nb c t hc]

/-- What is behind the trimmed text. -/
theorem rest_of (l : List UInt8) {c : UInt8} (t : List UInt8) (hl : ∀ x ∈ l, isBlank x = true) (hc : isBlank c = false) : ∃ z, (∀ x ∈ z, isBlank x = true) ∧ l ++ c :: t = l ++ core (c :: t) ++ z := by
  refine ⟨trail (l ++ c :: t), trail_blank _, ?_⟩
  have h := pad_eq (l ++ c :: t)
  rw [(pad_split t hl hc).1, (pad_split t hl hc).2, ← core_first hc] at h
  exact h.symm

theorem flush_key {m : Mach} (hm : Rich m) (cfg : CStr) (st : St) (v : List UInt8) (s : Nat) (ho : st.on = .key) (hs : st.cur.start = s) (hl : st.last = v.length) :
    ∃ st', flush m cfg st = .ok st' ∧ st'.arr.spans = st.arr.spans ++ place s [(some .error, v)] ∧ st'.section_ = st.section_ := by
  rw [flush, ho]
  refine ⟨_, rfl, ?_, rfl⟩
  dsimp only
  rw [hs, hl]; exact append_place hm ..

/-- One line without its comment. -/
theorem body_spec {m : Mach} (hm : Rich m) (s : Option Sect) (X b y rest : List UInt8) (hb10 : 10 ∉ b) (hbh : c!"#" ∉ b) (hy : Quiet y) (st : St) (ho : st.on = .none)
    (hcur : st.cur = ⟨X.length, 0⟩) (hsec : st.section_ = secF s) :
    ∃ st' st'', loop m (X ++ b ++ y) (b ++ rest) X.length st = loop m (X ++ b ++ y) rest (X.length + b.length) st' ∧ st'.on ≠ .comment ∧ flush m (X ++ b ++ y) st' = .ok st'' ∧
      st''.arr.spans = st.arr.spans ++ place X.length (padded (bodyParts s) b) ∧ st''.section_ = secF (if (core b).head? = some c!"[" then sectionOf (core b) else s) := by
  rcases blank_or b with hbl | ⟨l, c, t, rfl, hl, hc⟩
  · rw [loop_blank rest b X.length st hbl (by simp [ho]) hcur, place_padded, (all_blank hbl).2.1]
    refine ⟨{ st with cur := ⟨X.length + b.length, 0⟩ }, { st with cur := ⟨X.length + b.length, 0⟩ }, rfl, by simp [ho], ?_, ?_, ?_⟩
    · rw [flush, ho]
    · simp [bodyParts, place]
    · simpa using hsec
  · have hc10 : c ≠ 10 := fun h => hb10 (by simp [h])
    have hch : c ≠ c!"#" := fun h => hbh (by simp [h])
    have ht10 : 10 ∉ t := fun h => hb10 (by simp [h])
    have hth : c!"#" ∉ t := fun h => hbh (by simp [h])
    obtain ⟨z, hz, hz2⟩ := rest_of l t hl hc
    have ecfg : X ++ (l ++ c :: t) ++ y = (X ++ l) ++ core (c :: t) ++ (z ++ y) := by rw [hz2]; simp
    generalize hcfg : X ++ (l ++ c :: t) ++ y = cfg at ecfg ⊢
    have htext := text_at (X ++ l) (core (c :: t)) (z ++ y)
    rw [← ecfg, List.length_append] at htext
    have hp := pad_split t hl hc
    rw [place_padded, hp.1, hp.2, ← core_first hc, List.append_assoc, loop_blank (c :: t ++ rest) l X.length st hl (by simp [ho]) hcur, List.cons_append,
      loop_first c (t ++ rest) (X.length + l.length) _ hc hc10 hch (by exact ho) rfl]
    dsimp only
    have etot : X.length + (l ++ c :: t).length = X.length + l.length + 1 + t.length := by simp; omega
    rw [etot]
    by_cases hbr : c = c!"["
    · rw [if_pos hbr]
      rw [loop_grow rest t _ (X.length + l.length) 1 _ ht10 hth (by simp) (by simp) (by simp) (by omega) rfl]
      refine ⟨_, { st with section_ := secF (sectionOf (core (c :: t))), arr := append m st.arr ⟨X.length + l.length, (core (c :: t)).length⟩ (if secF (sectionOf (core (c :: t))) = .invalid then .error else .section_), cur := ⟨X.length + l.length, (core (c :: t)).length⟩, on := .section_, last := (core (c :: t)).length }, rfl, by simp, ?_, ?_, ?_⟩
      · rw [flush]
        dsimp only
        rw [lastOf_core t hc, htext, okb, sectiontype_eq]
      · dsimp only
        rw [append_place hm, core_first hc, bodyParts, if_pos hbr]
        congr 5
        cases sectionOf (c :: rtrim t) with
        | none => rfl
        | some x => cases x <;> rfl
      · dsimp only
        rw [core_first hc, List.head?_cons, if_pos (by rw [hbr])]
    rw [if_neg hbr]
    have hhd : (if (core (c :: t)).head? = some c!"[" then sectionOf (core (c :: t)) else s) = s := by
      rw [core_first hc, List.head?_cons, if_neg (by simpa using hbr)]
    rw [hhd]
    by_cases heq : c!"=" ∈ t
    · obtain ⟨hsplit, _⟩ := split_first heq
      generalize hk : t.takeWhile (· ≠ c!"=") = k at hsplit
      generalize (t.dropWhile (· ≠ c!"=")).tail = r at hsplit
      have hke : c!"=" ∉ k := by
        intro h; rw [← hk] at h
        have := List.mem_takeWhile_imp h; simp at this
      clear hk
      subst hsplit
      have hk10 : 10 ∉ k := fun h => ht10 (by simp [h])
      have hkh : c!"#" ∉ k := fun h => hth (by simp [h])
      have hr10 : 10 ∉ r := fun h => ht10 (by simp [h])
      have hrh : c!"#" ∉ r := fun h => hth (by simp [h])
      obtain ⟨zk, hzk, hzk2⟩ := rest_of l k hl hc
      have ecfgk : cfg = (X ++ l) ++ core (c :: k) ++ (zk ++ (c!"=" :: r ++ y)) := by
        rw [← hcfg]
        have : l ++ c :: (k ++ c!"=" :: r) = (l ++ c :: k) ++ c!"=" :: r := by simp
        rw [this, hzk2]; simp
      have htextk := text_at (X ++ l) (core (c :: k)) (zk ++ (c!"=" :: r ++ y))
      rw [← ecfgk, List.length_append] at htextk
      rw [List.append_assoc, loop_grow (c!"=" :: r ++ rest) k _ (X.length + l.length) 1 _ hk10 hkh (by simp) (by simp) (fun _ => hke) (by omega) rfl, List.cons_append]
      dsimp only
      rw [lastOf_core k hc, loop, step, if_neg (by simp), if_neg (by simp), if_neg (by decide), if_pos ⟨rfl, rfl⟩]
      dsimp only
      rw [htextk, okb]
      rw [hsec, nameType_eq]
      have hbody : bodyParts s (core (c :: (k ++ c!"=" :: r))) = padded (namePart s) (c :: k) ++
          if rtrim r = [] then [(some .error, b!"=")] else (some .delimiter, b!"=") :: padded (valueParts (core (c :: k))) (rtrim r) := by
        have hnb : isBlank c!"=" = false := by decide
        rw [core_first hc, rtrim_mid k _ r hnb, bodyParts, if_neg hbr, if_neg (by simp)]
        dsimp only
        rw [(first_of hke).1, (first_of hke).2]
        rfl
      rw [hbody, place_append, place_padded, (core_cons k hc).1]
      have hname : partsText (padded (namePart s) (c :: k)) = c :: k := partsText_padded (by simp [namePart, partsText])
      rw [hname]
      have harr : ∀ t', (append m st.arr ⟨X.length + l.length, (core (c :: k)).length⟩ t').spans = st.arr.spans ++ place (X.length + l.length) [(some t', core (c :: k))] := fun t' => append_place hm ..
      have hnp : namePart s (core (c :: k)) = [(some (if s ≠ none ∧ Option.map (fun x => x.1) (rowOf (getField m.sc { s := core (c :: k), next := (zk ++ (c!"=" :: r ++ y)).headD 0 })) = s then HType.field else HType.error), core (c :: k))] := by
        rw [namePart, fieldOf_eq m.sc _ ((zk ++ (c!"=" :: r ++ y)).headD 0)]
      generalize hT : (if s ≠ none ∧ Option.map (fun x => x.1) (rowOf (getField m.sc { s := core (c :: k), next := (zk ++ (c!"=" :: r ++ y)).headD 0 })) = s then HType.field else HType.error) = T at hnp ⊢
      generalize hF : getField m.sc { s := core (c :: k), next := (zk ++ (c!"=" :: r ++ y)).headD 0 } = F at hT ⊢
      have hval : ∀ v, valueParts (core (c :: k)) v = rowParts (rowOf F) v := by
        intro v; rw [← hF, ← fieldOf_eq]; rfl
      generalize hA : append m st.arr ⟨X.length + l.length, (core (c :: k)).length⟩ T = A
      have hA2 : A.spans = st.arr.spans ++ place (X.length + l.length) (namePart s (core (c :: k))) := by rw [← hA, harr, hnp]
      have eo : X.length + l.length + (c :: k).length = X.length + l.length + 1 + k.length := by simp; omega
      rw [eo, List.length_nil, Nat.add_zero]
      have elen2 : X.length + l.length + 1 + (k ++ c!"=" :: r).length = X.length + l.length + 1 + k.length + 1 + r.length := by simp; omega
      rw [elen2]
      generalize hE : X.length + l.length + 1 + k.length = E
      rcases blank_or r with hrb | ⟨l2, d, u, rfl, hl2, hd⟩
      · rw [loop_blank rest r (E + 1) _ hrb (by simp) rfl, rtrim_blank hrb, if_pos rfl]
        refine ⟨_, { st with section_ := secF s, arr := append m A ⟨E, 1⟩ .error, cur := ⟨E + 1 + r.length, 0⟩, on := .value, last := (core (c :: k)).length, field := F, eq := E }, rfl, by simp, ?_, ?_, ?_⟩
        · rw [flush]; simp
        · dsimp only
          have := append_place hm A E b!"=" .error
          rw [show (b!"=").length = 1 from rfl] at this
          rw [this, hA2, List.append_assoc]; rfl
        · rfl
      · have hd10 : d ≠ 10 := fun h => hr10 (by simp [h])
        have hdh : d ≠ c!"#" := fun h => hrh (by simp [h])
        have hu10 : 10 ∉ u := fun h => hr10 (by simp [h])
        have huh : c!"#" ∉ u := fun h => hrh (by simp [h])
        rw [List.append_assoc, loop_blank (d :: u ++ rest) l2 (E + 1) _ hl2 (by simp) rfl, List.cons_append, loop_value d (u ++ rest) _ _ hd hd10 hdh (by simp) rfl]
        dsimp only
        rw [loop_grow rest u _ (E + 1 + l2.length) 1 _ hu10 huh (by simp) (by simp) (by simp) (by omega) rfl]
        dsimp only
        rw [lastOf_core u hd, rtrim_mid l2 d u hd, if_neg (by simp)]
        obtain ⟨zu, hzu, hzu2⟩ := rest_of l2 u hl2 hd
        have ecfgu : cfg = (X ++ l ++ c :: k ++ [c!"="] ++ l2) ++ core (d :: u) ++ (zu ++ y) := by
          rw [← hcfg, hzu2]; simp
        have eX : (X ++ l ++ c :: k ++ [c!"="] ++ l2).length = E + 1 + l2.length := by rw [← hE]; simp; omega
        have hcore : core (core (d :: u)) ≠ [] := by
          rw [core_first hd, core_first hd]; simp
        obtain ⟨A2, hA3, hA4⟩ := value_spec hm F (X ++ l ++ c :: k ++ [c!"="] ++ l2) (core (d :: u)) (zu ++ y) (hy.blank hzu) hcore (append m A ⟨E, 1⟩ .delimiter)
        rw [← ecfgu, eX] at hA3
        rw [eX] at hA4
        rw [show E + 1 + (l2 ++ d :: u).length = E + 1 + l2.length + 1 + u.length by simp; omega]
        refine ⟨_, { st with section_ := secF s, arr := A2, cur := ⟨E + 1 + l2.length, (core (d :: u)).length⟩, on := .value, last := (core (d :: u)).length, field := F, eq := E }, rfl, ?_, ?_, ?_, ?_⟩
        · simp
        · rw [flush]
          dsimp only
          rw [if_pos (by omega), hA3, okb]
        · dsimp only
          have := append_place hm A E b!"=" .delimiter
          rw [show (b!"=").length = 1 from rfl] at this
          rw [hA4, this, hA2]
          have hpl : place E ((some .delimiter, b!"=") :: padded (valueParts (core (c :: k))) (l2 ++ d :: rtrim u)) = place E [(some .delimiter, b!"=")] ++
              place (E + 1 + l2.length) (valueParts (core (c :: k)) (core (d :: u))) := by
            have h := place_append [(some HType.delimiter, b!"=")] (padded (valueParts (core (c :: k))) (l2 ++ d :: rtrim u)) E
            rw [List.singleton_append] at h
            rw [h, place_padded, (pad_split (rtrim u) hl2 hd).1, (pad_split (rtrim u) hl2 hd).2, core_first hd]
            have : rtrim (rtrim u) = rtrim u := rtrim_idem u
            rw [this]; rfl
          rw [hpl, hval]
          simp only [List.append_assoc, Nat.add_zero]
        · rfl
    · rw [loop_grow rest t _ (X.length + l.length) 1 _ ht10 hth (by simp) (by simp) (fun _ => heq) (by omega) rfl]
      dsimp only
      rw [lastOf_core t hc]
      refine ⟨_, { st with arr := append m st.arr ⟨X.length + l.length, (core (c :: t)).length⟩ .error, cur := ⟨X.length + l.length, (core (c :: t)).length⟩, on := .key, last := (core (c :: t)).length }, rfl, by simp, ?_, ?_, ?_⟩
      · rw [flush]
      · dsimp only
        rw [append_place hm]
        rw [core_first hc, bodyParts, if_neg hbr, if_pos (fun h => heq ((rtrim_mem (by decide)).1 h))]
      · exact hsec

theorem partsText_append (x y : List Part) : partsText (x ++ y) = partsText x ++ partsText y := by simp [partsText]

theorem items_text {f : List UInt8 → List Part} (hf : ∀ v, partsText (f v) = v) : ∀ (k : Nat) (v : List UInt8), v.length ≤ k → partsText (items f (splitOn c!"," v)) = v := by
  intro k
  induction k with
  | zero =>
    intro v hv
    obtain rfl : v = [] := List.eq_nil_of_length_eq_zero (by omega)
    exact partsText_padded (hf _)
  | succ k ih =>
    intro v hv
    by_cases hc : c!"," ∈ v
    · obtain ⟨hsplit, _⟩ := split_first hc
      generalize hp : v.takeWhile (· ≠ c!",") = p at hsplit
      generalize (v.dropWhile (· ≠ c!",")).tail = r at hsplit
      have hpc : c!"," ∉ p := by
        intro h; rw [← hp] at h
        have := List.mem_takeWhile_imp h; simp at this
      subst hsplit
      rw [splitOn_append _ _ _ hpc, items_cons _ _ (splitOn_ne_nil _ _), partsText_append, partsText_padded (hf _), partsText_cons, ih r (by simp at hv; omega)]
      rfl
    · rw [splitOn_free _ _ hc]; exact partsText_padded (hf _)

theorem endpoint_text (v : List UInt8) : partsText (endpointParts v) = v := by
  rw [endpointParts]
  by_cases hE : EndpointValue v
  · rw [if_pos hE]
    obtain ⟨hsp, _⟩ := split_first (d := c!":") (v := v.reverse) (by simpa using endpoint_colon hE)
    generalize v.reverse.takeWhile (· ≠ c!":") = p at hsp ⊢
    generalize (v.reverse.dropWhile (· ≠ c!":")).tail = q at hsp
    have hv2 : v = q.reverse ++ c!":" :: p.reverse := by
      have := congrArg List.reverse hsp; rw [List.reverse_reverse] at this; rw [this]; simp
    have e3 : v.take (v.length - p.reverse.length - 1) = q.reverse := by
      rw [show v.length - p.reverse.length - 1 = q.reverse.length by rw [hv2]; simp; omega, hv2]; exact List.take_left' rfl
    dsimp only
    rw [e3, partsText_cons, partsText_cons, partsText_cons]
    conv_rhs => rw [hv2]
    simp [partsText]
  · rw [if_neg hE]; simp [partsText]

theorem value_text (name v : List UInt8) : partsText (valueParts name v) = v := by
  have h : valueParts name v = rowParts (rowOf (getField false ⟨name, 0⟩)) v := by rw [← fieldOf_eq]; rfl
  rw [h]
  cases getField false ⟨name, 0⟩ with
  | address => exact items_text network_text _ v (Nat.le_refl _)
  | allowedIPs => exact items_text network_text _ v (Nat.le_refl _)
  | dns => exact items_text dns_text _ v (Nat.le_refl _)
  | endpoint => exact endpoint_text v
  | interfaceSection => simp [rowParts, rowOf, partsText]
  | peerSection => simp [rowParts, rowOf, partsText]
  | invalid => simp [rowParts, rowOf, partsText]
  | _ => simp [rowParts, rowOf, check_text]

theorem body_text (s : Option Sect) (v : List UInt8) : partsText (bodyParts s (core v)) = core v := by
  rcases blank_or v with hbl | ⟨l, c, t, rfl, hl, hc⟩
  · rw [(all_blank hbl).2.1]; rfl
  rw [(pad_split t hl hc).2, bodyParts]
  by_cases h1 : c = c!"["
  · rw [if_pos h1]; simp [partsText]
  rw [if_neg h1]
  by_cases h2 : c!"=" ∉ rtrim t
  · rw [if_pos h2]; simp [partsText]
  rw [if_neg h2]
  obtain ⟨hsplit, hd⟩ := split_first (Classical.not_not.1 h2)
  dsimp only
  rw [partsText_append, partsText_padded (by simp [namePart, partsText]), hd]
  simp only [List.drop_succ_cons, List.drop_zero]
  conv_rhs => rw [hsplit]
  by_cases h3 : ((rtrim t).dropWhile (· ≠ c!"=")).tail = []
  · rw [if_pos h3, h3]; simp [partsText]
  · rw [if_neg h3, partsText_cons, partsText_padded (value_text _ _)]; simp

theorem line_text (s : Option Sect) (l : List UInt8) : partsText (lineParts s l) = l := by
  rw [lineParts, partsText_append, partsText_padded (body_text s _), partsText_cons]
  simp only [partsText, List.flatMap_nil, List.append_nil]
  exact List.takeWhile_append_dropWhile

/-- One line. -/
theorem line_spec {m : Mach} (hm : Rich m) (s : Option Sect) (X l y : List UInt8) (hl10 : 10 ∉ l) (hy : Quiet y) (st : St) (ho : st.on = .none)
    (hcur : st.cur = ⟨X.length, 0⟩) (hsec : st.section_ = secF s) (rest : List UInt8) :
    ∃ st' st'', loop m (X ++ l ++ y) (l ++ rest) X.length st = loop m (X ++ l ++ y) rest (X.length + l.length) st' ∧ flush m (X ++ l ++ y) st' = .ok st'' ∧
      st''.arr.spans = st.arr.spans ++ place X.length (lineParts s l) ∧ st''.section_ = secF (sectionAfter s l) := by
  rw [lineParts, sectionAfter]
  by_cases hh : c!"#" ∈ l
  · obtain ⟨hsplit, _⟩ := split_first hh
    generalize hb : l.takeWhile (· ≠ c!"#") = b at hsplit
    generalize (l.dropWhile (· ≠ c!"#")).tail = k at hsplit
    have hbh : c!"#" ∉ b := by
      intro h; rw [← hb] at h
      have := List.mem_takeWhile_imp h; simp at this
    clear hb
    subst hsplit
    rw [(first_of hbh).2]
    have hb10 : 10 ∉ b := fun h => hl10 (by simp [h])
    have hk10 : 10 ∉ k := fun h => hl10 (by simp [h])
    obtain ⟨st1, st2, h1, h2, h3, h4, h5⟩ := body_spec hm s X b (c!"#" :: k ++ y) (c!"#" :: k ++ rest) hb10 hbh ⟨by simp, by simp⟩ st ho hcur hsec
    have ecfg : X ++ b ++ (c!"#" :: k ++ y) = X ++ (b ++ c!"#" :: k) ++ y := by simp
    rw [ecfg] at h1 h3
    have hstep : step m (X ++ (b ++ c!"#" :: k) ++ y) (X.length + b.length) c!"#" st1 = .ok { st2 with last := 0, field := .invalid, cur := ⟨X.length + b.length, 1⟩, on := .comment } := by
      rw [step, if_pos (.inr ⟨h2, rfl⟩), h3]; rfl
    rw [List.append_assoc b, h1, List.cons_append, loop, hstep, okb]
    rw [loop_comment rest k _ (X.length + b.length) 1 _ hk10 rfl rfl]
    dsimp only
    rw [show X.length + (b ++ c!"#" :: k).length = X.length + b.length + 1 + k.length by simp; omega]
    refine ⟨_, { st2 with last := 0, field := .invalid, on := .comment, cur := ⟨X.length + b.length, 1 + k.length⟩, arr := append m st2.arr ⟨X.length + b.length, 1 + k.length⟩ .comment }, rfl, ?_, ?_, ?_⟩
    · rw [flush]
    · dsimp only
      have := append_place hm st2.arr (X.length + b.length) (c!"#" :: k) .comment
      rw [show (c!"#" :: k).length = 1 + k.length by simp; omega] at this
      rw [this, h4, place_append, partsText_padded (body_text s _), List.append_assoc]
    · exact h5
  · rw [(dropWhile_nil hh).1, (dropWhile_nil hh).2]
    obtain ⟨st1, st2, h1, h2, h3, h4, h5⟩ := body_spec hm s X l y rest hl10 hh hy st ho hcur hsec
    refine ⟨st1, st2, h1, h3, ?_, h5⟩
    rw [h4, place_append]; simp [place]

theorem linesParts_cons (s : Option Sect) (l : List UInt8) {r : List (List UInt8)} (h : r ≠ []) : linesParts s (l :: r) = lineParts s l ++ (none, [10]) :: linesParts (sectionAfter s l) r := by
  cases r with
  | nil => exact absurd rfl h
  | cons => rfl

theorem lines_spec {m : Mach} (hm : Rich m) : ∀ (k : Nat) (v X : List UInt8) (s : Option Sect) (st : St), v.length ≤ k → st.on = .none → st.cur = ⟨X.length, 0⟩ → st.section_ = secF s →
    ∃ st', loop m (X ++ v) v X.length st = .ok st' ∧ st'.arr.spans = st.arr.spans ++ place X.length (linesParts s (splitOn 10 v)) := by
  have last : ∀ (v X : List UInt8) (s : Option Sect) (st : St), 10 ∉ v → st.on = .none → st.cur = ⟨X.length, 0⟩ → st.section_ = secF s →
      ∃ st', loop m (X ++ v) v X.length st = .ok st' ∧ st'.arr.spans = st.arr.spans ++ place X.length (linesParts s (splitOn 10 v)) := by
    intro v X s st hv ho hc hs
    obtain ⟨st1, st2, h1, h2, h3, _⟩ := line_spec hm s X v [] hv ⟨by simp, by simp⟩ st ho hc hs []
    rw [List.append_nil, List.append_nil] at h1
    rw [List.append_nil] at h2
    rw [h1, loop, splitOn_free _ _ hv]
    exact ⟨st2, h2, h3⟩
  intro k
  induction k with
  | zero =>
    intro v X s st hv
    obtain rfl : v = [] := List.eq_nil_of_length_eq_zero (by omega)
    exact last [] X s st (by simp)
  | succ k ih =>
    intro v X s st hv ho hc hs
    by_cases hn : (10 : UInt8) ∈ v
    · obtain ⟨hsplit, _⟩ := split_first hn
      generalize hp : v.takeWhile (· ≠ 10) = l at hsplit
      generalize (v.dropWhile (· ≠ 10)).tail = r at hsplit
      have hl : 10 ∉ l := by
        intro h; rw [← hp] at h
        have := List.mem_takeWhile_imp h; simp at this
      clear hp
      subst hsplit
      obtain ⟨st1, st2, h1, h2, h3, h4⟩ := line_spec hm s X l (10 :: r) hl ⟨by simp, by simp⟩ st ho hc hs (10 :: r)
      have e : X ++ (l ++ 10 :: r) = X ++ l ++ 10 :: r := by simp
      have hstep : step m (X ++ l ++ 10 :: r) (X.length + l.length) 10 st1 = .ok { st2 with last := 0, field := .invalid, cur := ⟨X.length + l.length + 1, 0⟩, on := .none } := by
        rw [step, if_pos (.inl rfl), h2]; rfl
      rw [e, h1, loop, hstep, okb]
      have e2 : X ++ l ++ 10 :: r = (X ++ l ++ [10]) ++ r := by simp
      have e3 : X.length + l.length + 1 = (X ++ l ++ [10]).length := by simp; omega
      rw [e2, e3]
      obtain ⟨st', h5, h6⟩ := ih r (X ++ l ++ [10]) (sectionAfter s l) { st2 with last := 0, field := .invalid, cur := ⟨(X ++ l ++ [10]).length, 0⟩, on := .none } (by simp at hv; omega) rfl rfl h4
      refine ⟨st', h5, ?_⟩
      rw [h6, h3, splitOn_append _ _ _ hl, linesParts_cons _ _ (splitOn_ne_nil _ _), place_append, line_text, place, ← e3]
      simp
    · exact last v X s st hn ho hc hs

/-- C73: with memory, the spans are those of the parts of the configuration, and the mark of the end. -/
theorem c73_parts (m : Mach) (hm : ∀ n, m.mem n = true) (cfg : List UInt8) : highlightConfig m cfg = .ok (place 0 (parts cfg) ++ [⟨.end_, 0, 2 ^ 64 - 1⟩]) := by
  obtain ⟨st', h1, h2⟩ := lines_spec hm _ cfg [] none {} (Nat.le_refl _) rfl rfl rfl
  rw [List.nil_append] at h1
  rw [highlightConfig]
  rw [List.length_nil] at h1 h2
  rw [h1, okb, append_spans hm, if_neg (by decide), h2]
  rfl

/-- C73: the parts are all of the configuration, in order. -/
theorem c73_all (cfg : List UInt8) : (parts cfg).flatMap (·.2) = cfg := by
  have key : ∀ (k : Nat) (v : List UInt8) (s : Option Sect), v.length ≤ k → partsText (linesParts s (splitOn 10 v)) = v := by
    intro k
    induction k with
    | zero =>
      intro v s hv
      obtain rfl : v = [] := List.eq_nil_of_length_eq_zero (by omega)
      exact line_text s []
    | succ k ih =>
      intro v s hv
      by_cases hn : (10 : UInt8) ∈ v
      · obtain ⟨hsplit, _⟩ := split_first hn
        generalize hp : v.takeWhile (· ≠ 10) = l at hsplit
        generalize (v.dropWhile (· ≠ 10)).tail = r at hsplit
        have hl : 10 ∉ l := by
          intro h; rw [← hp] at h
          have := List.mem_takeWhile_imp h; simp at this
        clear hp
        subst hsplit
        rw [splitOn_append _ _ _ hl, linesParts_cons _ _ (splitOn_ne_nil _ _), partsText_append, line_text, partsText_cons, ih r _ (by simp at hv; omega)]
        rfl
      · rw [splitOn_free _ _ hn]; exact line_text s v
  exact key _ cfg none (Nat.le_refl _)

-- a value in the wrong section, a section without name, an unknown name, an equals sign in front, a list with an empty last item, a network and an endpoint
example : highlightConfig richMach b!"MTU=1280\n[x]\nfoo=1\n=a\n[Peer]\nAllowedIPs=10.0.0.0/8,\nEndpoint=[::1]:2\nPublicKey=" = .ok
    [⟨.error, 0, 3⟩, ⟨.delimiter, 3, 1⟩, ⟨.mtu, 4, 4⟩, ⟨.error, 9, 3⟩, ⟨.error, 13, 3⟩, ⟨.delimiter, 16, 1⟩, ⟨.error, 17, 1⟩, ⟨.error, 19, 2⟩, ⟨.section_, 22, 6⟩,
     ⟨.field, 29, 10⟩, ⟨.delimiter, 39, 1⟩, ⟨.ip, 40, 8⟩, ⟨.delimiter, 48, 1⟩, ⟨.cidr, 49, 1⟩, ⟨.error, 50, 1⟩, ⟨.field, 52, 8⟩, ⟨.delimiter, 60, 1⟩, ⟨.host, 61, 5⟩, ⟨.delimiter, 66, 1⟩, ⟨.port, 67, 1⟩,
     ⟨.field, 69, 9⟩, ⟨.error, 78, 1⟩, ⟨.end_, 0, 2 ^ 64 - 1⟩] := by decide +kernel

end WG.Hl
