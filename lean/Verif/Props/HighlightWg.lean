import Verif.Props.HighlightParts
import Verif.Props.Config
import Verif.Props.Uapi
import Verif.Proof.Showconf
/-! C74: a configuration without errors in the highlighter is one that `wg` takes. -/
namespace WG.Hl
open Obsd (okb)
open Spec

/-- Nothing that shows is an error. -/
def NoErr (l : List Part) : Prop := ∀ p ∈ l, p.2 ≠ [] → p.1 ≠ some .error

theorem noErr_place : ∀ (l : List Part) (o : Nat), (∀ h ∈ place o l, h.type ≠ .error) → NoErr l
  | [], _, _ => by intro p hp; cases hp
  | (none, v) :: r, o, h => by
    intro p hp hne
    rcases List.mem_cons.1 hp with rfl | hp
    · simp
    · exact noErr_place r _ h p hp hne
  | (some t, v) :: r, o, h => by
    rw [place] at h
    intro p hp hne
    by_cases hv : v = []
    · rw [if_pos hv] at h
      rcases List.mem_cons.1 hp with rfl | hp
      · exact absurd hv hne
      · exact noErr_place r _ h p hp hne
    · rw [if_neg hv] at h
      rcases List.mem_cons.1 hp with rfl | hp
      · have := h _ List.mem_cons_self
        simpa using this
      · exact noErr_place r _ (fun x hx => h x (List.mem_cons_of_mem _ hx)) p hp hne

theorem NoErr.left {x y : List Part} (h : NoErr (x ++ y)) : NoErr x := fun p hp => h p (List.mem_append_left _ hp)
theorem NoErr.right {x y : List Part} (h : NoErr (x ++ y)) : NoErr y := fun p hp => h p (List.mem_append_right _ hp)
theorem NoErr.tail {x : Part} {y : List Part} (h : NoErr (x :: y)) : NoErr y := fun p hp => h p (List.mem_cons_of_mem _ hp)
theorem NoErr.padded {f : List UInt8 → List Part} {v : List UInt8} (h : NoErr (padded f v)) : NoErr (f (core v)) := by
  rw [Spec.padded] at h; exact h.left.tail

theorem NoErr.one {t : HType} {v : List UInt8} (h : NoErr [(some t, v)]) (hv : v ≠ []) : t ≠ .error := by
  have := h _ List.mem_cons_self hv
  simpa using this

theorem NoErr.check {P : List UInt8 → Prop} {t : HType} {v : List UInt8} (h : NoErr (check P t v)) (hv : v ≠ []) : P v := by
  rw [Spec.check] at h
  by_cases hp : P v
  · exact hp
  · rw [if_neg hp] at h; exact absurd rfl (h.one hv)

/-- Removing white space. -/
def bare (v : List UInt8) : List UInt8 := v.filter fun c => !isSpace c

theorem blank_space : ∀ c, isBlank c = true → isSpace c = true := by apply forall_u8; decide +kernel

theorem bare_blank {v : List UInt8} (h : ∀ c ∈ v, isBlank c = true) : bare v = [] := by
  rw [bare, List.filter_eq_nil_iff]
  intro c hc
  simp [blank_space c (h c hc)]

theorem bare_append (x y : List UInt8) : bare (x ++ y) = bare x ++ bare y := List.filter_append ..

theorem bare_core (v : List UInt8) : bare (core v) = bare v := by
  conv => rhs; rw [← pad_eq v]
  rw [bare_append, bare_append, bare_blank (v := lead v) (fun c hc => List.mem_takeWhile_imp hc), bare_blank (trail_blank v)]
  simp

theorem bare_id {v : List UInt8} (h : ∀ c ∈ v, isSpace c = false) : bare v = v := by
  rw [bare, List.filter_eq_self]; intro c hc; simp [h c hc]

theorem rtrim_core (v : List UInt8) : rtrim (core v) = core v := by rw [core_eq, rtrim_idem]

theorem core_core_tail {x y : List UInt8} {c : UInt8} (hc : isBlank c = false) {v : List UInt8} (h : core v = x ++ c :: y) : rtrim y = y := by
  have h1 := rtrim_core v
  rw [h, rtrim_mid _ _ _ hc] at h1
  have := List.append_cancel_left h1
  simpa using this

theorem core_empty {y : List UInt8} (hy : rtrim y = y) (h : core y = []) : y = [] := by
  rcases blank_or y with hb | ⟨l, c, t, rfl, hl, hc⟩
  · rw [← hy]; exact rtrim_blank hb
  · rw [(pad_split t hl hc).2] at h; cases h

theorem core_rtrim {y : List UInt8} : core (rtrim y) = core y := by
  rcases blank_or y with hb | ⟨l, c, t, rfl, hl, hc⟩
  · rw [rtrim_blank hb, (all_blank hb).2.1]; rfl
  · rw [rtrim_mid _ _ _ hc, (pad_split t hl hc).2, (pad_split (rtrim t) hl hc).2, rtrim_idem]

theorem core_lead {l y : List UInt8} (hl : ∀ x ∈ l, isBlank x = true) : core (l ++ y) = core y := by
  rcases blank_or y with hb | ⟨l2, c, t, rfl, hl2, hc⟩
  · rw [(all_blank hb).2.1]
    exact (all_blank (fun c hc => by rcases List.mem_append.1 hc with h | h; exact hl c h; exact hb c h)).2.1
  · rw [← List.append_assoc, (pad_split t hl2 hc).2]
    exact (pad_split t (fun c hc => by rcases List.mem_append.1 hc with h | h; exact hl c h; exact hl2 c h) hc).2

theorem core_trail {y z : List UInt8} (hz : ∀ x ∈ z, isBlank x = true) : core (y ++ z) = core y := by
  have h : rtrim (y ++ z) = rtrim y := by
    rw [rtrim, rtrim, List.reverse_append, List.dropWhile_append_of_pos]
    intro c hc; exact hz c (List.mem_reverse.1 hc)
  rw [← core_rtrim (y := y ++ z), h, core_rtrim]

/-- A line whose text without blanks is `name = value` says so. -/
theorem setting_of {l x y : List UInt8} (h : core (l.takeWhile (· ≠ c!"#")) = x ++ c!"=" :: y) (hx : c!"=" ∉ x) : Setting l (core x) (core y) := by
  rw [Setting]
  generalize l.takeWhile (· ≠ c!"#") = b at h
  have hp := pad_eq b
  rw [h] at hp
  refine ⟨lead b ++ x, y ++ trail b, ?_, ?_, ?_, ?_⟩
  · conv => lhs; rw [← hp]
    simp
  · intro hm
    rcases List.mem_append.1 hm with hm | hm
    · have := List.mem_takeWhile_imp hm; exact absurd this (by decide)
    · exact hx hm
  · exact core_lead fun c hc => List.mem_takeWhile_imp hc
  · exact core_trail (trail_blank b)

/-- A header is not a setting of `wg-quick`. -/
theorem header_not_quick {l t : List UInt8} (h : core (l.takeWhile (· ≠ c!"#")) = c!"[" :: t) : ¬ QuickLine l := by
  rintro ⟨n, v, ⟨x, y, hb, hx, rfl, rfl⟩, hq⟩
  rw [hb] at h
  rcases blank_or x with hx | ⟨p, c, r, rfl, hp, hc⟩
  · rw [(all_blank hx).2.1] at hq; exact absurd hq (by decide)
  · rw [(pad_split r hp hc).2] at hq
    rw [List.append_assoc, List.cons_append, (pad_split _ hp hc).2] at h
    obtain rfl : c = c!"[" := by simpa using congrArg List.head? h
    rw [List.map_cons] at hq
    have : ∀ q ∈ quickNames, q.head? ≠ some (lower c!"[") := by decide
    exact this _ hq rfl

/-- The field of a name that has one. -/
theorem row_cases {n : List UInt8} (h : fieldOf n ≠ none) : ∃ x ∈ fieldNames, n.map lower = x.1.map lower ∧ fieldOf n = rowOf x.2 := by
  rw [fieldOf_eq true n 0] at h ⊢
  rw [getField] at h ⊢
  cases hf : fieldNames.find? fun x => isCaselessSame true ⟨n, 0⟩ x.1 with
  | none => rw [hf] at h; exact absurd rfl h
  | some x =>
    rw [hf] at h
    refine ⟨x, List.mem_of_find?_eq_some hf, ?_, rfl⟩
    have := List.find?_some hf
    rw [caseless_eq, decide_eq_true_eq] at this
    exact this.symm

theorem lower_space : ∀ c, isSpace (lower c) = isSpace c := by apply forall_u8; decide +kernel

theorem bare_name {n w : List UInt8} (h : n.map lower = w) (hw : ∀ c ∈ w, isSpace c = false) : bare n = n := by
  apply bare_id
  intro c hc
  rw [← lower_space]
  apply hw
  rw [← h]; exact List.mem_map_of_mem hc

/-- An IPv6 address has a colon. -/
theorem p6_colon : ∀ (t : List UInt8) (val seen : Nat) (tok : CStr), c!":" ∉ t → (pton6Loop [] val seen none tok t).isSome = false
  | [], val, seen, tok, _ => by
    rw [p6_nil]
    by_cases h : seen > 0
    · rw [if_pos h, if_neg (by decide)]; rw [finish_plain]; rfl
    · rw [if_neg h, finish_plain]; rfl
  | c :: t, val, seen, tok, hc => by
    rcases hexDigit_cases c with ⟨_, d, hd⟩ | ⟨_, hd⟩
    · rw [p6_hex hd]
      by_cases h1 : seen = 4
      · rw [if_pos h1]; rfl
      rw [if_neg h1]
      by_cases h2 : val * 16 + d > 0xffff
      · rw [if_pos h2]; rfl
      rw [if_neg h2]
      exact p6_colon t _ _ _ (fun h => hc (List.mem_cons_of_mem _ h))
    · rw [p6_other hd, if_neg (by rintro rfl; exact hc List.mem_cons_self)]
      by_cases h1 : c = c!"." ∧ ([] : List UInt8).length + 4 ≤ 16
      · rw [if_pos h1]
        cases pton4 tok with
        | none => rfl
        | some q => dsimp only; rw [finish_plain]; simp
      · rw [if_neg h1]; rfl

theorem ip6_colon {v : List UInt8} (h : Ip6 v) : c!":" ∈ v := by
  have h := (ip6_iff v).2 h
  rw [pton6_isSome] at h
  cases v with
  | nil => cases h
  | cons a v =>
    by_cases ha : a = 58
    · subst ha; exact List.mem_cons_self
    · rw [p6Start_other v ha] at h
      by_contra hc
      rw [p6_colon _ _ _ _ hc] at h; cases h

theorem ip4_no_colon {v : List UInt8} (h : Ip4 v) : c!":" ∉ v := by
  intro hc
  rcases ip4_chars h _ hc with h | h
  · exact absurd h (by decide)
  · exact absurd h (by decide)

theorem ip_addr {v : List UInt8} (h : Ip4 v ∨ Ip6 v) : c!"/" ∉ v ∧ (∀ c ∈ v, isSpace c = false ∧ c ≠ c!",") ∧ ∃ a, IsAddr pton4 pton6 v a ∧ (Ip4 v → addrBits a = 32) ∧ (Ip6 v → addrBits a = 128) := by
  have k4 : ∀ c, (isDigit c = true ∨ c = c!".") → c ≠ c!"/" ∧ isSpace c = false ∧ c ≠ c!"," := by apply forall_u8; decide +kernel
  have k6 : ∀ c, (isHexDigit c = true ∨ c = c!":" ∨ c = c!".") → c ≠ c!"/" ∧ isSpace c = false ∧ c ≠ c!"," := by apply forall_u8; decide +kernel
  rcases h with h | h
  · refine ⟨fun hc => (k4 _ (ip4_chars h _ hc)).1 rfl, fun c hc => (k4 _ (ip4_chars h _ hc)).2, ?_⟩
    obtain ⟨a, ha⟩ := h
    exact ⟨.v4 a, .inr ⟨ip4_no_colon ⟨a, ha⟩, a, ha, rfl⟩, fun _ => rfl, fun h6 => absurd (ip6_colon h6) (ip4_no_colon ⟨a, ha⟩)⟩
  · refine ⟨fun hc => (k6 _ (ip6_chars h _ hc)).1 rfl, fun c hc => (k6 _ (ip6_chars h _ hc)).2, ?_⟩
    obtain ⟨a, ha⟩ := h
    exact ⟨.v6 a, .inl ⟨ip6_colon ⟨a, ha⟩, a, ha, rfl⟩, fun h4 => absurd (ip6_colon ⟨a, ha⟩) (ip4_no_colon h4), fun _ => rfl⟩

theorem digit_plain : ∀ c, isDigit c = true → isSpace c = false ∧ c ≠ c!"," ∧ c ≠ c!":" := by apply forall_u8; decide +kernel

/-- A network is an entry of AllowedIPs. -/
theorem network_allowed {v : List UInt8} (h : Network v) : (∀ c ∈ v, isSpace c = false ∧ c ≠ c!",") ∧ ∃ a, IsAllowedIP pton4 pton6 v a := by
  have plain : ∀ v, (Ip4 v ∨ Ip6 v) → (∀ c ∈ v, isSpace c = false ∧ c ≠ c!",") ∧ ∃ a, IsAllowedIP pton4 pton6 v a := by
    intro v h
    obtain ⟨h1, h2, a, h3, _⟩ := ip_addr h
    refine ⟨h2, ⟨a, UInt8.ofNat (addrBits a)⟩, v, h1, h3, .inl ⟨rfl, ?_⟩⟩
    cases a <;> rfl
  rcases h with h | h | ⟨ip, m, n, rfl, _, hm, hr⟩
  · exact plain v (.inl h)
  · exact plain v (.inr h)
  · have hip : Ip4 ip ∨ Ip6 ip := hr.imp (·.1) (·.1)
    obtain ⟨h1, h2, a, h3, h4, h5⟩ := ip_addr hip
    have hn : n ≤ addrBits a := by
      rcases hr with ⟨h, hn⟩ | ⟨h, hn⟩
      · rw [h4 h]; exact hn
      · rw [h5 h]; exact hn
    have hb : addrBits a ≤ 128 := by cases a <;> simp [addrBits]
    refine ⟨?_, ⟨a, UInt8.ofNat n⟩, ip, h1, h3, .inr ⟨m, n, rfl, hm, hn, ?_⟩⟩
    · intro c hc
      rcases List.mem_append.1 hc with hc | hc
      · exact h2 c hc
      rcases List.mem_cons.1 hc with rfl | hc
      · decide
      · exact ⟨(digit_plain c (hm.2.1 c hc)).1, (digit_plain c (hm.2.1 c hc)).2.1⟩
    · rw [UInt8.toNat_ofNat']; omega

theorem commaJoin_cons (e : List UInt8) {es : List (List UInt8)} (h : es ≠ []) : commaJoin (e :: es) = e ++ c!"," :: commaJoin es := by
  cases es with
  | nil => exact absurd rfl h
  | cons => rfl

/-- The items of a list without errors are networks. -/
theorem items_network : ∀ (ps : List (List UInt8)), NoErr (items networkItem ps) → (∀ p ∈ ps, core p ≠ []) → ∀ p ∈ ps, Network (core p)
  | [], _, _ => by simp
  | q :: r, h, hne => by
    have h1 : NoErr (padded networkItem q) ∧ (r ≠ [] → NoErr (items networkItem r)) := by
      by_cases hr : r = []
      · subst hr; exact ⟨h, fun h => absurd rfl h⟩
      · rw [items_cons _ _ hr] at h; exact ⟨h.left, fun _ => h.right.tail⟩
    intro p hp
    rcases List.mem_cons.1 hp with rfl | hp
    · have h2 := h1.1.padded
      rw [networkItem] at h2
      by_cases hn : Network (core p)
      · exact hn
      · rw [if_neg hn] at h2; exact absurd rfl (h2.one (hne p List.mem_cons_self))
    · exact items_network r (h1.2 (List.ne_nil_of_mem hp)) (fun p hp => hne p (List.mem_cons_of_mem _ hp)) p hp

theorem bare_splitOn : ∀ (k : Nat) (v : List UInt8), v.length ≤ k → bare v = commaJoin ((splitOn c!"," v).map bare) := by
  intro k
  induction k with
  | zero =>
    intro v hv
    obtain rfl : v = [] := List.eq_nil_of_length_eq_zero (by omega)
    rfl
  | succ k ih =>
    intro v hv
    by_cases hn : c!"," ∈ v
    · obtain ⟨hsplit, _⟩ := split_first hn
      generalize hp : v.takeWhile (· ≠ c!",") = l at hsplit
      generalize (v.dropWhile (· ≠ c!",")).tail = r at hsplit
      have hl : c!"," ∉ l := by
        intro h; rw [← hp] at h
        have := List.mem_takeWhile_imp h; simp at this
      clear hp
      subst hsplit
      rw [splitOn_append _ _ _ hl, List.map_cons, commaJoin_cons _ (by simpa using splitOn_ne_nil _ _), bare_append, ← ih r (by simp at hv; omega)]
      rfl
    · rw [splitOn_free _ _ hn]; rfl

/-- A list of networks is a value of AllowedIPs. -/
theorem list_allowed {v : List UInt8} (h : NoErr (listOf networkItem v)) (hne : ∀ p ∈ splitOn c!"," v, core p ≠ []) : bare v ≠ [] ∧ ∃ l, IsAllowedIPs pton4 pton6 (bare v) l := by
  have hnet := items_network _ h hne
  rw [bare_splitOn _ v (Nat.le_refl _)]
  have hb : ∀ p ∈ splitOn c!"," v, bare p = core p := fun p hp => by
    rw [← bare_core, bare_id]; exact fun c hc => ((network_allowed (hnet p hp)).1 c hc).1
  have hm : (splitOn c!"," v).map bare = (splitOn c!"," v).map core := List.map_congr_left hb
  rw [hm]
  have hs : splitOn c!"," v ≠ [] := splitOn_ne_nil _ _
  generalize splitOn c!"," v = ps at *
  have h1 : commaJoin (ps.map core) ≠ [] := by
    cases ps with
    | nil => exact absurd rfl hs
    | cons p r =>
      have := hne p List.mem_cons_self
      cases r with
      | nil => simpa [commaJoin] using this
      | cons q r => simp [commaJoin]
  have h2 : ∀ (es : List (List UInt8)), (∀ e ∈ es, ∃ a, IsAllowedIP pton4 pton6 e a) → ∃ as, List.Forall₂ (IsAllowedIP pton4 pton6) es as := by
    intro es
    induction es with
    | nil => exact fun _ => ⟨[], .nil⟩
    | cons e es ih =>
      intro h
      obtain ⟨a, ha⟩ := h e List.mem_cons_self
      obtain ⟨as, has⟩ := ih fun e he => h e (List.mem_cons_of_mem _ he)
      exact ⟨a :: as, .cons ha has⟩
  obtain ⟨as, has⟩ := h2 (ps.map core) (by
    intro e he
    obtain ⟨p, hp, rfl⟩ := List.mem_map.1 he
    exact (network_allowed (hnet p hp)).2)
  refine ⟨h1, as, .inr ⟨h1, ps.map core, by simpa using hs, ?_, rfl, has⟩⟩
  intro e he
  obtain ⟨p, hp, rfl⟩ := List.mem_map.1 he
  exact fun hc => ((network_allowed (hnet p hp)).1 _ hc).2 rfl

/-- An endpoint splits into host and port. -/
theorem endpoint_split {v : List UInt8} (h : EndpointValue v) : (∀ c ∈ v, isSpace c = false) ∧ ∃ x p, IsEndpointText v x p := by
  have k6 : ∀ c, (isHexDigit c = true ∨ c = c!":" ∨ c = c!".") → c ≠ c!"]" ∧ isSpace c = false := by apply forall_u8; decide +kernel
  have ks : ∀ c, (isAlpha c = true ∨ isDigit c = true ∨ c ∈ b!"_=+.-") → c ≠ c!"]" ∧ isSpace c = false := by apply forall_u8; decide +kernel
  have k4 : ∀ c, (isDigit c = true ∨ c = c!".") → isSpace c = false := by apply forall_u8; decide +kernel
  have kh : ∀ c, (isAlpha c = true ∨ isDigit c = true ∨ c = c!"-" ∨ c = c!".") → isSpace c = false := by apply forall_u8; decide +kernel
  rcases h with ⟨x, p, rfl, ⟨_, n, hp, _⟩, hx⟩ | ⟨x, p, rfl, ⟨_, n, hp, _⟩, hx⟩
  · have hx' : ∀ c ∈ x, c ≠ c!"]" ∧ isSpace c = false := by
      intro c hc
      rcases hx with hx | ⟨a, z, rfl, ha, hz⟩
      · exact k6 c (ip6_chars hx c hc)
      · rcases List.mem_append.1 hc with hc | hc
        · exact k6 c (ip6_chars ha c hc)
        · rcases List.mem_cons.1 hc with rfl | hc
          · decide
          · exact ks c (hz.2.2 c hc)
    refine ⟨?_, x, p, hp.1, .inl ⟨rfl, fun hc => (hx' _ hc).1 rfl⟩⟩
    intro c hc
    simp only [List.cons_append, List.mem_cons, List.mem_append] at hc
    rcases hc with rfl | hc | rfl | rfl | hc
    · decide
    · exact (hx' c hc).2
    · decide
    · decide
    · exact (digit_plain c (hp.2.1 c hc)).1
  · refine ⟨?_, x, p, hp.1, .inr ⟨?_, rfl, fun hc => (digit_plain _ (hp.2.1 _ hc)).2.2 rfl⟩⟩
    · intro c hc
      rcases List.mem_append.1 hc with hc | hc
      · rcases hx with hx | hx
        · exact k4 c (ip4_chars hx c hc)
        · exact kh c (hx.2.2.1 c hc)
      · rcases List.mem_cons.1 hc with rfl | hc
        · decide
        · exact (digit_plain c (hp.2.1 c hc)).1
    · have := (host_no_colon hx).2
      cases x with
      | nil => simp
      | cons a x => simpa using this

/-- What is asked of the system and of the configuration beside the absence of errors: the system reads addresses and ports as usual, AllowedIPs has no empty items, and endpoints resolve. -/
structure Fair (env : Env) (lines : List (List UInt8)) : Prop where
  pton4 : env.pton4 = pton4
  pton6 : env.pton6 = pton6
  port : ∀ v n, IsDecimal v n → n ≤ 65535 → portOf env v = some (UInt16.ofNat n)
  items : ∀ l ∈ lines, ∀ name v, Setting l name v → name.map lower = b!"allowedips" → ∀ p ∈ splitOn c!"," v, core p ≠ []
  resolve : ∀ l ∈ lines, ∀ name v, Setting l name v → name.map lower = b!"endpoint" → ∀ h p, IsEndpointText v h p → ∃ e, e ≠ .unset ∧ resolvesAlways env h p e

theorem decimal_nospace {v : List UInt8} {n : Nat} (h : IsDecimal v n) : ∀ c ∈ v, isSpace c = false := fun c hc => (digit_plain c (h.2.1 c hc)).1

/-- What a line without errors is for `wg`. -/
def LineOk (env : Env) (s : Option Sect) (l : List UInt8) : Prop :=
  (cleaned l = [] ∧ sectionAfter s l = s) ∨
  (¬ QuickLine l ∧ EqNoCase (cleaned l) b!"[interface]" ∧ sectionAfter s l = some .interface) ∨
  (¬ QuickLine l ∧ EqNoCase (cleaned l) b!"[peer]" ∧ sectionAfter s l = some .peer) ∨
  (s = some .interface ∧ sectionAfter s l = s ∧ (QuickLine l ∨ ∃ d, DevLine (docStable env) (cleaned l) d)) ∨
  (s = some .peer ∧ sectionAfter s l = s ∧ ∃ p, PeerLine (docStable env) (cleaned l) p)

theorem header_bare : ∀ w ∈ [b!"[peer]", b!"[interface]"], ∀ c ∈ w, isSpace c = false := by decide
theorem field_bare : ∀ x ∈ fieldNames, ∀ c ∈ x.1.map lower, isSpace c = false := by decide

theorem line_ok {env : Env} {lines : List (List UInt8)} (hF : Fair env lines) (s : Option Sect) {l : List UInt8} (hl : l ∈ lines) (h : NoErr (lineParts s l)) : LineOk env s l := by
  have hb : NoErr (bodyParts s (core (l.takeWhile (· ≠ c!"#")))) := by rw [lineParts] at h; exact h.left.padded
  have hcl : cleaned l = bare (core (l.takeWhile (· ≠ c!"#"))) := (bare_core _).symm
  cases hc : core (l.takeWhile (· ≠ c!"#")) with
  | nil =>
    rw [hc] at hcl
    exact .inl ⟨hcl, by rw [sectionAfter, hc]; rfl⟩
  | cons c t =>
    rw [hc] at hb hcl
    rw [bodyParts] at hb
    by_cases hbr : c = c!"["
    · rw [if_pos hbr] at hb
      have hs : sectionOf (c :: t) ≠ none := by
        intro h0; rw [if_pos h0] at hb; exact absurd rfl (hb.one (by simp))
      have hq : ¬ QuickLine l := header_not_quick (by rw [hc, hbr])
      have ha : sectionAfter s l = sectionOf (c :: t) := by
        rw [sectionAfter, hc]; rw [if_pos (by rw [hbr]; rfl)]
      rw [LineOk, ha]
      rw [sectionOf] at hs ⊢
      by_cases hp : (c :: t).map lower = b!"[peer]"
      · refine .inr (.inr (.inl ⟨hq, ?_, if_pos hp⟩))
        rw [hcl, bare_name hp (header_bare _ (by simp))]; exact hp
      · rw [if_neg hp] at hs ⊢
        by_cases hi : (c :: t).map lower = b!"[interface]"
        · refine .inr (.inl ⟨hq, ?_, if_pos hi⟩)
          rw [hcl, bare_name hi (header_bare _ (by simp))]; exact hi
        · rw [if_neg hi] at hs; exact absurd rfl hs
    rw [if_neg hbr] at hb
    have ha : sectionAfter s l = s := by
      rw [sectionAfter, hc]; rw [if_neg (by simpa using hbr)]
    by_cases heq : c!"=" ∉ t
    · rw [if_pos heq] at hb; exact absurd rfl (hb.one (by simp))
    rw [if_neg heq] at hb
    rw [not_not] at heq
    obtain ⟨hsp, hd⟩ := split_first heq
    have hx2 : c!"=" ∉ t.takeWhile (· ≠ c!"=") := by
      intro h; have := List.mem_takeWhile_imp h; simp at this
    rw [hd] at hb
    generalize t.takeWhile (· ≠ c!"=") = x at hb hsp hx2
    generalize (t.dropWhile (· ≠ c!"=")).tail = y at hb hsp hd
    clear hd
    subst hsp
    have hcb : isBlank c = false := by
      have h1 := hc
      rcases blank_or (l.takeWhile (· ≠ c!"#")) with h2 | ⟨l2, c2, t2, h2, hl2, hc2⟩
      · rw [(all_blank h2).2.1] at h1; cases h1
      · rw [h2, (pad_split t2 hl2 hc2).2] at h1
        have := congrArg List.head? h1
        simp only [List.head?_cons, Option.some.injEq] at this
        rw [← this]; exact hc2
    rw [List.drop_one, List.tail_cons] at hb
    have hname := hb.left.padded
    have hval := hb.right
    have hy0 : y ≠ [] := by
      intro h0; rw [if_pos h0] at hval; exact absurd rfl (hval.one (by decide))
    rw [if_neg hy0] at hval
    have hval := hval.tail.padded
    have hyr : rtrim y = y := core_core_tail (x := c :: x) (c := c!"=") (by decide) hc
    have hy : core y ≠ [] := fun h0 => hy0 (core_empty hyr h0)
    have hn0 : core (c :: x) ≠ [] := by rw [core_first hcb]; simp
    rw [namePart] at hname
    have hsec : s ≠ none ∧ (fieldOf (core (c :: x))).map (·.1) = s := by
      by_contra h0; rw [if_neg h0] at hname; exact absurd rfl (hname.one hn0)
    have hfo : fieldOf (core (c :: x)) ≠ none := by
      intro h0; rw [h0] at hsec; exact hsec.1 hsec.2.symm
    obtain ⟨f, hf, hfn, hfr⟩ := row_cases hfo
    rw [hfr] at hsec
    have hce : c!"=" ∉ c :: x ∨ c = c!"=" := by
      by_cases h : c = c!"="
      · exact .inr h
      · exact .inl (by intro hm; rcases List.mem_cons.1 hm with hm | hm; exact h hm.symm; exact hx2 hm)
    have hce : c!"=" ∉ c :: x := by
      rcases hce with h | h
      · exact h
      · exfalso
        have : ∀ f ∈ fieldNames, (f.1.map lower).head? ≠ some (lower c!"=") := by decide
        apply this f hf
        rw [← hfn, core_first hcb, h]; rfl
    have hset : Setting l (core (c :: x)) (core y) := setting_of (x := c :: x) hc hce
    have hcl2 : cleaned l = core (c :: x) ++ c!"=" :: bare (core y) := by
      rw [hcl, show c :: (x ++ c!"=" :: y) = (c :: x) ++ (b!"=" ++ y) by simp, bare_append, bare_append, ← bare_core (c :: x), ← bare_core y, bare_name hfn (field_bare f hf)]
      rfl
    rw [valueParts, hfr] at hval
    generalize core (c :: x) = n at *
    generalize core y = v at *
    have hD : ∀ w, s = some .interface → n.map lower = w → bare v ≠ [] → ((IsSetting (cleaned l) w (bare v)) → ∃ d, DevLine (docStable env) (cleaned l) d) → LineOk env s l :=
      fun w h1 h2 h3 h4 => .inr (.inr (.inr (.inl ⟨h1, ha, .inr (h4 ⟨h3, n, h2, hcl2⟩)⟩)))
    have hP : ∀ w, s = some .peer → n.map lower = w → bare v ≠ [] → ((IsSetting (cleaned l) w (bare v)) → ∃ d, PeerLine (docStable env) (cleaned l) d) → LineOk env s l :=
      fun w h1 h2 h3 h4 => .inr (.inr (.inr (.inr ⟨h1, ha, h4 ⟨h3, n, h2, hcl2⟩⟩)))
    have hQ : n.map lower ∈ quickNames → s = some .interface → LineOk env s l :=
      fun h1 h2 => .inr (.inr (.inr (.inl ⟨h2, ha, .inl ⟨n, v, hset, h1⟩⟩)))
    have hkey : KeyText v → bare v = v ∧ ∃ k : Key, v = rfc4648 k.toList := fun ⟨k, hk⟩ => ⟨by rw [hk]; exact filter_bare (bare_key k), k, hk⟩
    simp only [fieldNames, List.mem_cons, List.not_mem_nil, or_false] at hf
    rcases hf with rfl | rfl | rfl | rfl | rfl | rfl | rfl | rfl | rfl | rfl | rfl | rfl | rfl | rfl | rfl | rfl | rfl
    · -- PrivateKey
      obtain ⟨h1, k, h2⟩ := hkey (hval.check hy)
      exact hD _ hsec.2.symm hfn (by rw [h1]; exact hy) fun h => ⟨_, .privateKey h (h1.trans h2)⟩
    · -- ListenPort
      obtain ⟨_, m, h1, _, h2⟩ := hval.check hy
      have h3 := bare_id (decimal_nospace h1)
      exact hD _ hsec.2.symm hfn (by rw [h3]; exact hy) fun h => ⟨_, .listenPort h (by rw [h3]; exact ⟨hy, hF.port v m h1 h2⟩)⟩
    · exact hQ (by rw [hfn]; decide) hsec.2.symm
    · exact hQ (by rw [hfn]; decide) hsec.2.symm
    · exact hQ (by rw [hfn]; decide) hsec.2.symm
    · -- PublicKey
      obtain ⟨h1, k, h2⟩ := hkey (hval.check hy)
      exact hP _ hsec.2.symm hfn (by rw [h1]; exact hy) fun h => ⟨_, .publicKey h (h1.trans h2)⟩
    · -- PresharedKey
      obtain ⟨h1, k, h2⟩ := hkey (hval.check hy)
      exact hP _ hsec.2.symm hfn (by rw [h1]; exact hy) fun h => ⟨_, .presharedKey h (h1.trans h2)⟩
    · -- AllowedIPs
      obtain ⟨h1, ips, h2⟩ := list_allowed hval (hF.items l hl n v hset hfn)
      exact hP _ hsec.2.symm hfn h1 fun h => ⟨_, .allowedIPs h (show IsAllowedIPs env.pton4 env.pton6 _ ips by rw [hF.pton4, hF.pton6]; exact h2)⟩
    · -- Endpoint
      have hE : EndpointValue v := by
        by_contra h0
        change NoErr (endpointParts v) at hval
        rw [endpointParts, if_neg h0] at hval; exact absurd rfl (hval.one hy)
      obtain ⟨h1, a, p, h2⟩ := endpoint_split hE
      obtain ⟨e, h3, h4⟩ := hF.resolve l hl n v hset hfn a p h2
      rw [← bare_id h1] at h2
      exact hP _ hsec.2.symm hfn (by rw [bare_id h1]; exact hy) fun h => ⟨_, .endpoint h ⟨h3, a, p, h2, h4⟩⟩
    · -- PersistentKeepalive
      rcases hval.check hy with h1 | ⟨_, m, h1, _, h2⟩
      · have h3 : bare v = v := by rw [h1]; decide
        exact hP _ hsec.2.symm hfn (by rw [h3]; exact hy) fun h => ⟨.keepalive 0, .keepalive h (show IsKeepalive _ _ by rw [h3, h1]; exact .inl ⟨by rw [EqNoCase]; decide, rfl⟩)⟩
      · have h3 := bare_id (decimal_nospace h1)
        refine hP _ hsec.2.symm hfn (by rw [h3]; exact hy) fun h => ⟨.keepalive (UInt16.ofNat m), .keepalive h (show IsKeepalive _ _ from .inr ?_)⟩
        rw [h3, UInt16.toNat_ofNat', Nat.mod_eq_of_lt (by omega)]
        exact ⟨h1, h2⟩
    · -- FwMark
      rcases hval.check hy with h1 | ⟨_, m, h1, _, h2⟩ | ⟨hlen, x, m, h1, h2⟩
      · have h3 : bare v = v := by rw [h1]; decide
        exact hD _ hsec.2.symm hfn (by rw [h3]; exact hy) fun h => ⟨.fwmark 0, .fwmark h (show IsFwmark _ _ by rw [h3, h1]; exact .inl ⟨by rw [EqNoCase]; decide, rfl⟩)⟩
      · have h3 := bare_id (decimal_nospace h1)
        refine hD _ hsec.2.symm hfn (by rw [h3]; exact hy) fun h => ⟨.fwmark (UInt32.ofNat m), .fwmark h (show IsFwmark _ _ from .inr ?_)⟩
        rw [h3, UInt32.toNat_ofNat', Nat.mod_eq_of_lt (by omega)]
        exact ⟨by omega, .inl h1⟩
      · have h3 : bare v = v := by
          rw [h1]; exact filter_bare (Bare.append (by decide) (bare_hex h2.2.1))
        have hm : m < 2 ^ 32 := by
          have := hexNum_bound x 0 0 h2.2.1 (by decide)
          rw [h1] at hlen
          have h4 : x.length ≤ 8 := by simp at hlen; omega
          have h5 : m = x.foldl (fun n c => 16 * n + hexDigitVal c) 0 := h2.2.2
          rw [← h5, Nat.zero_add] at this
          calc m < 16 ^ x.length := this
            _ ≤ 16 ^ 8 := Nat.pow_le_pow_right (by decide) h4
            _ = 2 ^ 32 := by decide
        refine hD _ hsec.2.symm hfn (by rw [h3]; exact hy) fun h => ⟨.fwmark (UInt32.ofNat m), .fwmark h (show IsFwmark _ _ from .inr ?_)⟩
        rw [h3, UInt32.toNat_ofNat', Nat.mod_eq_of_lt (by omega)]
        exact ⟨hm, .inr ⟨x, h1, h2⟩⟩
    all_goals exact hQ (by rw [hfn]; decide) hsec.2.symm

/-- The lines that `wg` gets, cleaned and without empty ones. -/
noncomputable def wgLines (lines : List (List UInt8)) : List (List UInt8) :=
  open Classical in ((lines.filter fun l => ¬ QuickLine l).map cleaned).filter (· ≠ [])

theorem wgLines_skip {l : List UInt8} {r : List (List UInt8)} (h : QuickLine l ∨ cleaned l = []) : wgLines (l :: r) = wgLines r := by
  classical
  rw [wgLines, wgLines, List.filter_cons]
  by_cases hq : QuickLine l
  · rw [if_neg (by simpa using hq)]
  · rw [if_pos (by simpa using hq), List.map_cons, List.filter_cons, if_neg (by simpa using h.resolve_left hq)]

theorem wgLines_keep {l : List UInt8} {r : List (List UInt8)} (h : ¬ QuickLine l) (h2 : cleaned l ≠ []) : wgLines (l :: r) = cleaned l :: wgLines r := by
  classical
  rw [wgLines, wgLines, List.filter_cons, if_pos (by simpa using h), List.map_cons, List.filter_cons, if_pos (by simpa using h2)]

theorem devLine_ne {V : ValueSyntax} {l : List UInt8} {d : DevSetting} (h : DevLine V l d) : l ≠ [] := by
  cases h with
  | listenPort h | fwmark h | privateKey h => obtain ⟨_, k, _, rfl⟩ := h; simp

theorem peerLine_ne {V : ValueSyntax} {l : List UInt8} {d : PeerSetting} (h : PeerLine V l d) : l ≠ [] := by
  cases h with
  | endpoint h | publicKey h | allowedIPs h | keepalive h | presharedKey h => obtain ⟨_, k, _, rfl⟩ := h; simp

/-- What is left to read in a section. -/
def Remains (V : ValueSyntax) (s : Option Sect) (ls : List (List UInt8)) : Prop :=
  ∃ body chunks secs, ls = body ++ List.flatten chunks ∧ List.Forall₂ (SectionSays V) chunks secs ∧
    match s with
    | none => body = []
    | some .interface => ∃ l, List.Forall₂ (DevLine V) body l
    | some .peer => ∃ l, List.Forall₂ (PeerLine V) body l

theorem remains_nil (V : ValueSyntax) (s : Option Sect) : Remains V s [] := by
  refine ⟨[], [], [], rfl, .nil, ?_⟩
  rcases s with _ | _ | _
  · rfl
  · exact ⟨[], .nil⟩
  · exact ⟨[], .nil⟩

theorem remains_header {V : ValueSyntax} {h : List UInt8} {ls : List (List UInt8)} (s : Option Sect) (hh : (EqNoCase h b!"[interface]" ∧ Remains V (some .interface) ls) ∨ (EqNoCase h b!"[peer]" ∧ Remains V (some .peer) ls)) :
    Remains V s (h :: ls) := by
  have key : ∃ chunks secs, h :: ls = List.flatten chunks ∧ List.Forall₂ (SectionSays V) chunks secs := by
    rcases hh with ⟨h1, body, chunks, secs, rfl, h2, l, h3⟩ | ⟨h1, body, chunks, secs, rfl, h2, l, h3⟩
    · exact ⟨(h :: body) :: chunks, .interface l :: secs, rfl, .cons (.interface h1 h3) h2⟩
    · exact ⟨(h :: body) :: chunks, .peer l :: secs, rfl, .cons (.peer h1 h3) h2⟩
  obtain ⟨chunks, secs, h1, h2⟩ := key
  refine ⟨[], chunks, secs, h1, h2, ?_⟩
  rcases s with _ | _ | _
  · rfl
  · exact ⟨[], .nil⟩
  · exact ⟨[], .nil⟩

theorem lines_remain {env : Env} {lines : List (List UInt8)} (hF : Fair env lines) : ∀ (ls : List (List UInt8)) (s : Option Sect), (∀ l ∈ ls, l ∈ lines) → NoErr (linesParts s ls) → Remains (docStable env) s (wgLines ls)
  | [], s, _, _ => remains_nil _ s
  | l :: r, s, hm, h => by
    have h1 : NoErr (lineParts s l) ∧ Remains (docStable env) (sectionAfter s l) (wgLines r) := by
      by_cases hr : r = []
      · subst hr; exact ⟨h, remains_nil _ _⟩
      · rw [linesParts_cons _ _ hr] at h
        exact ⟨h.left, lines_remain hF r _ (fun l hl => hm l (List.mem_cons_of_mem _ hl)) h.right.tail⟩
    obtain ⟨h1, h2⟩ := h1
    rcases line_ok hF s (hm l List.mem_cons_self) h1 with ⟨h3, h4⟩ | ⟨hq, h3, h4⟩ | ⟨hq, h3, h4⟩ | ⟨h3, h4, h5⟩ | ⟨h3, h4, p, h5⟩
    · rw [h4] at h2; rw [wgLines_skip (.inr h3)]; exact h2
    · rw [h4] at h2
      rw [wgLines_keep hq (by intro h0; rw [h0] at h3; cases h3)]
      exact remains_header s (.inl ⟨h3, h2⟩)
    · rw [h4] at h2
      rw [wgLines_keep hq (by intro h0; rw [h0] at h3; cases h3)]
      exact remains_header s (.inr ⟨h3, h2⟩)
    · rw [h4] at h2
      by_cases hq : QuickLine l
      · rw [wgLines_skip (.inl hq)]; exact h2
      obtain ⟨d, h5⟩ := h5.resolve_left hq
      rw [wgLines_keep hq (devLine_ne h5)]
      subst h3
      obtain ⟨body, chunks, secs, e, h6, ds, h7⟩ := h2
      exact ⟨cleaned l :: body, chunks, secs, by rw [e]; rfl, h6, d :: ds, .cons h5 h7⟩
    · rw [h4] at h2
      by_cases hq : QuickLine l
      · rw [wgLines_skip (.inl hq)]; exact h2
      rw [wgLines_keep hq (peerLine_ne h5)]
      subst h3
      obtain ⟨body, chunks, secs, e, h6, ds, h7⟩ := h2
      exact ⟨cleaned l :: body, chunks, secs, by rw [e]; rfl, h6, p :: ds, .cons h5 h7⟩

open Classical in
/-- C74: if no span is an error, then what `wg` gets of the configuration (without the settings of `wg-quick`) follows the syntax that `wg` documents. -/
theorem c74_syntax (m : Mach) (hm : ∀ n, m.mem n = true) (cfg : List UInt8) (spans : List HSpan) (h : highlightConfig m cfg = .ok spans) (hE : ∀ s ∈ spans, s.type ≠ .error)
    (env : Env) (hF : Fair env (splitOn 10 cfg)) : ∃ secs, FileSays (docStable env) ((splitOn 10 cfg).filter fun l => ¬ QuickLine l) secs := by
  rw [c73_parts m hm] at h
  obtain rfl := Res.ok.inj h
  have hn : NoErr (parts cfg) := noErr_place _ 0 fun s hs => hE s (List.mem_append_left _ hs)
  obtain ⟨body, chunks, secs, h1, h2, h3⟩ := lines_remain hF _ none (fun _ h => h) hn
  have h3 : body = [] := h3
  subst h3
  refine ⟨secs, chunks, ?_, h2⟩
  rw [List.nil_append, wgLines] at h1
  exact h1

theorem cleaned_lf (l : List UInt8) : cleaned (l ++ [10]) = cleaned l := by
  rw [cleaned, cleaned]
  by_cases h : c!"#" ∈ l
  · obtain ⟨hsp, _⟩ := split_first h
    have hx : c!"#" ∉ l.takeWhile (· ≠ c!"#") := by intro h; have := List.mem_takeWhile_imp h; simp at this
    conv => lhs; rw [hsp]
    rw [List.append_assoc, List.cons_append, (first_of hx).1]
  · rw [(dropWhile_nil h).2, (dropWhile_nil (v := l ++ [10]) (by simpa using h)).2, List.filter_append]
    simp [isSpace]

/-- The lines of a file and its pieces between line feeds have the same text. -/
theorem cleaned_lines : ∀ (k : Nat) (v : List UInt8), v.length ≤ k → ((fileLines v).map cleaned).filter (· ≠ []) = ((splitOn 10 v).map cleaned).filter (· ≠ []) := by
  intro k
  have single : ∀ v : List UInt8, (10 : UInt8) ∉ v → ((fileLines v).map cleaned).filter (· ≠ []) = ((splitOn 10 v).map cleaned).filter (· ≠ []) := by
    intro v hv
    rw [splitOn_free _ _ hv]
    have key : ∀ v : List UInt8, (10 : UInt8) ∉ v → fileLines v = if v = [] then [] else [v] := by
      intro v
      induction v with
      | nil => intro _; rfl
      | cons c t ih =>
        intro hv
        rw [fileLines, if_neg (by rintro rfl; exact hv List.mem_cons_self), ih (fun h => hv (List.mem_cons_of_mem _ h))]
        by_cases ht : t = []
        · subst ht; rfl
        · rw [if_neg ht, if_neg (by simp)]
    rw [key v hv]
    by_cases h0 : v = []
    · subst h0; rfl
    · rw [if_neg h0]
  induction k with
  | zero =>
    intro v hv
    obtain rfl : v = [] := List.eq_nil_of_length_eq_zero (by omega)
    exact single [] (by simp)
  | succ k ih =>
    intro v hv
    by_cases hn : (10 : UInt8) ∈ v
    · obtain ⟨hsplit, _⟩ := split_first hn
      generalize hp : v.takeWhile (· ≠ 10) = l at hsplit
      generalize (v.dropWhile (· ≠ 10)).tail = r at hsplit
      have hl : 10 ∉ l := by
        intro h; rw [← hp] at h
        have := List.mem_takeWhile_imp h; simp at this
      clear hp
      subst hsplit
      rw [splitOn_append _ _ _ hl, fileLines_line _ _ hl, List.map_cons, List.map_cons, List.filter_cons, List.filter_cons, cleaned_lf, ih r (by simp at hv; omega)]
    · exact single v hn

theorem fileLines_mem : ∀ (v l : List UInt8), l ∈ fileLines v → ∀ c ∈ l, c ∈ v
  | [], l, h => by cases h
  | c :: t, l, h => by
    have ih := fileLines_mem t
    rw [fileLines] at h
    by_cases hc : c = 10
    · rw [if_pos hc] at h
      intro x hx
      rcases List.mem_cons.1 h with rfl | h
      · simp at hx; simp [hx]
      · exact List.mem_cons_of_mem _ (ih l h x hx)
    · rw [if_neg hc] at h
      intro x hx
      cases hf : fileLines t with
      | nil =>
        rw [hf] at h
        simp at h; subst h; simp at hx; simp [hx]
      | cons a as =>
        rw [hf] at h ih
        rcases List.mem_cons.1 h with rfl | h
        · rcases List.mem_cons.1 hx with rfl | hx
          · simp
          · exact List.mem_cons_of_mem _ (ih a List.mem_cons_self x hx)
        · exact List.mem_cons_of_mem _ (ih l (List.mem_cons_of_mem _ h) x hx)

/-- C74: a file for `wg`, of which the highlighter shows no errors, is read by `wg` as what it says, if every peer section has a public key. -/
theorem c74_accepted (m : Mach) (hm : ∀ n, m.mem n = true) (cfg : List UInt8) (spans : List HSpan) (h : highlightConfig m cfg = .ok spans) (hE : ∀ s ∈ spans, s.type ≠ .error)
    (env : Env) (hM : 0xffffffff < env.ulongMax) (hF : Fair env (splitOn 10 cfg)) (h0 : 0 ∉ cfg) (hq : ∀ l ∈ splitOn 10 cfg, ¬ QuickLine l)
    (append : Bool) (path : CStr) (f : FileObj) (hf : env.file path = some f) (hfb : f.bytes = cfg) :
    ∃ secs, FileSays (docStable env) (splitOn 10 cfg) secs ∧ ((∀ l ∈ peerSections secs, ∃ k, PeerSetting.publicKey k ∈ l) → readConfigFile env append path = .ok (fileMeaning append secs)) := by
  obtain ⟨secs, hs⟩ := c74_syntax m hm cfg spans h hE env hF
  rw [List.filter_eq_self.2 (by simpa using hq)] at hs
  refine ⟨secs, hs, fun hp => Props.c14_read_complete env hM append path secs ⟨f, hf, ?_, hp⟩⟩
  obtain ⟨chunks, h1, h2⟩ := hs
  refine ⟨chunks, ?_, h2⟩
  have hb : (fileLines f.bytes).map beforeNul = fileLines cfg := by
    rw [hfb]
    conv => rhs; rw [← List.map_id (fileLines cfg)]
    apply List.map_congr_left
    intro l hl
    rw [beforeNul, id, List.takeWhile_eq_self_iff]
    · intro c hc
      have := fileLines_mem cfg l hl c hc
      simp only [decide_eq_true_eq]; rintro rfl; exact h0 this
  rw [hb, cleaned_lines _ _ (Nat.le_refl _), h1]

/-! A case that meets the hypotheses. -/

/-- The setting of a line, computed. -/
def settingOf (l : List UInt8) : Option (List UInt8 × List UInt8) :=
  let b := l.takeWhile (· ≠ c!"#")
  if c!"=" ∈ b then some (core (b.takeWhile (· ≠ c!"=")), core (b.dropWhile (· ≠ c!"=")).tail) else none

theorem settingOf_eq {l n v : List UInt8} (h : Setting l n v) : settingOf l = some (n, v) := by
  obtain ⟨x, y, h1, h2, rfl, rfl⟩ := h
  rw [settingOf, h1, if_pos (by simp), (first_of h2).1, (first_of h2).2]
  rfl

theorem std_port (v : List UInt8) (n : Nat) (h : IsDecimal v n) (hn : n ≤ 65535) : portNum v = some (UInt16.ofNat n) := by
  have hv : digitsVal 10 v = n := by rw [digitsVal10 _ h.2.1, h.2.2]
  have hall : v.all (fun c => decide (48 ≤ c ∧ c ≤ 57)) = true := by
    rw [List.all_eq_true]; intro c hc; simpa using (digit_bound c (h.2.1 c hc)).1
  rw [portNum, if_pos ⟨h.1, hall, by omega⟩, hv]

def cleanCfg : List UInt8 := b!"[Interface] # x\nListenPort = 51820\nFwMark=0x1f\n\n[peer]\nPublicKey=AQIDBAUGBwgJCgsMDQ4PEBESExQVFhcYGRobHB0eHyA=\nAllowedIPs = 10.0.0.0/8 ,fd00::1\nEndpoint=[::1]:51820\nPersistentKeepalive=off"
def cleanEnv : Env := Props.fileEnv ⟨cleanCfg, none, true⟩

theorem endpoint_text_unique {h p : List UInt8} (ht : IsEndpointText b!"[::1]:51820" h p) : h = b!"::1" ∧ p = b!"51820" := by
  obtain ⟨_, ⟨h1, h2⟩ | ⟨h1, _⟩⟩ := ht
  · have h3 : b!"::1" ++ c!"]" :: b!":51820" = h ++ c!"]" :: (c!":" :: p) := by simpa using h1
    have e1 := (first_of (d := c!"]") (x := b!"::1") (y := b!":51820") (by decide))
    have e2 := (first_of (y := c!":" :: p) h2)
    rw [h3, e2.1, e2.2] at e1
    refine ⟨e1.1, ?_⟩
    have := e1.2
    simpa using this
  · exact absurd rfl h1

theorem clean_fair : Fair cleanEnv (splitOn 10 cleanCfg) where
  pton4 := rfl
  pton6 := rfl
  port v n h1 h2 := by
    have : cleanEnv.gaiPort v = match portNum v with | some p => .found (.in4 (Vector.replicate 4 0) p) | none => .permanent := rfl
    rw [portOf, this, std_port v n h1 h2]
  items l hl n v hs hn := by
    have h : ∀ l ∈ splitOn 10 cleanCfg, ∀ q ∈ settingOf l, q.1.map lower = b!"allowedips" → ∀ p ∈ splitOn c!"," q.2, core p ≠ [] := by decide +kernel
    exact h l hl (n, v) (settingOf_eq hs) hn
  resolve l hl n v hs hn h p ht := by
    have h1 : ∀ l ∈ splitOn 10 cleanCfg, ∀ q ∈ settingOf l, q.1.map lower = b!"endpoint" → q.2 = b!"[::1]:51820" := by decide +kernel
    have h2 : v = b!"[::1]:51820" := h1 l hl (n, v) (settingOf_eq hs) hn
    subst h2
    obtain ⟨rfl, rfl⟩ := endpoint_text_unique ht
    have h3 : stdEnv.gai 0 b!"::1" b!"51820" = .found (.in6 #v[0, 0, 0, 0, 0, 0, 0, 0, 0, 0, 0, 0, 0, 0, 0, 1] 51820 0 0) := by decide +kernel
    exact ⟨.in6 #v[0, 0, 0, 0, 0, 0, 0, 0, 0, 0, 0, 0, 0, 0, 0, 1] 51820 0 0, by simp, fun n => h3, ⟨_, rfl⟩, by decide⟩

-- no error is shown for this configuration, and `wg` reads it
example : (∃ spans, highlightConfig richMach cleanCfg = .ok spans ∧ (∀ s ∈ spans, s.type ≠ .error)) ∧ Fair cleanEnv (splitOn 10 cleanCfg) ∧ 0 ∉ cleanCfg ∧ cleanEnv.file b!"f" = some ⟨cleanCfg, none, true⟩ ∧
    (∀ l ∈ splitOn 10 cleanCfg, ¬ QuickLine l) ∧ ∃ d, readConfigFile cleanEnv false b!"f" = .ok d ∧ d.peers.length = 1 := by
  refine ⟨?_, clean_fair, by decide +kernel, rfl, ?_, ?_⟩
  · have h : ∀ s ∈ (match highlightConfig richMach cleanCfg with | .ok l => l | _ => [⟨.error, 0, 0⟩]), s.type ≠ .error := by decide +kernel
    cases hh : highlightConfig richMach cleanCfg with
    | ok l => rw [hh] at h; exact ⟨l, rfl, h⟩
    | _ => rw [hh] at h; exact absurd rfl (h _ List.mem_cons_self)
  · intro l hl ⟨n, v, hs, hn⟩
    have h : ∀ l ∈ splitOn 10 cleanCfg, ∀ q ∈ settingOf l, q.1.map lower ∉ quickNames := by decide +kernel
    exact h l hl (n, v) (settingOf_eq hs) hn
  · have h : (match readConfigFile cleanEnv false b!"f" with | .ok d => d.peers.length | _ => 0) = 1 := by decide +kernel
    cases hh : readConfigFile cleanEnv false b!"f" with
    | ok d => rw [hh] at h; exact ⟨d, rfl, h⟩
    | _ => rw [hh] at h; exact absurd h (by decide)

/-- C74, finding: an empty item in a list is not shown as an error, though `wg` refuses it (highlighter.c:522-531). -/
theorem c74_counterexample_empty_item : ∃ cfg spans, highlightConfig richMach cfg = .ok spans ∧ (∀ s ∈ spans, s.type ≠ .error) ∧
    cfg = b!"[Peer]\nPublicKey=AQIDBAUGBwgJCgsMDQ4PEBESExQVFhcYGRobHB0eHyA=\nAllowedIPs = 1.1.1.1,,2.2.2.2" ∧ readConfigFile (Props.fileEnv ⟨cfg, none, true⟩) false b!"f" = .fail := by
  refine ⟨_, [⟨.section_, 0, 6⟩, ⟨.field, 7, 9⟩, ⟨.delimiter, 16, 1⟩, ⟨.publicKey, 17, 44⟩, ⟨.field, 62, 10⟩, ⟨.delimiter, 73, 1⟩, ⟨.ip, 75, 7⟩, ⟨.delimiter, 82, 1⟩, ⟨.delimiter, 83, 1⟩, ⟨.ip, 84, 7⟩, ⟨.end_, 0, 2 ^ 64 - 1⟩], ?_, ?_, rfl, ?_⟩
  · decide +kernel
  · decide
  · decide +kernel

/-- C74, finding: neither is a peer without public key. -/
theorem c74_counterexample_no_key : ∃ cfg spans, highlightConfig richMach cfg = .ok spans ∧ (∀ s ∈ spans, s.type ≠ .error) ∧ cfg = b!"[Peer]\n" ∧ readConfigFile (Props.fileEnv ⟨cfg, none, true⟩) false b!"f" = .fail :=
  ⟨_, [⟨.section_, 0, 6⟩, ⟨.end_, 0, 2 ^ 64 - 1⟩], by decide +kernel, by decide, rfl, by decide +kernel⟩

/-- C74, finding: the converse is false: with lines that end in carriage return and line feed everything is an error, though `wg` reads the file. -/
theorem c74_counterexample_crlf : ∃ cfg d, highlightConfig richMach cfg = .ok [⟨.error, 0, 12⟩, ⟨.error, 13, 10⟩, ⟨.delimiter, 23, 1⟩, ⟨.error, 24, 2⟩, ⟨.end_, 0, 2 ^ 64 - 1⟩] ∧
    cfg = b!"[Interface]\r\nListenPort=1\r\n" ∧ readConfigFile (Props.fileEnv ⟨cfg, none, true⟩) true b!"f" = .ok d ∧ d.listenPort = 1 :=
  ⟨_, { flags := { hasListenPort := true }, listenPort := 1 }, by decide +kernel, rfl, by decide +kernel, rfl⟩

end WG.Hl
