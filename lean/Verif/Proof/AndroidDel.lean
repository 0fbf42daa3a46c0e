import Verif.Proof.AndroidUp
import Verif.Proof.QuickDown
/-!
`del_if` of wg-quick for Android.
-/
namespace WG.Android
open WG.Spec WG.Spec.Android WG.Spec.Quick
open WG.Quick (suffixes mem_suffixes isNameByte)

/-! ### Regular expressions -/

def lit (c : UInt8) : Item := { byte := some c }

theorem itemsOf_plain : ∀ (n : CStr) (i : Item), c!"." ∉ n → c!"+" ∉ n → itemsOf i n = some (i :: n.map lit)
  | [], i, _, _ => rfl
  | c :: t, i, h1, h2 => by
    simp only [List.mem_cons, not_or] at h1 h2
    simp only [itemsOf, if_neg (Ne.symm h2.1), if_neg (Ne.symm h1.1)]
    rw [itemsOf_plain t _ h1.2 h2.2]; rfl

theorem matchItems_lits : ∀ (n : CStr) (k : CStr → Bool) (s : CStr), matchItems (n.map lit) k s = true ↔ ∃ r, s = n ++ r ∧ k r = true
  | [], k, s => by simp [matchItems]
  | c :: t, k, s => by
    simp only [List.map_cons, matchItems, lit]
    rw [if_neg (by simp)]
    rcases s with _ | ⟨d, s⟩
    · simp
    · dsimp only
      rw [Bool.and_eq_true, matchItems_lits t k s]
      simp only [Item.fits, reduceCtorEq, decide_false, Bool.false_or, Option.some.injEq, decide_eq_true_eq, List.cons_append, List.cons.injEq]
      constructor
      · rintro ⟨rfl, r, rfl, h⟩; exact ⟨r, ⟨rfl, rfl⟩, h⟩
      · rintro ⟨r, ⟨rfl, rfl⟩, h⟩; exact ⟨rfl, r, rfl, h⟩

theorem prefix_drop {p t : CStr} : p.isPrefixOf t = true ↔ t = p ++ t.drop p.length := by
  rw [List.isPrefixOf_iff_prefix]
  constructor
  · rintro ⟨r, rfl⟩; simp
  · intro h; exact ⟨_, h.symm⟩

theorem ruleArgs_iff {iface line : CStr} (hl : 10 ∉ line.dropLast) (r : CStr) :
    ruleArgs (lit 32 :: iface.map lit) line = some r ↔ OwnRule iface line r := by
  have hitems : lit 32 :: iface.map lit = (32 :: iface).map lit := rfl
  have hany : ∀ s : CStr, ((suffixes s).any (fun t => b!" --comment \"wireguard rule".isPrefixOf t &&
      matchItems (lit 32 :: iface.map lit) (fun s => s.head? = some c!"\"") (t.drop 26))) = true ↔
      ∃ pre post, s = pre ++ b!" --comment \"wireguard rule " ++ iface ++ b!"\"" ++ post := by
    intro s
    simp only [List.any_eq_true, mem_suffixes, Bool.and_eq_true, hitems, matchItems_lits, decide_eq_true_eq]
    constructor
    · rintro ⟨t, ⟨pre, rfl⟩, hp, q, hq, hq2⟩
      rw [prefix_drop] at hp
      rcases q with _ | ⟨d, post⟩
      · simp at hq2
      · simp only [List.head?_cons, Option.some.injEq] at hq2
        subst hq2
        refine ⟨pre, post, ?_⟩
        rw [hp, show (b!" --comment \"wireguard rule" : CStr).length = 26 from rfl, hq]
        simp
    · rintro ⟨pre, post, rfl⟩
      refine ⟨b!" --comment \"wireguard rule" ++ (32 :: iface ++ c!"\"" :: post), ⟨pre, by simp⟩, ?_, c!"\"" :: post, by simp, rfl⟩
      exact List.isPrefixOf_iff_prefix.2 ⟨_, rfl⟩
  have hbody : ∃ nl, line = (if line.getLast? = some 10 then line.dropLast else line) ++ nl ∧ (nl = [] ∨ nl = [10]) ∧
      10 ∉ (if line.getLast? = some 10 then line.dropLast else line) := by
    by_cases hn : line.getLast? = some 10
    · rw [if_pos hn]
      refine ⟨[10], ?_, .inr rfl, hl⟩
      rcases List.eq_nil_or_concat line with rfl | ⟨a, x, rfl⟩
      · simp at hn
      · simp at hn; simp [hn]
    · rw [if_neg hn]
      refine ⟨[], by simp, .inl rfl, ?_⟩
      intro hm
      rcases List.eq_nil_or_concat line with rfl | ⟨a, x, rfl⟩
      · simp at hm
      · simp at hl hm hn
        rcases hm with hm | hm
        · exact hl hm
        · exact hn hm.symm
  obtain ⟨nl, hnl, hnl2, hnl3⟩ := hbody
  unfold ruleArgs
  dsimp only
  generalize (if line.getLast? = some 10 then line.dropLast else line) = body at hnl hnl3 ⊢
  constructor
  · intro h
    split at h
    · rename_i hc
      simp only [Option.some.injEq] at h
      rw [Bool.and_eq_true, hany, prefix_drop] at hc
      obtain ⟨hc1, hc2⟩ := hc
      rw [h] at hc2
      rw [show (b!"-A " : CStr).length = 3 from rfl, h] at hc1
      refine ⟨?_, fun hm => hnl3 (by rw [hc1]; simp [hm]), hc2⟩
      rw [hnl, hc1]
      rcases hnl2 with rfl | rfl
      · left; simp
      · right; rfl
    · cases h
  · rintro ⟨h3, h4, h5⟩
    have hb : body = b!"-A " ++ r := by
      have hlast : ∀ (a b : CStr), a ++ [10] = b → 10 ∉ b → False := fun a b h hb => hb (by rw [← h]; simp)
      have hr : (10 : UInt8) ∉ b!"-A " ++ r := by simp [h4]
      rcases hnl2 with rfl | rfl
      · rcases h3 with h3 | h3
        · rw [← h3, hnl]; simp
        · rw [List.append_nil] at hnl
          rw [hnl] at h3
          exact (hlast _ _ h3.symm hnl3).elim
      · rcases h3 with h3 | h3
        · rw [hnl] at h3; exact (hlast _ _ h3 hr).elim
        · rw [hnl] at h3
          exact List.append_cancel_right h3
    have hc : (b!"-A ".isPrefixOf body && (suffixes (body.drop 3)).any (fun t => b!" --comment \"wireguard rule".isPrefixOf t &&
      matchItems (lit 32 :: iface.map lit) (fun s => s.head? = some c!"\"") (t.drop 26))) = true := by
      rw [Bool.and_eq_true, hany, hb]
      exact ⟨List.isPrefixOf_iff_prefix.2 ⟨_, rfl⟩, by simpa using h5⟩
    rw [if_pos hc, hb]; simp

theorem hexByte_iff : ∀ c : UInt8, isHexByte c = true ↔ isHexDigit c = true ∧ lower c = c := by
  apply forall_u8; decide +kernel

/-- A place in a line that the expression for rules matches. -/
def RuleHere (iface line hex : CStr) : Prop :=
  hex ≠ [] ∧ (∀ c ∈ hex, isHexByte c = true) ∧ ∃ pre post, line = pre ++ b!"0xc" ++ hex ++ b!"/0xcffff lookup " ++ iface ++ post

theorem ruleNetid_spec (iface line : CStr) : (∀ hex, ruleNetid (lit 32 :: iface.map lit) line = some hex → RuleHere iface line hex) ∧
    ((∃ hex, RuleHere iface line hex) → (ruleNetid (lit 32 :: iface.map lit) line).isSome) := by
  have hitems : lit 32 :: iface.map lit = (32 :: iface).map lit := rfl
  constructor
  · intro hex h
    obtain ⟨t, ht, h1⟩ := List.exists_of_findSome?_eq_some h
    obtain ⟨pre, rfl⟩ := mem_suffixes.1 ht
    split at h1
    · rename_i hp
      dsimp only at h1
      split at h1
      · rename_i hc
        simp only [Option.some.injEq] at h1
        simp only [Bool.and_eq_true, decide_eq_true_eq, hitems, matchItems_lits] at hc
        obtain ⟨⟨hc1, hc2⟩, post, hc3, _⟩ := hc
        rw [prefix_drop] at hp hc2
        rw [h1] at hc1
        refine ⟨hc1, ?_, pre, post, ?_⟩
        · intro c hc
          rw [← h1] at hc
          exact List.mem_takeWhile_imp hc
        · have e1 := (List.takeWhile_append_dropWhile (p := isHexByte) (l := t.drop 3)).symm
          rw [h1] at e1
          rw [show (b!"/0xcffff lookup" : CStr).length = 15 from rfl, hc3] at hc2
          rw [hc2] at e1
          rw [hp, show (b!"0xc" : CStr).length = 3 from rfl, e1]
          simp
      · cases h1
    · cases h1
  · rintro ⟨hex, h1, h2, pre, post, rfl⟩
    rw [ruleNetid, List.findSome?_isSome_iff]
    refine ⟨b!"0xc" ++ (hex ++ (b!"/0xcffff lookup" ++ (32 :: iface ++ post))), mem_suffixes.2 ⟨pre, by simp⟩, ?_⟩
    rw [if_pos (List.isPrefixOf_iff_prefix.2 ⟨_, rfl⟩)]
    dsimp only
    have e1 : (b!"0xc" ++ (hex ++ (b!"/0xcffff lookup" ++ (32 :: iface ++ post)))).drop 3 = hex ++ c!"/" :: (b!"0xcffff lookup" ++ (32 :: iface ++ post)) := rfl
    rw [e1, (takeWhile_stop hex c!"/" _ h2 (by decide)).1, List.dropWhile_append_of_pos h2, List.dropWhile_cons_of_neg (by decide)]
    rw [if_pos]
    · rfl
    · simp only [Bool.and_eq_true, decide_eq_true_eq, hitems, matchItems_lits]
      exact ⟨⟨h1, List.isPrefixOf_iff_prefix.2 ⟨32 :: iface ++ post, rfl⟩⟩, post, rfl, trivial⟩

theorem ruleHere_network {iface line hex : CStr} (h : RuleHere iface line hex)
    (hno : ∀ pre post c, line = pre ++ b!" lookup " ++ iface ++ post → post.head? = some c → ¬ IsIfaceName [c]) : NetworkRule iface line (hexNumVal hex) := by
  obtain ⟨h1, h2, pre, post, rfl⟩ := h
  refine ⟨pre, hex, post, rfl, ⟨h1, fun c hc => ((hexByte_iff c).1 (h2 c hc)).1, rfl⟩, fun c hc => ((hexByte_iff c).1 (h2 c hc)).2, fun c hc => ?_⟩
  exact hno (pre ++ b!"0xc" ++ hex ++ b!"/0xcffff") post c (by simp) hc

theorem network_ruleHere {iface line : CStr} {n : Nat} (h : NetworkRule iface line n) : ∃ hex, RuleHere iface line hex := by
  obtain ⟨pre, hex, post, rfl, ⟨h1, h2, _⟩, h3, _⟩ := h
  exact ⟨hex, h1, fun c hc => (hexByte_iff c).2 ⟨h2 c hc, h3 c hc⟩, pre, post, rfl⟩

theorem hexByte_head : ∀ c : UInt8, isHexByte c = true → isspaceLibc c = false ∧ c ≠ 45 ∧ c ≠ 43 ∧ c ≠ 120 ∧ c ≠ 88 := by
  apply forall_u8; decide +kernel

theorem strtoul_hex {hex : CStr} (h1 : hex ≠ []) (h2 : ∀ c ∈ hex, isHexByte c = true) : (strtoul (2 ^ 64 - 1) 16 hex).1 = min (hexNumVal hex) (2 ^ 64 - 1) := by
  have hd : ∀ c ∈ hex, isHexDigit c = true := fun c hc => ((hexByte_iff c).1 (h2 c hc)).1
  rcases hex with _ | ⟨d, t⟩
  · exact absurd rfl h1
  · obtain ⟨g1, g2, g3, g4, g5⟩ := hexByte_head d (h2 d (by simp))
    have e1 : (d :: t).dropWhile isspaceLibc = d :: t := by rw [List.dropWhile_cons_of_neg (by simp [g1])]
    have e2 : strtoulSign (d :: t) = (false, d :: t) := by
      unfold strtoulSign
      split
      · rename_i h; injection h with h; exact absurd h g2
      · rename_i h; injection h with h; exact absurd h g3
      · rfl
    have e3 : strtoulPrefix 16 (d :: t) = d :: t := by
      unfold strtoulPrefix
      split
      · rename_i x d' t' h
        injection h with h h'
        obtain ⟨_, _, _, k4, k5⟩ := hexByte_head x (h2 x (by rw [h']; simp))
        rw [if_neg]
        simp [k4, k5]
      · rfl
    have e4 : (d :: t).takeWhile (isDigitOf 16) = d :: t := List.takeWhile_eq_self_iff.2 fun c hc => by rw [isDigitOf16]; exact hd c hc
    simp only [strtoul, e1, e2, e3, e4]
    rw [if_neg (by simp), digitsVal16 _ hd]
    dsimp only
    split <;> simp <;> omega

/-! ### Lines -/

theorem fileLines_nl (l : List UInt8) : ∀ x ∈ fileLines l, 10 ∉ x.dropLast := by
  induction l with
  | nil => simp [fileLines]
  | cons c t ih =>
    intro x hx
    simp only [fileLines] at hx
    split at hx
    · rcases List.mem_cons.1 hx with rfl | hx
      · simp
      · exact ih x hx
    · rename_i hc
      split at hx
      · simp at hx; subst hx; simp
      · rename_i l' ls he
        rcases List.mem_cons.1 hx with rfl | hx
        · have := ih l' (by rw [he]; simp)
          rcases l' with _ | ⟨d, l'⟩
          · simp
          · simp only [List.dropLast_cons_cons, List.mem_cons, not_or]
            exact ⟨Ne.symm hc, by simpa using this⟩
        · exact ih x (by rw [he]; simp [hx])

theorem beforeNul_nl {x : List UInt8} (h : 10 ∉ x.dropLast) : 10 ∉ (beforeNul x).dropLast := by
  unfold beforeNul
  obtain ⟨r, hr⟩ : ∃ r, x = x.takeWhile (· ≠ 0) ++ r := ⟨_, (List.takeWhile_append_dropWhile).symm⟩
  generalize x.takeWhile (· ≠ 0) = y at hr
  subst hr
  intro hm
  apply h
  rcases List.eq_nil_or_concat y with rfl | ⟨a, b, rfl⟩
  · simp at hm
  · simp at hm
    rcases List.eq_nil_or_concat r with rfl | ⟨a', b', rfl⟩
    · simpa using hm
    · rw [List.concat_eq_append, List.concat_eq_append, ← List.append_assoc, List.dropLast_concat]
      simp [hm]

theorem collected_mem {α β : Type} {R : α → β → Prop} {f : α → Option β} : ∀ (xs : List α), (∀ x ∈ xs, ∀ y, f x = some y ↔ R x y) → Collected R xs (xs.filterMap f)
  | [], _ => .nil
  | x :: xs, h => by
    have ih := collected_mem xs fun z hz => h z (by simp [hz])
    cases e : f x with
    | none => rw [List.filterMap_cons_none e]; exact .miss (fun y hy => by rw [(h x (by simp) y).2 hy] at e; cases e) ih
    | some y => rw [List.filterMap_cons_some e]; exact .hit ((h x (by simp) y).1 e) ih

theorem lines_eq (out : List UInt8) : (getlines out).map cstr = (fileLines out).map beforeNul := by rw [getlines_eq]; rfl

theorem ownRules_ok (iface : CStr) (out : List UInt8) :
    OwnRules iface out (((getlines out).map cstr).filterMap (ruleArgs (lit 32 :: iface.map lit))) := by
  rw [lines_eq]
  apply collected_mem
  intro x hx
  obtain ⟨y, hy, rfl⟩ := List.mem_map.1 hx
  exact ruleArgs_iff (beforeNul_nl (fileLines_nl out y hy))

theorem networkShown_ok {iface : CStr} {out : List UInt8} (hno : NoLonger iface out) :
    NetworkShown iface out ((((getlines out).map cstr).findSome? (ruleNetid (lit 32 :: iface.map lit))).map hexNumVal) := by
  rw [lines_eq]
  unfold NoLonger at hno
  unfold NetworkShown
  generalize (fileLines out).map beforeNul = ls at *
  have hnone : ∀ l, ruleNetid (lit 32 :: iface.map lit) l = none → ∀ n, ¬ NetworkRule iface l n := by
    intro l h n hn
    have := (ruleNetid_spec iface l).2 (network_ruleHere hn)
    rw [h] at this; simp at this
  induction ls with
  | nil => intro l hl; cases hl
  | cons l ls ih =>
    have ih := ih fun x hx => hno x (by simp [hx])
    cases e : ruleNetid (lit 32 :: iface.map lit) l with
    | some hex =>
      rw [List.findSome?_cons_of_isSome (by rw [e]; rfl), e]
      exact ⟨[], l, ls, rfl, by simp, ruleHere_network ((ruleNetid_spec iface l).1 hex e) (hno l (by simp))⟩
    | none =>
      rw [List.findSome?_cons_of_isNone (by rw [e]; rfl)]
      revert ih
      cases (ls.findSome? (ruleNetid (lit 32 :: iface.map lit))).map hexNumVal with
      | none =>
        intro ih x hx
        rcases List.mem_cons.1 hx with rfl | hx
        · exact hnone x e
        · exact ih x hx
      | some n =>
        rintro ⟨b, x, a, rfl, h1, h2⟩
        refine ⟨l :: b, x, a, rfl, fun y hy => ?_, h2⟩
        rcases List.mem_cons.1 hy with rfl | hy
        · exact hnone y e
        · exact h1 y hy

/-! ### Removing an interface -/

theorem atEof_ok {r : Reply} {e : Env} {h h' : List Ev} {u : Unit} (hb : atEof r e h = (.ok u, h')) : h = h' ∧ r.readErr = 0 := by
  unfold atEof at hb
  by_cases hr : r.readErr ≠ 0
  · rw [if_pos hr] at hb; exact (exit_ok hb).elim
  · rw [if_neg hr] at hb
    exact ⟨(pure_ok hb).2, Classical.not_not.1 hr⟩

/-- Nothing went wrong: a command ended with 0 (where `strict`), its output could be read, `ndc` reported no error. -/
def Went (strict : Bool) (ev : Ev) : Prop :=
  ev.2.killed = false ∧
  match ev.1 with
  | .system _ => strict = true → ev.2.status = .exited 0
  | .read s => ev.2.failed = 0 ∧ (b!"ndc " <+: s → NdcFine ev.2)
  | .write _ _ => ev.2.failed = 0 ∧ ev.2.status = .exited 0
  | .handle => True
  | _ => ev.2.status = .exited 0

/-- These calls were made, and nothing went wrong. -/
def Did (strict : Bool) (t : List Ev) (l : List Call) : Prop := t.map Prod.fst = l ∧ ∀ ev ∈ t, Went strict ev

theorem Did.nil {strict : Bool} : Did strict [] [] := ⟨rfl, by simp⟩

theorem Did.append {strict : Bool} {t t' : List Ev} {l l' : List Call} (h : Did strict t l) (h' : Did strict t' l') : Did strict (t ++ t') (l ++ l') := by
  refine ⟨by rw [List.map_append, h.1, h'.1], fun ev hev => ?_⟩
  rcases List.mem_append.1 hev with h1 | h1
  · exact h.2 ev h1
  · exact h'.2 ev h1

section
variable {e : Env} {h h' : List Ev}

theorem cmd_did {x : Bool} {s : CStr} {u : Unit} (hb : cmd x s e h = (.ok u, h')) : ∃ t, h' = h ++ t ∧ Did (!x) t [.system s] := by
  obtain ⟨h1, h2⟩ := cmd_ok hb
  refine ⟨_, h1, rfl, ?_⟩
  intro ev hev
  rw [List.mem_singleton] at hev
  subst hev
  refine ⟨?_, fun hx => h2 (by simpa using hx)⟩
  obtain ⟨r, k1, k2, k3⟩ := bind_ok hb
  obtain ⟨k4, k5, k6⟩ := call_ok k2
  rw [← k4]; exact k6

theorem popen_did {strict : Bool} {s : CStr} {r : Reply} (hs : ¬ b!"ndc " <+: s) (hb : popen s e h = (.ok r, h')) :
    h' = h ++ [(.read s, r)] ∧ Did strict [(.read s, r)] [.read s] := by
  obtain ⟨a, h1, h2, h3⟩ := bind_ok hb
  obtain ⟨h4, h5, h5'⟩ := call_ok h2
  by_cases hf : a.failed ≠ 0
  · rw [if_pos hf] at h3; exact (exit_ok h3).elim
  · rw [if_neg hf] at h3
    obtain ⟨h6, h7⟩ := pure_ok h3
    subst h6; subst h7
    refine ⟨h5, rfl, ?_⟩
    intro ev hev
    rw [List.mem_singleton] at hev
    subst hev
    exact ⟨h5', Classical.not_not.1 hf, fun h => absurd h hs⟩

theorem cndc_did {strict : Bool} {s : CStr} {u : Unit} (hb : cndc s e h = (.ok u, h')) : ∃ t, h' = h ++ t ∧ Did strict t [.read (b!"ndc " ++ s)] := by
  obtain ⟨h1, h2⟩ := cndc_ok hb
  refine ⟨_, h1, rfl, ?_⟩
  intro ev hev
  rw [List.mem_singleton] at hev
  subst hev
  obtain ⟨l, k1, k2, _⟩ := bind_ok hb
  obtain ⟨r, k3, k4, _⟩ := bind_ok k2
  obtain ⟨a, k5, k6, k7⟩ := bind_ok k4
  obtain ⟨k8, _, k9⟩ := call_ok k6
  rw [k8] at k9 k7
  by_cases hf : (e.reply h (.read (b!"ndc " ++ s))).failed ≠ 0
  · rw [if_pos hf] at k7; exact (exit_ok k7).elim
  · exact ⟨k9, Classical.not_not.1 hf, fun _ => h2⟩

theorem firstLine_did {strict : Bool} {s : CStr} {l : Option CStr} (hs : ¬ b!"ndc " <+: s) (hb : firstLine s e h = (.ok l, h')) :
    ∃ r, h' = h ++ [(.read s, r)] ∧ Did strict [(.read s, r)] [.read s] ∧ ((getlines r.out).map cstr).head? = l ∧ (l = none → r.readErr = 0) := by
  obtain ⟨r, h1, h2, h3⟩ := bind_ok hb
  obtain ⟨h4, h5⟩ := popen_did (strict := strict) hs h2
  obtain ⟨r', g1, g2, _, g3, g4⟩ := firstLine_ok hb
  have : r = r' := by
    obtain ⟨k1, _⟩ := popen_ok h2
    rw [k1, g1]
  subst this
  exact ⟨r, g2, h5, g3, g4⟩

theorem forEach_did {strict : Bool} {γ : Type} {f : γ → Sh Unit} {g : γ → List Call}
    (hf : ∀ x h h' u, f x e h = (.ok u, h') → ∃ t, h' = h ++ t ∧ Did strict t (g x)) :
    ∀ {xs : List γ} {h h' : List Ev} {u : Unit}, forEach f xs e h = (.ok u, h') → ∃ t, h' = h ++ t ∧ Did strict t (xs.flatMap g)
  | [], h, h', u, hb => by obtain ⟨_, h1⟩ := pure_ok hb; exact ⟨[], by simp [h1], .nil⟩
  | x :: xs, h, h', u, hb => by
    obtain ⟨a, h1, h2, h3⟩ := bind_ok hb
    obtain ⟨t, h4, h5⟩ := hf x h h1 a h2
    obtain ⟨t2, h6, h7⟩ := forEach_did hf h3
    exact ⟨t ++ t2, by simp [h6, h4], h5.append h7⟩

theorem forLines_did {strict : Bool} {s : CStr} {f : CStr → Sh Unit} {g : CStr → List Call} (hs : ¬ b!"ndc " <+: s)
    (hf : ∀ x h h' u, f x e h = (.ok u, h') → ∃ t, h' = h ++ t ∧ Did strict t (g x)) {u : Unit} (hb : forLines s f e h = (.ok u, h')) :
    ∃ r t, h' = h ++ (.read s, r) :: t ∧ r.readErr = 0 ∧ Did strict ((.read s, r) :: t) (.read s :: ((getlines r.out).map cstr).flatMap g) := by
  obtain ⟨r, h1, h2, h3⟩ := bind_ok hb
  obtain ⟨h4, h5⟩ := popen_did (strict := strict) hs h2
  obtain ⟨_, h6, h7, h8⟩ := bind_ok h3
  obtain ⟨t, h9, h10⟩ := forEach_did hf h7
  obtain ⟨h11, h12⟩ := atEof_ok h8
  subst h11 h9 h4
  exact ⟨r, t, by simp, h12, h5.append h10⟩

theorem flatMap_option {γ δ : Type} (f : γ → Option δ) (xs : List γ) {ε : Type} (g : δ → ε) :
    xs.flatMap (fun x => (f x).elim [] fun y => [g y]) = (xs.filterMap f).map g := by
  induction xs with
  | nil => rfl
  | cons x xs ih =>
    rw [List.flatMap_cons, ih]
    cases e : f x with
    | none => rw [List.filterMap_cons_none e]; rfl
    | some y => rw [List.filterMap_cons_some e]; rfl

theorem dropRules_did {x : Bool} {items : List Item} {tables : CStr} {u : Unit} (hs : ¬ b!"ndc " <+: tables ++ b!"-save") (hb : dropRules x items tables e h = (.ok u, h')) :
    ∃ r t, h' = h ++ (.read (tables ++ b!"-save"), r) :: t ∧
      Did (!x) ((.read (tables ++ b!"-save"), r) :: t) (.read (tables ++ b!"-save") :: (((getlines r.out).map cstr).filterMap (ruleArgs items)).map fun a => .system (tables ++ b!" -D " ++ a)) := by
  obtain ⟨r, t, h1, _, h2⟩ := forLines_did (strict := !x) (g := fun l => (ruleArgs items l).elim [] fun a => [.system (tables ++ b!" -D " ++ a)]) hs
    (fun l h h' u hl => by
      cases hi : ruleArgs items l with
      | none =>
        rw [hi] at hl
        obtain ⟨_, hl⟩ := pure_ok hl
        exact ⟨[], by simp [hl], .nil⟩
      | some a =>
        rw [hi] at hl
        exact cmd_did hl) hb
  refine ⟨r, t, h1, ?_⟩
  rw [flatMap_option] at h2
  exact h2

/-- The calls that remove an interface. -/
def removalCalls (iface : CStr) (r4 r6 : List CStr) (net : Option Nat) : List Call :=
  [.system (b!"ip link del " ++ iface)] ++ (.read b!"iptables-save" :: r4.map fun a => Call.system (b!"iptables -D " ++ a)) ++
  (.read b!"ip6tables-save" :: r6.map fun a => Call.system (b!"ip6tables -D " ++ a)) ++ [.read b!"ip rule show"] ++
  (match net with
    | none => []
    | some n => [.read (b!"ndc network destroy " ++ decimal n)])

theorem delIf_did {x : Bool} {iface : CStr} {u : Unit} (hn : PlainName iface) (hb : delIf x iface e h = (.ok u, h')) :
    ∃ t o4 o6 os r4 r6 net, h' = h ++ t ∧ (Call.read b!"iptables-save", o4) ∈ t ∧ (Call.read b!"ip6tables-save", o6) ∈ t ∧ (Call.read b!"ip rule show", os) ∈ t ∧
      OwnRules iface o4.out r4 ∧ OwnRules iface o6.out r6 ∧ (NoLonger iface os.out → NetworkShown iface os.out net) ∧
      Did (!x) t (removalCalls iface r4 r6 (net.map (min · (2 ^ 64 - 1)))) := by
  have hi : itemsOf { byte := some 32 } iface = some (lit 32 :: iface.map lit) := itemsOf_plain iface _ hn.2.1 hn.2.2
  unfold delIf at hb
  rw [hi] at hb
  dsimp only at hb
  obtain ⟨_, h1, b1, hb⟩ := bind_ok hb
  obtain ⟨_, h2, b2, hb⟩ := bind_ok hb
  obtain ⟨_, h3, b3, hb⟩ := bind_ok hb
  obtain ⟨n, h4, b4, hb⟩ := bind_ok hb
  obtain ⟨t1, e1, d1⟩ := cmd_did b1
  obtain ⟨o4, t2, e2, d2⟩ := dropRules_did (by decide) b2
  obtain ⟨o6, t3, e3, d3⟩ := dropRules_did (by decide) b3
  obtain ⟨os, k1, c1, c2⟩ := bind_ok b4
  obtain ⟨c3, d4⟩ := popen_did (strict := !x) (by decide) c1
  have hf : n = ((getlines os.out).map cstr).findSome? (ruleNetid (lit 32 :: iface.map lit)) ∧ k1 = h4 := by
    cases hm : ((getlines os.out).map cstr).findSome? (ruleNetid (lit 32 :: iface.map lit)) with
    | some m =>
      rw [hm] at c2
      obtain ⟨c4, c5⟩ := pure_ok c2
      exact ⟨c4.symm, c5⟩
    | none =>
      rw [hm] at c2
      obtain ⟨_, k2, c4, c5⟩ := bind_ok c2
      obtain ⟨c6, c7⟩ := pure_ok c5
      exact ⟨c6.symm, (atEof_ok c4).1.trans c7⟩
  obtain ⟨hf1, hf2⟩ := hf
  subst hf2 c3 e3 e2 e1
  have hd : ∃ t5, h' = h ++ t1 ++ (.read (b!"iptables" ++ b!"-save"), o4) :: t2 ++ (.read (b!"ip6tables" ++ b!"-save"), o6) :: t3 ++ [(.read b!"ip rule show", os)] ++ t5 ∧
      Did (!x) t5 (match (n.map hexNumVal).map (min · (2 ^ 64 - 1)) with | none => [] | some n => [.read (b!"ndc network destroy " ++ decimal n)]) := by
    rcases n with _ | hex
    · obtain ⟨_, c⟩ := pure_ok hb
      exact ⟨[], by rw [← c]; simp, .nil⟩
    · dsimp only at hb
      obtain ⟨t5, c1, c2⟩ := cndc_did (strict := !x) hb
      refine ⟨t5, c1, ?_⟩
      obtain ⟨l, _, hl2⟩ := List.exists_of_findSome?_eq_some hf1.symm
      have hh : RuleHere iface l hex := (ruleNetid_spec iface l).1 hex hl2
      rw [strtoul_hex hh.1 hh.2.1, showDec_eq] at c2
      exact c2
  obtain ⟨t5, e5, d5⟩ := hd
  refine ⟨t1 ++ ((.read (b!"iptables" ++ b!"-save"), o4) :: t2) ++ ((.read (b!"ip6tables" ++ b!"-save"), o6) :: t3) ++ [(.read b!"ip rule show", os)] ++ t5, o4, o6, os, _, _, n.map hexNumVal,
    by rw [e5]; simp, by simp, by simp, by simp, ownRules_ok iface o4.out, ownRules_ok iface o6.out, fun hno => ?_, ?_⟩
  · rw [hf1]; exact networkShown_ok hno
  · exact ((((d1.append d2).append d3).append d4).append d5)
end

end WG.Android
