import Verif.Proof.QuickOthers
/-!
A checker for `RulesRun`, for concrete histories.
-/
namespace WG.Quick
open Spec Spec.Quick

/-- A sufficient check of `IpRule.WF`. -/
def wfCheck (r : IpRule) : Bool :=
  ((List.range (r.line.length + 1)).all fun i => !(b!"lookup ".isPrefixOf (r.line.drop i)) || (r.table.isSome && i == r.sel.length)) &&
  (r.line.all fun c => c != 10 && c != 0) && (match r.table with | some t => t.all fun c => c != 32 | none => true) &&
  (r.rest == [] || r.rest.head? == some 32)

theorem wf_of_check {r : IpRule} (h : wfCheck r = true) : r.WF := by
  unfold wfCheck at h
  simp only [Bool.and_eq_true, List.all_eq_true, List.mem_range, Bool.or_eq_true, Bool.not_eq_true', beq_iff_eq, bne_iff_ne] at h
  obtain ⟨⟨⟨h1, h2⟩, h3⟩, h4⟩ := h
  constructor
  · intro a b e
    have hl : a.length ≤ r.line.length := by rw [e]; simp
    have hp : b!"lookup ".isPrefixOf (r.line.drop a.length) = true := by
      rw [e, List.append_assoc, List.drop_left', List.isPrefixOf_iff_prefix]
      · exact List.prefix_append _ _
      · rfl
    rcases h1 a.length (by omega) with h | ⟨h, h'⟩
    · rw [hp] at h; cases h
    · refine ⟨(by intro e; rw [e] at h; cases h), ?_⟩
      have e1 : r.line.take a.length = a := by rw [e, List.append_assoc, List.take_left']; rfl
      have e2 : r.line.take r.sel.length = r.sel := by unfold IpRule.line; rw [List.append_assoc, List.take_left']; rfl
      rw [← e1, h', e2]
  · exact h2
  · intro t ht c hc
    rw [ht] at h3
    simp only [List.all_eq_true, bne_iff_ne] at h3
    exact h3 c hc
  · exact h4

def selCheck (args : List CStr) (r : IpRule) : Bool :=
  (match args with | [x, t] => x == b!"table" && r.table == some t | _ => false) ||
  (args == [b!"table", b!"main", b!"suppress_prefixlength", b!"0"] && r.table == some b!"main" && b!" suppress_prefixlength 0".isPrefixOf r.rest)

theorem sel_iff {args : List CStr} {r : IpRule} : selCheck args r = true ↔ Selected args r := by
  unfold selCheck Selected IpRule.Suppress
  rw [Bool.or_eq_true]
  refine or_congr ?_ ?_
  · split
    · simp only [Bool.and_eq_true, beq_iff_eq, List.cons.injEq, and_true]
      constructor
      · rintro ⟨rfl, h⟩; exact ⟨_, ⟨rfl, rfl⟩, h⟩
      · rintro ⟨_, ⟨rfl, rfl⟩, h⟩; exact ⟨rfl, h⟩
    · rename_i h
      simp only [Bool.false_eq_true, false_iff]
      rintro ⟨t, rfl, _⟩
      exact h _ _ rfl
  · simp only [Bool.and_eq_true, beq_iff_eq, List.isPrefixOf_iff_prefix, and_assoc]

def madeCheck (args : List CStr) (r : IpRule) : Bool :=
  (match r.table with | some t => args == [b!"not", b!"fwmark", t, b!"table", t] | none => false) ||
  (args == [b!"table", b!"main", b!"suppress_prefixlength", b!"0"] && r.table == some b!"main" && b!" suppress_prefixlength 0".isPrefixOf r.rest &&
    b!"from all ".isSuffixOf r.sel)

theorem made_of_check {args : List CStr} {r : IpRule} (h : madeCheck args r = true) : Made args r := by
  unfold madeCheck at h
  rw [Bool.or_eq_true] at h
  rcases h with h | h
  · split at h
    · rename_i t ht; exact .inl ⟨t, by simpa using h, ht⟩
    · cases h
  · simp only [Bool.and_eq_true, beq_iff_eq, List.isPrefixOf_iff_prefix, List.isSuffixOf_iff_suffix] at h
    exact .inr ⟨h.1.1.1, ⟨h.1.1.2, h.1.2⟩, h.2⟩

/-- Without the first one that is selected. -/
def delFirst (p : IpRule → Bool) : List IpRule → Option (List IpRule)
  | [] => none
  | x :: l => if p x then some l else (delFirst p l).map (x :: ·)

theorem delFirst_some {p : IpRule → Bool} {l l' : List IpRule} (h : delFirst p l = some l') :
    ∃ a x b, l = a ++ x :: b ∧ l' = a ++ b ∧ p x = true ∧ ∀ y ∈ a, p y = false := by
  induction l generalizing l' with
  | nil => cases h
  | cons y l ih =>
    unfold delFirst at h
    split at h
    · rename_i hy; cases h; exact ⟨[], y, l, rfl, rfl, hy, by simp⟩
    · rename_i hy
      rw [Option.map_eq_some_iff] at h
      obtain ⟨k, h1, rfl⟩ := h
      obtain ⟨a, x, b, rfl, rfl, h2, h3⟩ := ih h1
      refine ⟨y :: a, x, b, rfl, rfl, h2, fun z hz => ?_⟩
      rcases List.mem_cons.1 hz with rfl | hz
      · simpa using hy
      · exact h3 z hz

theorem delFirst_none {p : IpRule → Bool} {l : List IpRule} (h : delFirst p l = none) : ∀ y ∈ l, p y = false := by
  induction l with
  | nil => intro y hy; cases hy
  | cons y l ih =>
    unfold delFirst at h
    split at h
    · cases h
    · rename_i hy
      rw [Option.map_eq_none_iff] at h
      intro z hz
      rcases List.mem_cons.1 hz with rfl | hz
      · simpa using hy
      · exact ih h z hz

/-- The rules of the two families. -/
structure Fams where
  four : List IpRule
  six : List IpRule
deriving DecidableEq

def Fams.rules (p : Fams) : IpRules := fun f => if f = b!"-4" then p.four else if f = b!"-6" then p.six else []

def Fams.set (p : Fams) (f : CStr) (l : List IpRule) : Fams := if f = b!"-4" then { p with four := l } else { p with six := l }

def isFam (f : CStr) : Bool := f == b!"-4" || f == b!"-6"

theorem Fams.set_rules {p : Fams} {f : CStr} {l : List IpRule} (h : isFam f = true) : (p.set f l).rules = Function.update p.rules f l := by
  unfold isFam at h
  rw [Bool.or_eq_true, beq_iff_eq, beq_iff_eq] at h
  funext g
  rcases h with rfl | rfl
  · unfold Fams.set
    rw [if_pos rfl]
    by_cases hg : g = b!"-4"
    · subst hg; rw [Function.update_self]; rfl
    · rw [Function.update_of_ne hg]; unfold Fams.rules; rw [if_neg hg, if_neg hg]
  · unfold Fams.set
    rw [if_neg (by decide)]
    by_cases hg : g = b!"-6"
    · subst hg; rw [Function.update_self]; rfl
    · rw [Function.update_of_ne hg]; unfold Fams.rules; rw [if_neg hg, if_neg hg]

def ruleish : Call → Bool
  | .act (p :: _ :: x :: _) _ => p == b!"ip" && x == b!"rule"
  | .query (p :: _ :: x :: _) => p == b!"ip" && x == b!"rule"
  | _ => false

theorem not_ruleCall {c : Call} (h : ruleish c = false) : ¬ IsRuleCall c := by
  rintro ⟨fam, args, ⟨t, rfl⟩ | rfl⟩ <;> simp [ruleish] at h

/-- The rule that is shown for a new one. -/
def madeRule (args : List CStr) : IpRule :=
  match args with
  | [_, _, t, _, _] => ⟨b!"32765:\tnot from all fwmark 0xca6c ", some t, []⟩
  | _ => ⟨b!"32764:\tfrom all ", some b!"main", b!" suppress_prefixlength 0"⟩

def simStep (p : Fams) (e : Ev) : Option Fams :=
  match e.1 with
  | .query [a, f, b, s] =>
    if a == b!"ip" && b == b!"rule" then
      if isFam f && s == b!"show" && e.2.out == ruleListing (p.rules f) then some p else none
    else some p
  | .act (a :: f :: b :: x :: args) [] =>
    if a == b!"ip" && b == b!"rule" then
      if isFam f && x == b!"delete" then
        match delFirst (selCheck args) (p.rules f) with
        | some l => if e.2.status = 0 then some (p.set f l) else none
        | none => if e.2.status = 0 then none else some p
      else if isFam f && x == b!"add" then
        if e.2.status = 0 then
          if madeCheck args (madeRule args) && wfCheck (madeRule args) then some (p.set f (madeRule args :: p.rules f)) else none
        else some p
      else none
    else some p
  | c => if ruleish c then none else some p

def sim : Fams → List Ev → Option Fams
  | p, [] => some p
  | p, e :: h => (simStep p e).bind fun q => sim q h

theorem simStep_sound {p q : Fams} {e : Ev} (hs : simStep p e = some q) {h : List Ev} {R : IpRules} (hr : RulesRun q.rules h R) :
    RulesRun p.rules (e :: h) R := by
  obtain ⟨c, r⟩ := e
  unfold simStep at hs
  dsimp only at hs
  split at hs
  · rename_i a f b s
    split at hs
    · rename_i hc
      rw [Bool.and_eq_true, beq_iff_eq, beq_iff_eq] at hc
      obtain ⟨rfl, rfl⟩ := hc
      split at hs
      · rename_i h2
        simp only [Bool.and_eq_true, beq_iff_eq] at h2
        obtain ⟨⟨_, rfl⟩, h3⟩ := h2
        cases hs
        exact .listed h3 hr
      · cases hs
    · rename_i hc
      cases hs
      exact .other (not_ruleCall (by simpa [ruleish] using hc)) hr
  · rename_i a f b x args
    split at hs
    · rename_i hc
      rw [Bool.and_eq_true, beq_iff_eq, beq_iff_eq] at hc
      obtain ⟨rfl, rfl⟩ := hc
      split at hs
      · rename_i h2
        rw [Bool.and_eq_true, beq_iff_eq] at h2
        obtain ⟨hf, rfl⟩ := h2
        split at hs
        · rename_i l hl
          split at hs
          · rename_i h0
            cases hs
            obtain ⟨a, x, b, e1, rfl, h3, h4⟩ := delFirst_some hl
            rw [Fams.set_rules hf] at hr
            exact .deleted e1 (fun y hy hsel => by have := h4 y hy; rw [sel_iff.2 hsel] at this; cases this) (sel_iff.1 h3) h0 hr
          · cases hs
        · rename_i hl
          split at hs
          · cases hs
          · rename_i h0
            cases hs
            exact .missing (fun y hy hsel => by have := delFirst_none hl y hy; rw [sel_iff.2 hsel] at this; cases this) h0 hr
      · split at hs
        · rename_i h2
          rw [Bool.and_eq_true, beq_iff_eq] at h2
          obtain ⟨hf, rfl⟩ := h2
          split at hs
          · rename_i h0
            split at hs
            · rename_i h3
              rw [Bool.and_eq_true] at h3
              cases hs
              rw [Fams.set_rules hf] at hr
              exact .added (a := []) rfl (made_of_check h3.1) (wf_of_check h3.2) h0 hr
            · cases hs
          · rename_i h0
            cases hs
            exact .rejected h0 hr
        · cases hs
    · rename_i hc
      cases hs
      exact .other (not_ruleCall (by simpa [ruleish] using hc)) hr
  · split at hs
    · cases hs
    · rename_i h
      cases hs
      exact .other (not_ruleCall (by simpa using h)) hr

/-- A history that passes the check is one of `RulesRun`. -/
theorem sim_sound {p q : Fams} {h : List Ev} (hs : sim p h = some q) : RulesRun p.rules h q.rules := by
  induction h generalizing p with
  | nil => cases hs; exact .nil
  | cons e h ih =>
    unfold sim at hs
    rw [Option.bind_eq_some_iff] at hs
    obtain ⟨p', h1, h2⟩ := hs
    exact simStep_sound h1 (ih h2)

/-- The rules after a history. -/
def simRules (p : Fams) (h : List Ev) : Fams := h.foldl (fun p e => (simStep p e).getD p) p

/-- The world in which routing rules behave as rules do; everything else as in `w`. -/
def withRules (p : Fams) (w : World) : World := fun h c =>
  match c with
  | .query [a, f, b, s] => if a == b!"ip" && b == b!"rule" then ⟨0, ruleListing ((simRules p h).rules f), false⟩ else w h (.query [a, f, b, s])
  | .act (a :: f :: b :: x :: args) t =>
    if a == b!"ip" && b == b!"rule" && x == b!"delete" then ⟨if (delFirst (selCheck args) ((simRules p h).rules f)).isSome then 0 else 2, [], false⟩
    else w h (.act (a :: f :: b :: x :: args) t)
  | c => w h c

end WG.Quick
