import Verif.Proof.QuickRuleUse
import Verif.Proof.QuickSim
import Verif.Props.QuickSave
import Verif.Props.QuickRoutes
/-!
C60 Taking an interface down removes its routing rules and leaves those of others alone.
-/
namespace WG
open Spec Spec.Quick Quick

instance (r : IpRule) : Decidable r.Suppress := by unfold IpRule.Suppress; infer_instance
instance (n : Nat) (r : IpRule) : Decidable (Foreign n r) := by unfold Foreign; infer_instance

/-- The rules of a list that have nothing to do with the mark `n`. -/
def foreign (n : Nat) (rs : List IpRule) : List IpRule := rs.filter fun r => decide (Foreign n r)

namespace Quick

theorem showDec_plain (n : Nat) : showDec n ≠ [] ∧ ∀ c ∈ showDec n, isDigit c = true := by
  have h := showDec_isDecimal n
  exact ⟨by
    intro e; rw [e] at h; exact absurd h.1 (by simp), fun c hc => h.2.1 c hc⟩

theorem showDec_bytes (n : Nat) : ∀ c ∈ showDec n, c ≠ 32 ∧ c ≠ 10 := by
  intro c hc
  have := (showDec_plain n).2 c hc
  constructor <;> rintro rfl <;> revert this <;> decide

theorem mark_unique {n : Nat} {m : Reply} {t : CStr} (h : ShowsMark (some n) m) (ht : MarkText m t) : t = showDec n := by
  obtain ⟨_, x, h1, h2⟩ := h
  exact ht x n h1 h2

theorem delete_spares {n : Nat} {h : List Ev} (hh : ∀ e ∈ h, isAct e.1 = true → IsRuleCall e.1 → isRuleDelete (showDec n) e.1) :
    Spares (Foreign n) h ∧ NoAdds h := by
  have key : ∀ {a : Call} {fam x args}, isRuleDelete (showDec n) a → a = cmd (b!"ip" :: fam :: b!"rule" :: x :: args) →
      x = b!"delete" ∧ (args = [b!"table", showDec n] ∨ args = [b!"table", b!"main", b!"suppress_prefixlength", b!"0"]) := by
    rintro a fam x args ⟨f, h | h⟩ h' <;> rw [h'] at h <;> simp only [cmd, Call.act.injEq, List.cons.injEq] at h
    · exact ⟨h.1.2.2.2.1, .inl h.1.2.2.2.2⟩
    · exact ⟨h.1.2.2.2.1, .inr h.1.2.2.2.2⟩
  constructor
  · intro e he fam args
    constructor
    · intro h r hr hf
      have hd := hh e he (by rw [h]; rfl) ⟨fam, b!"delete" :: args, .inl ⟨[], h⟩⟩
      rcases (key hd h).2 with rfl | rfl
      · rcases hr with ⟨t, h1, h2⟩ | ⟨h1, _⟩
        · simp only [List.cons.injEq, and_true, true_and] at h1
          exact hf.1 (h1 ▸ h2)
        · simp at h1
      · rcases hr with ⟨t, h1, h2⟩ | ⟨_, h2⟩
        · simp at h1
        · exact hf.2 h2
    · intro h
      have hd := hh e he (by rw [h]; rfl) ⟨fam, b!"add" :: args, .inl ⟨[], h⟩⟩
      exact absurd (key hd h).1 (by decide)
  · intro e he fam args h
    have hd := hh e he (by rw [h]; rfl) ⟨fam, b!"add" :: args, .inl ⟨[], h⟩⟩
    exact absurd (key hd h).1 (by decide)

end Quick

/-- **C60** Whatever happens while the interface is taken down: if its mark is `n`, routing rules that do not look up table `n` and
do not suppress default routes of the main table all stay as they are, in their order; and no rule is added. -/
theorem c60_foreign_rules_stay (c : Cfg) (w : World) (n : Nat) (R R' : IpRules) (hR : RulesRun R (cmdDown c w {}).2.hist R')
    (hm : ∀ m, (.query [b!"wg", b!"show", c.iface, b!"fwmark"], m) ∈ (cmdDown c w {}).2.hist → Marked m → ShowsMark (some n) m) :
    ∀ f, foreign n (R' f) = foreign n (R f) ∧ (R' f).Sublist (R f) := by
  obtain ⟨l, h1, h2⟩ := uses_down c w {}
  simp only [List.nil_append] at h1
  rw [h1] at hR hm
  have : ∀ e ∈ l, isAct e.1 = true → IsRuleCall e.1 → isRuleDelete (showDec n) e.1 := by
    rcases h2 with h2 | ⟨m, t, k1, k2, k3, k4⟩
    · intro e he ha hr; exact absurd hr (h2 e he ha)
    · rw [← mark_unique (hm m k1 k2) k3]; exact k4
  obtain ⟨k1, k2⟩ := delete_spares this
  intro f
  exact ⟨spared hR k1 f, no_adds hR k2 f⟩

namespace Quick

theorem not_ruleCall_append {R R' : IpRules} {a b : List Ev} (h : RulesRun R (a ++ b) R') (ha : NoRuleActs a) : RulesRun R b R' := by
  obtain ⟨R1, h1, h2⟩ := RulesRun_append h
  rw [no_rules h1 ha] at h2
  exact h2

/-- What the four loops leave. -/
theorem rules_done {t : CStr} {l : List Ev} (hl : RulesRemoval t l) (ht : ∀ c ∈ t, c ≠ 32 ∧ c ≠ 10) {R R' : IpRules} (hr : RulesRun R l R') (hw : AllWF R) :
    ∀ f, f = b!"-4" ∨ f = b!"-6" → ∀ r ∈ R' f, (∀ t', r.table = some t' → ¬ t <+: t') ∧ ¬ (r.Suppress ∧ b!"from all " <:+ r.sel) := by
  obtain ⟨l1, l2, l3, l4, rfl, a1, a2, a3, a4⟩ := hl
  obtain ⟨R1, r1, hr⟩ := RulesRun_append hr
  obtain ⟨R2, r2, hr⟩ := RulesRun_append hr
  obtain ⟨R3, r3, r4⟩ := RulesRun_append hr
  have w1 := r1.wf hw
  have w2 := r2.wf w1
  have w3 := r3.wf w2
  have w4 := r4.wf w3
  have hp : (10 : UInt8) ∉ b!"lookup " ++ t := by
    intro h
    rcases List.mem_append.1 h with h | h
    · revert h; decide
    · exact (ht _ h).2 rfl
  obtain ⟨x1, y1⟩ := loop_done a1 hp (by simp) r1 hw
  obtain ⟨x2, y2⟩ := loop_done a2 (by decide) (by simp) r2 w1
  obtain ⟨x3, y3⟩ := loop_done a3 hp (by simp) r3 w2
  obtain ⟨x4, y4⟩ := loop_done a4 (by decide) (by simp) r4 w3
  have s2 := no_adds r2 (loop_noAdds a2)
  have s4 := no_adds r4 (loop_noAdds a4)
  have ht' : ∀ c ∈ t, c ≠ 32 := fun c hc => (ht c hc).1
  rintro f (rfl | rfl) r hr
  · rw [y4 _ (by decide), y3 _ (by decide)] at hr
    have hr1 := (s2 _).subset hr
    refine ⟨fun t' h1 h2 => x1 r hr1 ((lookup_shown (w1 _ r hr1) ht').2 ⟨t', h1, h2⟩), fun h => x2 r hr ((suppress_shown (w2 _ r hr)).2 h)⟩
  · have hr3 := (s4 _).subset hr
    refine ⟨fun t' h1 h2 => x3 r hr3 ((lookup_shown (w3 _ r hr3) ht').2 ⟨t', h1, h2⟩), fun h => x4 r hr ((suppress_shown (w4 _ r hr)).2 h)⟩

theorem rules_others {t : CStr} {l : List Ev} (hl : RulesRemoval t l) (ht : ∀ c ∈ t, c ≠ 32 ∧ c ≠ 10) {R R' : IpRules} (hr : RulesRun R l R') (hw : AllWF R) :
    ∀ f, f ≠ b!"-4" → f ≠ b!"-6" → R' f = R f := by
  obtain ⟨l1, l2, l3, l4, rfl, a1, a2, a3, a4⟩ := hl
  obtain ⟨R1, r1, hr⟩ := RulesRun_append hr
  obtain ⟨R2, r2, hr⟩ := RulesRun_append hr
  obtain ⟨R3, r3, r4⟩ := RulesRun_append hr
  have w1 := r1.wf hw
  have w2 := r2.wf w1
  have w3 := r3.wf w2
  have hp : (10 : UInt8) ∉ b!"lookup " ++ t := by
    intro h
    rcases List.mem_append.1 h with h | h
    · revert h; decide
    · exact (ht _ h).2 rfl
  intro f h4 h6
  rw [(loop_done a4 (by decide) (by simp) r4 w3).2 f h6, (loop_done a3 hp (by simp) r3 w2).2 f h6,
    (loop_done a2 (by decide) (by simp) r2 w1).2 f h4, (loop_done a1 hp (by simp) r1 hw).2 f h4]

theorem noRules_hooks {c : Cfg} {hs : List CStr} {l : List Ev} (h : HookActs c hs (acts l)) : NoRuleActs l := by
  intro e he ha
  have hm : e.1 ∈ acts l := mem_acts.2 ⟨⟨e, he, rfl⟩, ha⟩
  unfold HookActs at h
  generalize acts l = la at h hm
  induction h with
  | nil => cases hm
  | cons hx _ ih =>
    rcases List.mem_cons.1 hm with rfl | hm
    · obtain ⟨t, ht, _⟩ := hx
      rw [ht]; exact free_hook t rfl
    · exact ih hm

theorem noRules_append {a b : List Ev} (ha : NoRuleActs a) (hb : NoRuleActs b) : NoRuleActs (a ++ b) := by
  intro e he
  rcases List.mem_append.1 he with he | he
  · exact ha e he
  · exact hb e he

theorem noRules_queries {a : List Ev} (ha : ∀ e ∈ a, isAct e.1 = false) : NoRuleActs a := by
  intro e he h
  rw [ha e he] at h; cases h

theorem noRules_nil : NoRuleActs [] := by intro e he; cases he
theorem noRules_cons {e : Ev} {l : List Ev} (h : RuleFree e.1) (hl : NoRuleActs l) : NoRuleActs (e :: l) := by
  intro x hx
  rcases List.mem_cons.1 hx with rfl | hx
  · exact h
  · exact hl x hx

theorem noRules_first {c : Cfg} {f : List Ev} (h : DownFirst c f) : NoRuleActs f := by
  obtain ⟨a, b, rfl, h1, _, h2⟩ := h
  refine noRules_append (noRules_hooks h1) ?_
  split at h2
  · obtain ⟨q, t, x, rfl, hq, _, r1, r2, r3, rfl, _⟩ := h2
    exact noRules_append (noRules_queries hq) (noRules_cons (free_act (by simp)) (noRules_cons (free_act (by simp)) (noRules_cons (free_act (by simp)) noRules_nil)))
  · subst h2; exact noRules_nil

theorem noRules_prefix {p : CStr} {l : List Ev} (h : PrefixShown p l) : NoRuleActs l := by
  rcases h with ⟨t, _, _, rfl⟩ | ⟨t, r, _, _, _, rfl, _⟩
  · exact noRules_cons (free_query _) noRules_nil
  · exact noRules_cons (free_query _) (noRules_cons (free_query _) noRules_nil)

theorem noRules_dns {c : Cfg} {l : List Ev} (h : DnsRemoval c l) : NoRuleActs l := by
  unfold DnsRemoval at h
  split at h
  · subst h; exact noRules_nil
  · obtain ⟨pre, l', r, h, rfl⟩ := h
    exact noRules_append (noRules_prefix h) (noRules_cons (free_act (by simp)) noRules_nil)

theorem noRules_ipt {c : Cfg} {ipt : CStr} {l : List Ev} (h : IptRemoval c ipt l) : NoRuleActs l := by
  rcases h with ⟨r, lines, _, _, rfl⟩ | ⟨r, lines, d, us, _, _, _, rfl⟩
  · exact noRules_cons (free_query _) noRules_nil
  · exact noRules_cons (free_query _) (noRules_cons (free_act (by simp)) noRules_nil)

theorem noRules_fw {c : Cfg} {l : List Ev} (h : FwRemoval c l) : NoRuleActs l := by
  obtain ⟨l1, t, l2, rfl, h1, h2⟩ := h
  refine noRules_append ?_ (noRules_cons (free_query _) ?_)
  · rcases h1 with ⟨t, _, rfl⟩ | ⟨t, r, lines, _, _, _, rfl⟩ | ⟨t, r, d, lines, _, _, _, rfl⟩
    · exact noRules_cons (free_query _) noRules_nil
    · exact noRules_cons (free_query _) (noRules_cons (free_query _) noRules_nil)
    · exact noRules_cons (free_query _) (noRules_cons (free_query _) (noRules_cons (free_act (by simp)) noRules_nil))
  · split at h2
    · obtain ⟨l4, l6, h4, h6, rfl⟩ := h2
      exact noRules_append (noRules_ipt h4) (noRules_ipt h6)
    · subst h2; exact noRules_nil

/-- In a successful `down`, the rules change in the removal of the default routes only. -/
theorem down_default {c : Cfg} {w : World} (ho : (cmdDown c w {}).1 = .ok ()) :
    ∃ a l b, (cmdDown c w {}).2.hist = a ++ (l ++ b) ∧ DefaultRemoval c l ∧ NoRuleActs a ∧ NoRuleActs b := by
  obtain ⟨f, a, b, h1, _, hf, ⟨l1, l2, l3, d, rfl, k1, k2, k3⟩, ⟨m1, m2, m3, rfl, n1, n2, n3⟩, _⟩ := c58_success c w ho
  simp only [Bool.false_eq_true, if_false] at k1 k2
  subst k1 k2
  refine ⟨(ifaceCheck, w [] ifaceCheck) :: f, l3, (deleteAct c, d) :: (m1 ++ (m2 ++ m3)), by rw [h1]; simp, k3, noRules_cons (free_query _) (noRules_first hf), ?_⟩
  exact noRules_cons (free_act (by simp)) (noRules_append (noRules_dns n1) (noRules_append (noRules_fw n2) (noRules_hooks n3)))

end Quick

/-- **C60** If the interface had default routes in a table that wg-quick chose (its mark, `n`), a successful `down` removes exactly
the rules that look up that table and the rules that suppress default routes of the main table; all others stay as they are.
(Provided that suppress rules have no selector; see `c60_selector`.) -/
theorem c60_rules_removed (c : Cfg) (w : World) (ho : (cmdDown c w {}).1 = .ok ()) (n : Nat) (R R' : IpRules)
    (hR : RulesRun R (cmdDown c w {}).2.hist R') (hw : ∀ f, ∀ r ∈ R f, r.WF) (ht : c.opts.table = [] ∨ c.opts.table = b!"auto")
    (hm : ∀ m, (.query [b!"wg", b!"show", c.iface, b!"fwmark"], m) ∈ (cmdDown c w {}).2.hist → ShowsMark (some n) m)
    (hd : ∀ q, (.query [b!"wg", b!"show", c.iface, b!"allowed-ips"], q) ∈ (cmdDown c w {}).2.hist → DefaultShown (captured q.out))
    (hs : ∀ f, ∀ r ∈ R f, r.Suppress → b!"from all " <:+ r.sel) :
    R' b!"-4" = foreign n (R b!"-4") ∧ R' b!"-6" = foreign n (R b!"-6") ∧ ∀ f, f ≠ b!"-4" → f ≠ b!"-6" → R' f = R f := by
  have hst := c60_foreign_rules_stay c w n R R' hR fun m h _ => hm m h
  obtain ⟨a, l, b, h1, h2, h3, h4⟩ := down_default ho
  rw [h1] at hR hm hd
  have hR := not_ruleCall_append hR h3
  obtain ⟨R1, r1, r2⟩ := RulesRun_append hR
  have := no_rules r2 h4
  subst this
  unfold DefaultRemoval at h2
  rw [if_pos ht] at h2
  obtain ⟨m, l', rfl, h2⟩ := h2
  have hmn := hm m (by simp)
  have hmark : Marked m := by
    obtain ⟨k1, h, k2, k3⟩ := hmn
    refine ⟨k1, ?_, ?_⟩ <;> rw [k2] <;> simp
  rcases h2 with ⟨h, _⟩ | ⟨_, q, l'', rfl, h2⟩
  · exact absurd hmark h
  rcases h2 with ⟨h, _⟩ | ⟨_, t, k1, k2⟩
  · exact absurd (hd q (by simp)) h
  have hte := mark_unique hmn k1
  subst hte
  have r1 : RulesRun R l'' R' := not_ruleCall_append (a := [_, _]) r1 (noRules_cons (free_query _) (noRules_cons (free_query _) noRules_nil))
  have hdone := rules_done k2 (showDec_bytes n) r1 hw
  have hall : ∀ f, f = b!"-4" ∨ f = b!"-6" → R' f = foreign n (R f) := by
    intro f hf
    rw [← (hst f).1]
    unfold foreign
    symm
    rw [List.filter_eq_self]
    intro r hr
    obtain ⟨x1, x2⟩ := hdone f hf r hr
    rw [decide_eq_true_eq]
    refine ⟨fun h => x1 _ h (List.prefix_refl _), fun h => x2 ⟨h, hs f r ((hst f).2.subset hr) h⟩⟩
  exact ⟨hall _ (.inl rfl), hall _ (.inr rfl), rules_others k2 (showDec_bytes n) r1 hw⟩

/-- **C60** Otherwise (a table of its own or `off`, no mark, or no default route) it changes no routing rule. -/
theorem c60_no_default (c : Cfg) (w : World) (ho : (cmdDown c w {}).1 = .ok ()) (R R' : IpRules) (hR : RulesRun R (cmdDown c w {}).2.hist R')
    (hn : (c.opts.table ≠ [] ∧ c.opts.table ≠ b!"auto") ∨
      (∀ m, (.query [b!"wg", b!"show", c.iface, b!"fwmark"], m) ∈ (cmdDown c w {}).2.hist → ¬ Marked m) ∨
      (∀ q, (.query [b!"wg", b!"show", c.iface, b!"allowed-ips"], q) ∈ (cmdDown c w {}).2.hist → ¬ DefaultShown (captured q.out))) : R' = R := by
  obtain ⟨a, l, b, h1, h2, h3, h4⟩ := down_default ho
  rw [h1] at hR hn
  have hR := not_ruleCall_append hR h3
  obtain ⟨R1, r1, r2⟩ := RulesRun_append hR
  have := no_rules r2 h4
  subst this
  refine no_rules r1 ?_
  unfold DefaultRemoval at h2
  split at h2
  · rename_i ht
    obtain ⟨m, l', rfl, h2⟩ := h2
    refine noRules_cons (free_query _) ?_
    rcases h2 with ⟨_, rfl⟩ | ⟨hmk, q, l'', rfl, h2⟩
    · exact noRules_nil
    · refine noRules_cons (free_query _) ?_
      rcases h2 with ⟨_, rfl⟩ | ⟨hdf, _⟩
      · exact noRules_nil
      · rcases hn with h | h | h
        · rcases ht with ht | ht
          · exact absurd ht h.1
          · exact absurd ht h.2
        · exact absurd hmk (h m (by simp))
        · exact absurd hdf (h q (by simp))
  · subst h2; exact noRules_nil

/-- **C60** (limit) If the number of another table in use begins with the digits of the mark (say 518 and 51820), `down` never
succeeds: the listing looks as if a rule were left, and deleting it fails. -/
theorem c60_prefix_blocks (c : Cfg) (w : World) (n : Nat) (R R' : IpRules) (hR : RulesRun R (cmdDown c w {}).2.hist R') (hw : ∀ f, ∀ r ∈ R f, r.WF)
    (ht : c.opts.table = [] ∨ c.opts.table = b!"auto")
    (hm : ∀ m, (.query [b!"wg", b!"show", c.iface, b!"fwmark"], m) ∈ (cmdDown c w {}).2.hist → ShowsMark (some n) m)
    (hd : ∀ q, (.query [b!"wg", b!"show", c.iface, b!"allowed-ips"], q) ∈ (cmdDown c w {}).2.hist → DefaultShown (captured q.out))
    (f : List UInt8) (hf : f = b!"-4" ∨ f = b!"-6") (r : IpRule) (hr : r ∈ R f) (t : List UInt8) (h1 : r.table = some t) (h2 : showDec n <+: t) (h3 : t ≠ showDec n) :
    (cmdDown c w {}).1 ≠ .ok () := by
  intro ho
  have h4 : ¬ r.Suppress := by
    rintro ⟨h, _⟩
    rw [h1] at h
    simp only [Option.some.injEq] at h
    subst h
    have hd := showDec_plain n
    cases e : showDec n with
    | nil => exact hd.1 e
    | cons x l =>
      rw [e] at h2 hd
      have hx := hd.2 x (by simp)
      rw [List.cons_prefix_cons] at h2
      rw [h2.1] at hx
      revert hx; decide
  have hst := (c60_foreign_rules_stay c w n R R' hR fun m h _ => hm m h) f
  have hmem : r ∈ R' f := by
    have : r ∈ foreign n (R f) := by
      unfold foreign
      rw [List.mem_filter, decide_eq_true_eq]
      exact ⟨hr, by rw [h1]; simpa using h3, h4⟩
    rw [← hst.1] at this
    exact (List.mem_filter.1 this).1
  obtain ⟨a, l, b, e1, e2, e3, e4⟩ := down_default ho
  rw [e1] at hR hm hd
  have hR := not_ruleCall_append hR e3
  obtain ⟨R1, r1, r2⟩ := RulesRun_append hR
  have := no_rules r2 e4
  subst this
  unfold DefaultRemoval at e2
  rw [if_pos ht] at e2
  obtain ⟨m, l', rfl, e2⟩ := e2
  have hmn := hm m (by simp)
  have hmark : Marked m := by
    obtain ⟨k1, h, k2, k3⟩ := hmn
    refine ⟨k1, ?_, ?_⟩ <;> rw [k2] <;> simp
  rcases e2 with ⟨h, _⟩ | ⟨_, q, l'', rfl, e2⟩
  · exact absurd hmark h
  rcases e2 with ⟨h, _⟩ | ⟨_, t', k1, k2⟩
  · exact absurd (hd q (by simp)) h
  have hte := mark_unique hmn k1
  subst hte
  have r1 : RulesRun R l'' R' := not_ruleCall_append (a := [_, _]) r1 (noRules_cons (free_query _) (noRules_cons (free_query _) noRules_nil))
  exact (rules_done k2 (showDec_bytes n) r1 hw f hf r hmem).1 t h1 h2

namespace Quick

/-- A command on rules. -/
def isRuleAct : Call → Bool
  | .act (p :: _ :: x :: _) _ => p == b!"ip" && x == b!"rule"
  | _ => false

theorem plain_ruleAct : Plain isRuleAct := ⟨fun _ => rfl, fun _ => rfl⟩

theorem ruleAct_iff {a : Call} (h : isAct a = true) : IsRuleCall a ↔ isRuleAct a = true := by
  constructor
  · rintro ⟨fam, args, ⟨t, rfl⟩ | rfl⟩
    · simp [isRuleAct]
    · cases h
  · intro h'
    unfold isRuleAct at h'
    split at h'
    · simp only [Bool.and_eq_true, beq_iff_eq] at h'
      obtain ⟨rfl, rfl⟩ := h'
      exact ⟨_, _, .inl ⟨_, rfl⟩⟩
    · cases h'

/-- The two rules added for a default route. -/
def IsRuleAdd (t : CStr) (a : Call) : Prop :=
  ∃ fam, a = cmd [b!"ip", fam, b!"rule", b!"add", b!"not", b!"fwmark", t, b!"table", t] ∨
    a = cmd [b!"ip", fam, b!"rule", b!"add", b!"table", b!"main", b!"suppress_prefixlength", b!"0"]

theorem route_adds {c : Cfg} {r : CStr} {l : List Ev} (h : RouteStep c r l) :
    Free isRuleAct l ∨ ∃ t fam d, (cmd [b!"ip", fam, b!"rule", b!"add", b!"not", b!"fwmark", t, b!"table", t], d) ∈ l ∧
      ∀ e ∈ l, isRuleAct e.1 = true → IsRuleAdd t e.1 := by
  unfold RouteStep at h
  split at h
  · subst h; exact .inl .nil
  split at h
  · obtain ⟨d, rfl⟩ := h
    exact .inl (.cons (by simp [isRuleAct, cmd]) .nil)
  split at h
  · obtain ⟨t, lm, r1, r2, r3, a, addrs, ls, lf, hm, _, ⟨n, d, rfl⟩, hs, rfl⟩ := h
    right
    refine ⟨t, family r, r1, by simp, ?_⟩
    have f1 : Free isRuleAct lm := by
      obtain ⟨m, ⟨_, _, rfl⟩ | ⟨_, n, lf, r, hf, rfl, rfl⟩⟩ := hm
      · exact .cons rfl .nil
      · exact .cons rfl ((free_table plain_ruleAct hf).append (.cons (by simp [isRuleAct, cmd]) .nil))
    have f2 : Free isRuleAct ls := by
      split at hs
      · subst hs; exact .nil
      · obtain ⟨d, rfl⟩ := hs; exact .cons rfl .nil
    intro e he hr
    simp only [List.mem_append, List.mem_cons, List.not_mem_nil, or_false] at he
    rcases he with he | (rfl | rfl | rfl | rfl) | he | rfl | rfl
    · rw [f1 e he] at hr; cases hr
    · exact ⟨_, .inl rfl⟩
    · exact ⟨_, .inr rfl⟩
    · simp [isRuleAct, cmd] at hr
    · cases hr
    · rw [f2 e he] at hr; cases hr
    · cases hr
    · dsimp only at hr
      split at hr <;> cases hr
  · obtain ⟨q, h⟩ := h
    left
    split at h
    · subst h; exact .cons rfl .nil
    · obtain ⟨d, rfl⟩ := h; exact .cons rfl (.cons (by simp [isRuleAct, cmd]) .nil)

theorem routes_adds {c : Cfg} {rs : List CStr} {ls : List (List Ev)} (h : List.Forall₂ (RouteStep c) rs ls) :
    ∀ e ∈ ls.flatten, isRuleAct e.1 = true →
      ∃ t fam d, (cmd [b!"ip", fam, b!"rule", b!"add", b!"not", b!"fwmark", t, b!"table", t], d) ∈ ls.flatten ∧ IsRuleAdd t e.1 := by
  induction h with
  | nil => intro e he; cases he
  | cons h _ ih =>
    intro e he hr
    rw [List.flatten_cons, List.mem_append] at he
    rcases he with he | he
    · rcases route_adds h with h | ⟨t, fam, d, h1, h2⟩
      · rw [h e he] at hr; cases hr
      · exact ⟨t, fam, d, by rw [List.flatten_cons]; exact List.mem_append_left _ h1, h2 e he hr⟩
    · obtain ⟨t, fam, d, h1, h2⟩ := ih e he hr
      exact ⟨t, fam, d, by rw [List.flatten_cons]; exact List.mem_append_right _ h1, h2⟩

theorem up_adds {c : Cfg} {w : World} {u : Unit} (h1 : (w [] (upCheck c)).sig = false) (h2 : captured (w [] (upCheck c)).out = [])
    (ho : (cmdUp c w {}).1 = .ok u) : ∀ e ∈ (cmdUp c w {}).2.hist, isRuleAct e.1 = true →
      ∃ t fam d, (cmd [b!"ip", fam, b!"rule", b!"add", b!"not", b!"fwmark", t, b!"table", t], d) ∈ (cmdUp c w {}).2.hist ∧ IsRuleAdd t e.1 := by
  obtain ⟨a, b, hh, hadd, ⟨hpre, rset, haddrs, hmtu, hdns, q, routes, hroutes, hpost, rfl, h3, h4, h5, h6, h7, ⟨ls, h8, rfl⟩, h9⟩, hok⟩ :=
    c50_success c w u h1 h2 ho
  have hsplit : (cmdUp c w {}).2.hist = ((upCheck c, w [] (upCheck c)) :: (a ++ (hpre ++ (.act [b!"wg", b!"setconf", c.iface] (c.opts.wgConfig ++ b!"\n"), rset) ::
      (haddrs ++ (hmtu ++ (hdns ++ [(.query [b!"wg", b!"show", c.iface, b!"allowed-ips"], q)])))))) ++ (ls.flatten ++ hpost) := by
    rw [hh]; simp
  have f1 : Free isRuleAct ((upCheck c, w [] (upCheck c)) :: (a ++ (hpre ++ (.act [b!"wg", b!"setconf", c.iface] (c.opts.wgConfig ++ b!"\n"), rset) ::
      (haddrs ++ (hmtu ++ (hdns ++ [(.query [b!"wg", b!"show", c.iface, b!"allowed-ips"], q)])))))) :=
    .cons rfl ((free_added plain_ruleAct (by simp [isRuleAct, linkAdd]) rfl hadd).append ((free_hooks plain_ruleAct h3).append
      (.cons (by simp [isRuleAct]) ((free_addrs (fun _ => by simp [isRuleAct, addrAct, cmd]) h4).append
      ((free_mtu plain_ruleAct (fun _ => by simp [isRuleAct, upAct, cmd]) h5).append ((free_dns plain_ruleAct (fun _ _ => by simp [isRuleAct]) h6).append
      (.cons rfl .nil)))))))
  rw [hsplit]
  intro e he hr
  rcases List.mem_append.1 he with he | he
  · rw [f1 e he] at hr; cases hr
  rcases List.mem_append.1 he with he | he
  · obtain ⟨t, fam, d, k1, k2⟩ := routes_adds h8 e he hr
    exact ⟨t, fam, d, by simp only [List.mem_append]; exact .inr (.inl k1), k2⟩
  · rw [free_hooks plain_ruleAct h9 e he] at hr; cases hr

theorem isRuleAct_isAct {a : Call} (h : isRuleAct a = true) : isAct a = true := by
  unfold isRuleAct at h
  split at h
  · rfl
  · cases h

end Quick

/-- **C60** Bringing an interface up and taking it down again leaves the routing rules of the system as they were, provided that the
interface still has the mark that `up` gave it (or found), `wg` still shows a default route if `up` added rules for one, and there
were no rules with that table and no suppress rules before. -/
theorem c60_up_down (c : Cfg) (w w' : World) (h1 : (w [] (upCheck c)).sig = false) (h2 : captured (w [] (upCheck c)).out = [])
    (hu : (cmdUp c w {}).1 = .ok ()) (ho : (cmdDown c w' {}).1 = .ok ()) (ht : c.opts.table = [] ∨ c.opts.table = b!"auto")
    (m : Option Nat) (hk : MarkKept c m (cmdUp c w {}).2.hist) (R0 R1 R2 : IpRules) (r1 : RulesRun R0 (cmdUp c w {}).2.hist R1)
    (r2 : RulesRun R1 (cmdDown c w' {}).2.hist R2) (hw : ∀ f, ∀ r ∈ R0 f, r.WF)
    (hm : ∀ m', MarkAfter c m (cmdUp c w {}).2.hist m' →
      (∀ r, (.query [b!"wg", b!"show", c.iface, b!"fwmark"], r) ∈ (cmdDown c w' {}).2.hist → ShowsMark m' r) ∧
      ∀ n, m' = some n → ∀ f, ∀ r ∈ R0 f, Foreign n r)
    (hd : (∃ a ∈ acts (cmdUp c w {}).2.hist, IsRuleCall a) →
      ∀ q, (.query [b!"wg", b!"show", c.iface, b!"allowed-ips"], q) ∈ (cmdDown c w' {}).2.hist → DefaultShown (captured q.out)) :
    R2 b!"-4" = R0 b!"-4" ∧ R2 b!"-6" = R0 b!"-6" := by
  obtain ⟨m', a1, _, a2⟩ := c57_one_table c w () h1 h2 hu ht m hk
  obtain ⟨hm1, hm2⟩ := hm m' a1
  by_cases hany : ∃ a ∈ acts (cmdUp c w {}).2.hist, IsRuleCall a
  · obtain ⟨a, ha, har⟩ := hany
    have hd := hd ⟨a, ha, har⟩
    obtain ⟨⟨e, he, rfl⟩, hact⟩ := mem_acts.1 ha
    obtain ⟨t, fam, d, k1, _⟩ := up_adds h1 h2 hu e he ((ruleAct_iff hact).1 har)
    obtain ⟨n, rfl, _⟩ := (a2 _ (mem_acts.2 ⟨⟨_, k1, rfl⟩, rfl⟩)).1 _ _ _ rfl
    have hmade : ∀ args r, ∀ fam, cmd ([b!"ip", fam, b!"rule", b!"add"] ++ args) ∈ acts (cmdUp c w {}).2.hist → Made args r →
        r.table = some (showDec n) ∨ (r.Suppress ∧ b!"from all " <:+ r.sel) := by
      intro args r fam hmem hr
      rcases hr with ⟨t, rfl, h⟩ | ⟨rfl, h⟩
      · obtain ⟨k, hk, hk1, _⟩ := (a2 _ hmem).1 _ _ _ rfl
        simp only [Option.some.injEq] at hk
        subst hk
        rw [hk1] at h
        exact .inl h
      · exact .inr h
    have hsp : Spares (Foreign n) (cmdUp c w {}).2.hist := by
      intro e he fam args
      constructor
      · intro h
        exfalso
        obtain ⟨_, _, _, _, f, h' | h'⟩ := up_adds h1 h2 hu e he (by rw [h]; simp [isRuleAct, cmd]) <;> rw [h] at h' <;> simp [cmd] at h'
      · intro h r hr hf
        rcases hmade args r fam (by rw [← h]; exact mem_acts.2 ⟨⟨e, he, rfl⟩, by rw [h]; rfl⟩) hr with h | h
        · exact hf.1 h
        · exact hf.2 h.1
    have e1 := spared r1 hsp
    have hw1 := r1.wf hw
    -- suppress rules are the ones just added
    have hs1 : ∀ f, ∀ r ∈ R1 f, r.Suppress → b!"from all " <:+ r.sel := by
      have gen : ∀ (h : List Ev) (R R' : IpRules), RulesRun R h R' → (∀ e ∈ h, e ∈ (cmdUp c w {}).2.hist) → (∀ f, ∀ r ∈ R f, r.Suppress → b!"from all " <:+ r.sel) →
          ∀ f, ∀ r ∈ R' f, r.Suppress → b!"from all " <:+ r.sel := by
        intro h R R' hr
        induction hr with
        | nil => exact fun _ h => h
        | listed _ _ ih => exact fun hh h => ih (fun e he => hh e (List.mem_cons_of_mem _ he)) h
        | @deleted R fam args a x b r h R' e _ _ _ _ ih =>
          intro hh h
          refine ih (fun e he => hh e (List.mem_cons_of_mem _ he)) fun f r hr => ?_
          by_cases hf : f = fam
          · subst hf
            rw [Function.update_self] at hr
            refine h f r ?_
            rw [e]
            simp only [List.mem_append, List.mem_cons] at hr ⊢
            tauto
          · rw [Function.update_of_ne hf] at hr
            exact h f r hr
        | missing _ _ _ ih => exact fun hh h => ih (fun e he => hh e (List.mem_cons_of_mem _ he)) h
        | @added R fam args a x b r h R' e hx _ _ _ ih =>
          intro hh h
          refine ih (fun e he => hh e (List.mem_cons_of_mem _ he)) fun f r hr => ?_
          by_cases hf : f = fam
          · subst hf
            rw [Function.update_self] at hr
            simp only [List.mem_append, List.mem_cons] at hr
            rcases hr with hr | rfl | hr
            · exact h f r (by rw [e]; simp [hr])
            · rcases hmade args r f (mem_acts.2 ⟨⟨_, hh _ (List.mem_cons_self ..), rfl⟩, rfl⟩) hx with k | k
              · intro hsup
                rw [hsup.1] at k
                have := (showDec_plain n).2 c!"m" (by rw [← Option.some.inj k]; simp)
                exact absurd this (by decide)
              · exact fun _ => k.2
            · exact h f r (by rw [e]; simp [hr])
          · rw [Function.update_of_ne hf] at hr
            exact h f r hr
        | rejected _ _ ih => exact fun hh h => ih (fun e he => hh e (List.mem_cons_of_mem _ he)) h
        | other _ _ ih => exact fun hh h => ih (fun e he => hh e (List.mem_cons_of_mem _ he)) h
      exact gen _ _ _ r1 (fun e he => he) fun f r hr hsup => absurd hsup (hm2 n rfl f r hr).2
    obtain ⟨k4, k6, _⟩ := c60_rules_removed c w' ho n R1 R2 r2 hw1 ht hm1 hd hs1
    have hall : ∀ f, foreign n (R1 f) = R0 f := by
      intro f
      unfold foreign
      rw [e1 f, List.filter_eq_self]
      intro r hr
      exact decide_eq_true (hm2 n rfl f r hr)
    rw [k4, k6, hall, hall]; exact ⟨rfl, rfl⟩
  · -- no rules added
    have hR1 : R1 = R0 := no_rules r1 fun e he ha hr => hany ⟨e.1, mem_acts.2 ⟨⟨e, he, rfl⟩, ha⟩, hr⟩
    subst hR1
    cases hmm : m' with
    | none =>
      subst hmm
      have : R2 = R1 := c60_no_default c w' ho R1 R2 r2 (.inr (.inl fun r hr => hm1 r hr))
      rw [this]; exact ⟨rfl, rfl⟩
    | some n =>
      subst hmm
      -- all rules are foreign, and foreign rules stay
      have hst := c60_foreign_rules_stay c w' n R1 R2 r2 fun r hr _ => hm1 r hr
      have hall : ∀ f, R2 f = R1 f := by
        intro f
        have e1 : foreign n (R1 f) = R1 f := by
          unfold foreign; rw [List.filter_eq_self]; intro r hr; exact decide_eq_true (hm2 n rfl f r hr)
        have e2 := (hst f).1
        rw [e1] at e2
        refine (hst f).2.antisymm ?_
        rw [← e2]; exact List.filter_sublist
      exact ⟨hall _, hall _⟩

/-! ### Examples and limits -/

/-- An interface with the mark `0xca6e` and default routes. -/
def exDownWorld : World := fun _ c =>
  if c = ifaceCheck then ⟨0, b!"wg1 wg0\n", false⟩
  else if c = .query [b!"wg", b!"show", b!"wg0", b!"allowed-ips"] then ⟨0, b!"KEY1\t0.0.0.0/0 ::/0\nKEY2\t10.1.2.0/24 10.1.0.0/16\n", false⟩
  else if c = .query [b!"wg", b!"show", b!"wg0", b!"fwmark"] then ⟨0, b!"0xca6e\n", false⟩
  else if c = .query [b!"type", b!"-p", b!"nft"] then ⟨1, [], false⟩
  else ⟨0, [], false⟩

/-- The rules of every system. -/
def exStd : List IpRule := [⟨b!"32766:\tfrom all ", some b!"main", []⟩, ⟨b!"32767:\tfrom all ", some b!"default", []⟩]

def exLocal : IpRule := ⟨b!"0:\tfrom all ", some b!"local", []⟩
def exForeign : IpRule := ⟨b!"100:\tfrom 10.0.0.0/8 ", some b!"51820", []⟩
/-- A rule without a table. -/
def exProhibit : IpRule := ⟨b!"101:\tfrom 192.0.2.1 prohibit", none, []⟩
def exSuppress (p : CStr) : IpRule := ⟨p ++ b!":\tfrom all ", some b!"main", b!" suppress_prefixlength 0"⟩
def exLookup (p : CStr) : IpRule := ⟨p ++ b!":\tnot from all fwmark 0xca6e ", some b!"51822", []⟩

/-- Rules of wg0, one of them twice, and others. -/
def exRules : Fams :=
  ⟨exLocal :: exForeign :: exProhibit :: exSuppress b!"32762" :: exLookup b!"32763" :: exSuppress b!"32764" :: exLookup b!"32765" :: exStd,
   exLocal :: exSuppress b!"32764" :: exLookup b!"32765" :: exStd.take 1⟩

namespace Quick

theorem fams_all {P : IpRule → Prop} {p : Fams} (h4 : ∀ r ∈ p.four, P r) (h6 : ∀ r ∈ p.six, P r) : ∀ f, ∀ r ∈ p.rules f, P r := by
  intro f r hr
  unfold Fams.rules at hr
  split at hr
  · exact h4 r hr
  split at hr
  · exact h6 r hr
  · cases hr

theorem wf_fams {p : Fams} (h : (p.four ++ p.six).all wfCheck = true) : ∀ f, ∀ r ∈ p.rules f, r.WF := by
  rw [List.all_eq_true] at h
  exact fams_all (fun r hr => wf_of_check (h r (List.mem_append_left _ hr))) (fun r hr => wf_of_check (h r (List.mem_append_right _ hr)))

theorem defaultShown_of {s : CStr} (h : hasDefaultRoute s = true) : DefaultShown s := hasDefault_iff.1 h

end Quick

/-- The hypotheses of `c60_rules_removed` (and of `c60_foreign_rules_stay`) are met, and what it says. -/
example : let w := withRules exRules exDownWorld
    (cmdDown (exRouteCfg []) w {}).1 = .ok () ∧
    RulesRun exRules.rules (cmdDown (exRouteCfg []) w {}).2.hist (Fams.rules ⟨exLocal :: exForeign :: exProhibit :: exStd, exLocal :: exStd.take 1⟩) ∧
    (∀ f, ∀ r ∈ exRules.rules f, r.WF) ∧
    (∀ m, (.query [b!"wg", b!"show", b!"wg0", b!"fwmark"], m) ∈ (cmdDown (exRouteCfg []) w {}).2.hist → ShowsMark (some 51822) m) ∧
    (∀ q, (.query [b!"wg", b!"show", b!"wg0", b!"allowed-ips"], q) ∈ (cmdDown (exRouteCfg []) w {}).2.hist → DefaultShown (captured q.out)) ∧
    (∀ f, ∀ r ∈ exRules.rules f, r.Suppress → b!"from all " <:+ r.sel) ∧
    foreign 51822 exRules.four = exLocal :: exForeign :: exProhibit :: exStd ∧ foreign 51822 exRules.six = exLocal :: exStd.take 1 := by
  refine ⟨by decide +kernel, sim_sound (by decide +kernel), wf_fams (by decide +kernel), ?_, ?_, fams_all (by decide +kernel) (by decide +kernel),
    by decide +kernel, by decide +kernel⟩
  · have : ((cmdDown (exRouteCfg []) (withRules exRules exDownWorld) {}).2.hist.all fun e =>
        e.1 != .query [b!"wg", b!"show", b!"wg0", b!"fwmark"] || (e.2.status == 0 && captured e.2.out == b!"0x" ++ b!"ca6e")) = true := by decide +kernel
    intro m hm
    rw [List.all_eq_true] at this
    have := this _ hm
    simp only [bne_self_eq_false, Bool.false_or, Bool.and_eq_true, beq_iff_eq] at this
    exact ⟨this.1, b!"ca6e", this.2, by unfold IsHexNum; decide +kernel⟩
  · have : ((cmdDown (exRouteCfg []) (withRules exRules exDownWorld) {}).2.hist.all fun e =>
        e.1 != .query [b!"wg", b!"show", b!"wg0", b!"allowed-ips"] || hasDefaultRoute (captured e.2.out)) = true := by decide +kernel
    intro m hm
    rw [List.all_eq_true] at this
    have := this _ hm
    simp only [bne_self_eq_false, Bool.false_or] at this
    exact defaultShown_of this

/-- Two interfaces with default routes: wg0 (mark 51822) and another with mark 51820. -/
def exTwo : Fams :=
  ⟨exLocal :: exSuppress b!"32761" :: exLookup b!"32762" :: exSuppress b!"32763" ::
    ⟨b!"32764:\tnot from all fwmark 0xca6c ", some b!"51820", []⟩ :: exStd, []⟩

/-- **C60** (limit) The rule that suppresses default routes of the main table is shared: taking one interface down removes it also
for another interface that is still up and whose lookup rule stays. -/
theorem c60_shared : ∃ (c : Cfg) (w : World) (R R' : IpRules) (a b : IpRule), (cmdDown c w {}).1 = .ok () ∧
    RulesRun R (cmdDown c w {}).2.hist R' ∧ (∀ f, ∀ r ∈ R f, r.WF) ∧ a ∈ R b!"-4" ∧ b ∈ R b!"-4" ∧ a ≠ b ∧ a.Suppress ∧ b.Suppress ∧
    (∃ x ∈ R' b!"-4", x.table = some b!"51820") ∧ ∀ r ∈ R' b!"-4", ¬ r.Suppress :=
  ⟨exRouteCfg [], withRules exTwo exDownWorld, exTwo.rules,
    Fams.rules ⟨exLocal :: ⟨b!"32764:\tnot from all fwmark 0xca6c ", some b!"51820", []⟩ :: exStd, []⟩, exSuppress b!"32761", exSuppress b!"32763",
    by decide +kernel, sim_sound (by decide +kernel), wf_fams (by decide +kernel), by decide +kernel, by decide +kernel, by decide +kernel, by decide +kernel,
    by decide +kernel, by decide +kernel, by decide +kernel⟩

/-- A suppress rule of the administrator for one network. -/
def exNarrow : IpRule := ⟨b!"90:\tfrom 10.0.0.0/8 ", some b!"main", b!" suppress_prefixlength 0"⟩
def exNarrowRules (also : Bool) : Fams := ⟨exLocal :: exNarrow :: ((if also then [exSuppress b!"32764"] else []) ++ exLookup b!"32765" :: exStd), []⟩

/-- **C60** (limit) A suppress rule with a selector of its own is removed when there is also one without; if there is none without,
it stays. -/
theorem c60_selector : ∃ (c : Cfg) (w w' : World) (R R' : IpRules) (S S' : IpRules) (r : IpRule),
    (cmdDown c w {}).1 = .ok () ∧ RulesRun R (cmdDown c w {}).2.hist R' ∧ (∀ f, ∀ r ∈ R f, r.WF) ∧ r ∈ R b!"-4" ∧ r ∉ R' b!"-4" ∧
    (cmdDown c w' {}).1 = .ok () ∧ RulesRun S (cmdDown c w' {}).2.hist S' ∧ (∀ f, ∀ r ∈ S f, r.WF) ∧ r ∈ S b!"-4" ∧ r ∈ S' b!"-4" ∧
    r.Suppress ∧ ¬ b!"from all " <:+ r.sel :=
  ⟨exRouteCfg [], withRules (exNarrowRules true) exDownWorld, withRules (exNarrowRules false) exDownWorld, (exNarrowRules true).rules,
    Fams.rules ⟨exLocal :: exStd, []⟩, (exNarrowRules false).rules, Fams.rules ⟨exLocal :: exNarrow :: exStd, []⟩, exNarrow,
    by decide +kernel, sim_sound (by decide +kernel), wf_fams (by decide +kernel), by decide +kernel, by decide +kernel,
    by decide +kernel, sim_sound (by decide +kernel), wf_fams (by decide +kernel), by decide +kernel, by decide +kernel, by decide +kernel, by decide +kernel⟩

/-- **C60** (limit) If the peer with the default route was removed in the meantime, a successful `down` leaves the rules behind. -/
theorem c60_left_behind : ∃ (c : Cfg) (w : World) (R : IpRules), (cmdDown c w {}).1 = .ok () ∧ RulesRun R (cmdDown c w {}).2.hist R ∧
    (∀ m, (.query [b!"wg", b!"show", c.iface, b!"fwmark"], m) ∈ (cmdDown c w {}).2.hist → ShowsMark (some 51822) m) ∧ exLookup b!"32765" ∈ R b!"-4" := by
  refine ⟨exRouteCfg [], withRules exRules fun h c => if c = .query [b!"wg", b!"show", b!"wg0", b!"allowed-ips"] then ⟨0, b!"KEY2\t10.1.2.0/24\n", false⟩ else exDownWorld h c,
    exRules.rules, by decide +kernel, sim_sound (by decide +kernel), ?_, by decide +kernel⟩
  have : ((cmdDown (exRouteCfg []) (withRules exRules fun h c => if c = .query [b!"wg", b!"show", b!"wg0", b!"allowed-ips"] then ⟨0, b!"KEY2\t10.1.2.0/24\n", false⟩ else exDownWorld h c) {}).2.hist.all fun e =>
      e.1 != .query [b!"wg", b!"show", b!"wg0", b!"fwmark"] || (e.2.status == 0 && captured e.2.out == b!"0x" ++ b!"ca6e")) = true := by decide +kernel
  intro m hm
  have hm : (Call.query [b!"wg", b!"show", b!"wg0", b!"fwmark"], m) ∈ _ := hm
  rw [List.all_eq_true] at this
  have := this _ hm
  simp only [bne_self_eq_false, Bool.false_or, Bool.and_eq_true, beq_iff_eq] at this
  exact ⟨this.1, b!"ca6e", this.2, by unfold IsHexNum; decide +kernel⟩

/-- The hypotheses of `c60_prefix_blocks` are met: mark 518, and a rule for table 51820. -/
def exPrefix : Fams := ⟨[exLocal, exForeign], []⟩
def exPrefixWorld : World := fun h c => if c = .query [b!"wg", b!"show", b!"wg0", b!"fwmark"] then ⟨0, b!"0x206\n", false⟩ else exDownWorld h c

example : RulesRun exPrefix.rules (cmdDown (exRouteCfg []) (withRules exPrefix exPrefixWorld) {}).2.hist exPrefix.rules ∧
    (∀ f, ∀ r ∈ exPrefix.rules f, r.WF) ∧ exForeign ∈ exPrefix.rules b!"-4" ∧ showDec 518 <+: b!"51820" ∧
    (cmdDown (exRouteCfg []) (withRules exPrefix exPrefixWorld) {}).1 ≠ .ok () :=
  ⟨sim_sound (by decide +kernel), wf_fams (by decide +kernel), by decide +kernel, by decide +kernel, by decide +kernel⟩

/-- The hypotheses of `c60_up_down` are met: rules are added and removed again. -/
example : let R0 : Fams := ⟨exLocal :: exForeign :: exStd, exLocal :: exStd.take 1⟩
    let R1 : Fams := ⟨madeRule [] :: madeRule [[], [], b!"51822", [], []] :: R0.four, madeRule [] :: madeRule [[], [], b!"51822", [], []] :: R0.six⟩
    (cmdUp (exRouteCfg []) exRouteWorld {}).1 = .ok () ∧ (cmdDown (exRouteCfg []) (withRules R1 exDownWorld) {}).1 = .ok () ∧
    RulesRun R0.rules (cmdUp (exRouteCfg []) exRouteWorld {}).2.hist R1.rules ∧
    RulesRun R1.rules (cmdDown (exRouteCfg []) (withRules R1 exDownWorld) {}).2.hist R0.rules ∧
    (∀ f, ∀ r ∈ R0.rules f, r.WF) ∧ (∀ f, ∀ r ∈ R0.rules f, Foreign 51822 r) :=
  ⟨by decide +kernel, by decide +kernel, sim_sound (by decide +kernel), sim_sound (by decide +kernel), wf_fams (by decide +kernel),
    fams_all (by decide +kernel) (by decide +kernel)⟩

end WG
