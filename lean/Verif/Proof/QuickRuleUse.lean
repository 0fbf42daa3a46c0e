import Verif.Proof.QuickEmits
import Verif.Proof.QuickCrash
/-! The commands on routing rules in a run of `down`, whatever happens. -/
namespace WG.Quick
open WG.Spec WG.Spec.Quick

/-- The history has no commands that change routing rules. -/
def NoRuleActs (l : List Ev) : Prop := ∀ e ∈ l, isAct e.1 = true → ¬ IsRuleCall e.1

/-- Either there are none, or they delete rules for the table with the number of the mark that `wg` showed, and suppress rules. -/
def RuleUse (c : Cfg) (l : List Ev) : Prop :=
  NoRuleActs l ∨ ∃ m t, (.query [b!"wg", b!"show", c.iface, b!"fwmark"], m) ∈ l ∧ Marked m ∧ MarkText m t ∧
    ∀ e ∈ l, isAct e.1 = true → IsRuleCall e.1 → isRuleDelete t e.1

theorem RuleUse.append {c : Cfg} {l1 l2 l3 : List Ev} (h1 : NoRuleActs l1) (h2 : RuleUse c l2) (h3 : NoRuleActs l3) : RuleUse c (l1 ++ (l2 ++ l3)) := by
  rcases h2 with h2 | ⟨m, t, k1, k2, k3, k4⟩
  · refine .inl fun e he => ?_
    simp only [List.mem_append] at he
    rcases he with he | he | he
    · exact h1 e he
    · exact h2 e he
    · exact h3 e he
  · refine .inr ⟨m, t, by simp [k1], k2, k3, fun e he ha hr => ?_⟩
    simp only [List.mem_append] at he
    rcases he with he | he | he
    · exact absurd hr (h1 e he ha)
    · exact k4 e he ha hr
    · exact absurd hr (h3 e he ha)

def Uses (c : Cfg) {α : Type} (m : Sh α) : Prop := ∀ w s, ∃ new, (m w s).2.hist = s.hist ++ new ∧ RuleUse c new

variable {α β : Type}

/-- Not a command on rules. -/
def RuleFree (c : Call) : Prop := isAct c = true → ¬ IsRuleCall c

theorem uses_left {c : Cfg} {m : Sh α} {f : α → Sh β} (hm : Emits RuleFree m) (hf : ∀ a, Uses c (f a)) : Uses c (m.bind f) := by
  intro w s
  obtain ⟨l, h1, h2⟩ := hm w s
  unfold Sh.bind
  rcases e : m w s with ⟨o, s'⟩
  rw [e] at h1
  cases o with
  | ok a =>
    obtain ⟨l', h3, h4⟩ := hf a w s'
    refine ⟨l ++ l', by dsimp only at h1 ⊢; rw [h3, h1, List.append_assoc], ?_⟩
    have := RuleUse.append (c := c) (l3 := []) h2 h4 (by intro e he; cases he)
    rwa [List.append_nil] at this
  | exit n => exact ⟨l, h1, .inl h2⟩
  | signal n => exact ⟨l, h1, .inl h2⟩
  | running => exact ⟨l, h1, .inl h2⟩

theorem uses_right {c : Cfg} {m : Sh α} {f : α → Sh β} (hm : Uses c m) (hf : ∀ a, Emits RuleFree (f a)) : Uses c (m.bind f) := by
  intro w s
  obtain ⟨l, h1, h2⟩ := hm w s
  unfold Sh.bind
  rcases e : m w s with ⟨o, s'⟩
  rw [e] at h1
  cases o with
  | ok a =>
    obtain ⟨l', h3, h4⟩ := hf a w s'
    refine ⟨l ++ l', by dsimp only at h1 ⊢; rw [h3, h1, List.append_assoc], ?_⟩
    exact RuleUse.append (c := c) (l1 := []) (by intro e he; cases he) h2 h4
  | exit n => exact ⟨l, h1, h2⟩
  | signal n => exact ⟨l, h1, h2⟩
  | running => exact ⟨l, h1, h2⟩

theorem uses_emits {c : Cfg} {m : Sh α} (hm : Emits RuleFree m) : Uses c m := by
  intro w s
  obtain ⟨l, h1, h2⟩ := hm w s
  exact ⟨l, h1, .inl h2⟩

theorem free_query (q : List CStr) : RuleFree (.query q) := fun h => by cases h
theorem free_hook (t : CStr) : RuleFree (.hook t) := by
  rintro _ ⟨fam, args, ⟨t, h⟩ | h⟩ <;> cases h
/-- A command that does not begin with `ip X rule`. -/
theorem free_act {argv : List CStr} {t : List UInt8} (h : ∀ x l, argv ≠ b!"ip" :: x :: b!"rule" :: l) : RuleFree (.act argv t) := by
  rintro _ ⟨fam, args, ⟨t', h'⟩ | h'⟩
  · simp only [Call.act.injEq] at h'
    exact h _ _ h'.1
  · cases h'

theorem uses_removeDefault (c : Cfg) : Uses c (removeDefault c) := by
  unfold removeDefault
  split
  swap
  · exact uses_emits (emits_pure _)
  intro w s
  let fq : Call := .query [b!"wg", b!"show", c.iface, b!"fwmark"]
  set m := w s.hist fq with hm
  set s1 : St := { s with hist := s.hist ++ [(fq, m)] } with hs1
  have hemit : ∀ t, Emits (fun x => isAct x = true → IsRuleCall x → isRuleDelete t x)
      ((call (.query [b!"wg", b!"show", c.iface, b!"allowed-ips"])).bind fun r => if hasDefaultRoute (chomp r.out) then removeRules c t else Sh.pure ()) := by
    intro t
    refine emits_bind (emits_call (fun h => by cases h)) fun r => ?_
    split
    · exact emits_removeRules c t (fun q h => by cases h) (fun x h _ _ => h)
    · exact emits_pure _
  have hcall : call fq w s = (if m.sig then .signal m.status else .ok m, s1) := by
    unfold call; dsimp only; split <;> rfl
  have hone : RuleUse c [(fq, m)] := .inl (by intro e he; rw [List.mem_singleton] at he; subst he; exact free_query _)
  unfold getFwmark
  unfold Sh.bind
  rw [hcall]
  by_cases h1 : m.sig = true
  · rw [if_pos h1]; exact ⟨_, rfl, hone⟩
  · rw [if_neg h1]
    dsimp only
    by_cases h2 : m.status ≠ 0
    · rw [if_pos h2]; exact ⟨_, rfl, hone⟩
    · rw [if_neg h2]
      by_cases h3 : chomp m.out = [] ∨ chomp m.out = b!"off"
      · rw [if_pos h3]; exact ⟨_, rfl, hone⟩
      · rw [if_neg h3]
        obtain ⟨l, k1, k2⟩ := hemit (markDecimal (chomp m.out)) w s1
        refine ⟨(fq, m) :: l, ?_, .inr ⟨m, _, List.mem_cons_self .., ⟨not_not.1 h2, fun h => h3 (.inl h), fun h => h3 (.inr h)⟩, markDecimal_text m, ?_⟩⟩
        · change (((call (.query [b!"wg", b!"show", c.iface, b!"allowed-ips"])).bind fun r => if hasDefaultRoute (chomp r.out) then removeRules c _ else Sh.pure ()) w s1).2.hist = _
          rw [k1, hs1]; simp
        · intro e he
          rcases List.mem_cons.1 he with rfl | he
          · intro h; cases h
          · exact k2 e he

theorem uses_delIf (c : Cfg) : Uses c (delIf c) := by
  intro w s
  rw [delIf_eq]
  revert w
  intro w
  refine (?_ : Uses c (delWith c s.haveDns s.haveFw)) w s
  have hu : ∀ e, Emits RuleFree (unsetDns c e) := fun e => emits_unsetDns c e free_query (fun pre => free_act (by simp))
  have hf : ∀ e, Emits RuleFree (removeFirewall c e) := fun e =>
    emits_removeFirewall c e free_query (fun _ => free_act (by simp)) (fun i hi _ => free_act (by simp))
  unfold delWith
  refine uses_left ?_ fun _ => uses_left ?_ fun _ => uses_right (uses_removeDefault c) fun _ => emits_run _ (free_act ?_)
  · split
    · exact hu _
    · exact emits_pure _
  · split
    · exact hf _
    · exact emits_pure _
  · simp

theorem uses_down (c : Cfg) : Uses c (cmdDown c) := by
  unfold cmdDown
  have hu : ∀ e, Emits RuleFree (unsetDns c e) := fun e => emits_unsetDns c e free_query (fun pre => free_act (by simp))
  have hf : ∀ e, Emits RuleFree (removeFirewall c e) := fun e =>
    emits_removeFirewall c e free_query (fun _ => free_act (by simp)) (fun i hi _ => free_act (by simp))
  refine uses_left (emits_check c free_query) fun _ => uses_left (emits_hooks c free_hook _) fun _ => uses_left ?_ fun _ =>
    uses_right (uses_delIf c) fun _ => emits_bind (hu _) fun _ => emits_bind (hf _) fun _ => emits_hooks c free_hook _
  split
  · exact emits_saveConfig c free_query (fun _ => free_act (by simp)) (free_act (by simp)) (free_act (by simp)) (free_act (by simp))
  · exact emits_pure _

end WG.Quick
