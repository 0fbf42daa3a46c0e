import Verif.Proof.QuickOthers
/-! Which calls a piece of script makes at all, whatever happens. -/
namespace WG.Quick
open WG.Spec WG.Spec.Quick

variable {α β : Type} {P : Call → Prop}

/-- Whatever happens, all calls satisfy `P`. -/
def Emits (P : Call → Prop) (m : Sh α) : Prop := ∀ w s, ∃ new, (m w s).2.hist = s.hist ++ new ∧ ∀ e ∈ new, P e.1

theorem emits_pure (a : α) : Emits P (Sh.pure a) := fun _ s => ⟨[], by simp [Sh.pure], by simp⟩
theorem emits_exit (n : Nat) : Emits P (exitWith n : Sh α) := fun _ s => ⟨[], by simp [exitWith], by simp⟩
theorem emits_giveUp : Emits P (giveUp : Sh α) := fun _ s => ⟨[], by simp [giveUp], by simp⟩

theorem emits_call {c : Call} (h : P c) : Emits P (call c) := by
  intro w s
  refine ⟨[(c, w s.hist c)], ?_, by simpa using h⟩
  unfold call; dsimp only; split <;> rfl

theorem emits_bind {m : Sh α} {f : α → Sh β} (hm : Emits P m) (hf : ∀ a, Emits P (f a)) : Emits P (m.bind f) := by
  intro w s
  obtain ⟨l, h1, h2⟩ := hm w s
  unfold Sh.bind
  rcases e : m w s with ⟨o, s'⟩
  rw [e] at h1
  cases o with
  | ok a =>
    obtain ⟨l', h3, h4⟩ := hf a w s'
    refine ⟨l ++ l', by dsimp only at h1 ⊢; rw [h3, h1, List.append_assoc], ?_⟩
    intro e he
    rcases List.mem_append.1 he with he | he
    · exact h2 e he
    · exact h4 e he
  | exit n => exact ⟨l, h1, h2⟩
  | signal n => exact ⟨l, h1, h2⟩
  | running => exact ⟨l, h1, h2⟩

theorem emits_run {c : Call} (e : Bool) (h : P c) : Emits P (run e c) := by
  refine emits_bind (emits_call h) fun r => ?_
  split
  · exact emits_exit _
  · exact emits_pure _

theorem emits_forEach {γ : Type} {f : γ → Sh Unit} (hf : ∀ x, Emits P (f x)) (xs : List γ) : Emits P (forEach f xs) := by
  induction xs with
  | nil => exact emits_pure _
  | cons x xs ih => exact emits_bind (hf x) fun _ => ih

theorem emits_onExit {m : Sh Unit} (hm : Emits P m) (n : Nat) : Emits P (onExit m n) := by
  intro w s
  obtain ⟨l, h1, h2⟩ := hm (calm w) s
  unfold onExit
  rcases e : m (calm w) s with ⟨o, s'⟩
  rw [e] at h1
  cases o <;> exact ⟨l, h1, h2⟩

theorem emits_guarded {m b : Sh Unit} (hm : Emits P m) (hb : Emits P b) : Emits P (guarded m b) := by
  intro w s
  obtain ⟨l, h1, h2⟩ := hb w s
  unfold guarded
  rcases e : b w s with ⟨o, s'⟩
  rw [e] at h1
  have app : ∀ {m' : Sh Unit}, Emits P m' → ∀ (s' : St) (l : List Ev), s'.hist = s.hist ++ l → (∀ e ∈ l, P e.1) → ∀ w,
      ∃ new, (m' w s').2.hist = s.hist ++ new ∧ ∀ e ∈ new, P e.1 := by
    intro m' hm' s' l h1 h2 w
    obtain ⟨l', h3, h4⟩ := hm' w s'
    refine ⟨l ++ l', by rw [h3, h1, List.append_assoc], ?_⟩
    intro e he
    rcases List.mem_append.1 he with he | he
    · exact h2 e he
    · exact h4 e he
  cases o with
  | ok a => exact ⟨l, h1, h2⟩
  | running => exact ⟨l, h1, h2⟩
  | exit n => exact app (emits_onExit hm n) s' l h1 h2 w
  | signal n =>
    dsimp only
    obtain ⟨l', h3, h4⟩ := app hm s' l h1 h2 (calm w)
    rcases e' : m (calm w) s' with ⟨o', s2⟩
    rw [e'] at h3
    cases o' with
    | ok a => exact app (emits_onExit hm n) s2 l' h3 h4 w
    | exit k => exact app (emits_onExit hm k) s2 l' h3 h4 w
    | signal k => exact ⟨l', h3, h4⟩
    | running => exact ⟨l', h3, h4⟩

/-! ### The parts of the script -/

theorem emits_hooks (c : Cfg) (hh : ∀ t, P (.hook t)) (hs : List CStr) : Emits P (executeHooks c hs) :=
  emits_forEach (fun _ => emits_run _ (hh _)) _

theorem emits_prefix (hq : ∀ q, P (.query q)) : Emits P ifacePrefix := by
  unfold ifacePrefix
  refine emits_bind (emits_call (hq _)) fun t => ?_
  split
  · exact emits_pure _
  · refine emits_bind (emits_call (hq _)) fun r => ?_
    split <;> exact emits_pure _

theorem emits_unsetDns (c : Cfg) (e : Bool) (hq : ∀ q, P (.query q)) (hd : ∀ pre, P (dnsDelete c pre)) : Emits P (unsetDns c e) := by
  unfold unsetDns
  split
  · exact emits_pure _
  · exact emits_bind (emits_prefix hq) fun _ => emits_run _ (hd _)

theorem emits_removeFirewall (c : Cfg) (e : Bool) (hq : ∀ q, P (.query q)) (hn : ∀ out, P (.act [b!"nft", b!"-f"] (nftDelete c out)))
    (hi : ∀ ipt, ipt = b!"iptables" ∨ ipt = b!"ip6tables" → ∀ out, P (.act [ipt ++ b!"-restore", b!"-n"] (iptRestore c out).2)) : Emits P (removeFirewall c e) := by
  unfold removeFirewall
  refine emits_bind ?_ fun _ => emits_bind (emits_call (hq _)) fun t => ?_
  · unfold removeNft
    refine emits_bind (emits_call (hq _)) fun t => ?_
    split
    · refine emits_bind (emits_call (hq _)) fun t => ?_
      split
      · exact emits_pure _
      · exact emits_run _ (hn _)
    · exact emits_pure _
  · have : ∀ i, i = b!"iptables" ∨ i = b!"ip6tables" → Emits P (removeIpt c e i) := by
      intro i h
      unfold removeIpt
      refine emits_bind (emits_call (hq _)) fun t => ?_
      split
      · exact emits_run _ (hi _ h _)
      · exact emits_pure _
    split
    · exact emits_bind (this _ (.inl rfl)) fun _ => this _ (.inr rfl)
    · exact emits_pure _

theorem emits_saveConfig (c : Cfg) (hq : ∀ q, P (.query q)) (hw : ∀ x, P (writeTmp c x)) (hs : P (syncTmp c)) (hm : P (moveTmp c)) (hr : P (removeTmp c)) :
    Emits P (saveConfig c) := by
  unfold saveConfig
  refine emits_bind (emits_call (hq _)) fun a => emits_bind ?_ fun d => emits_bind ?_ fun m => emits_bind (emits_call (hq _)) fun s => ?_
  · unfold resolvShow
    refine emits_bind (emits_prefix hq) fun p => emits_bind (emits_call (hq _)) fun r => ?_
    split
    · exact emits_pure _
    · exact emits_bind (emits_prefix hq) fun p => emits_bind (emits_call (hq _)) fun r => emits_pure _
  · unfold savedMtu
    split
    · exact emits_pure _
    · exact emits_bind (emits_call (hq _)) fun r => emits_pure _
  · split
    · exact emits_exit _
    · refine emits_guarded (emits_bind (emits_call hr) fun r => ?_) ?_
      · split
        · exact emits_exit _
        · exact emits_pure _
      · unfold saveBody
        refine emits_bind (emits_call (hw _)) fun r => ?_
        split
        · exact emits_exit _
        · refine emits_bind (emits_run _ hs) fun _ => emits_bind (emits_call hm) fun r => ?_
          split
          · exact emits_exit _
          · exact emits_pure _

theorem emits_check (c : Cfg) (hq : ∀ q, P (.query q)) : Emits P (checkIface c) := by
  unfold checkIface
  refine emits_bind (emits_call (hq _)) fun r => ?_
  split
  · exact emits_pure _
  · exact emits_exit _

/-- Deletes rules that look up `t`, or suppress rules. -/
def isRuleDelete (t : CStr) (c : Call) : Prop :=
  ∃ fam, c = cmd [b!"ip", fam, b!"rule", b!"delete", b!"table", t] ∨
    c = cmd [b!"ip", fam, b!"rule", b!"delete", b!"table", b!"main", b!"suppress_prefixlength", b!"0"]

theorem emits_removeRules (c : Cfg) (t : CStr) (hq : ∀ q, P (.query q)) (hd : ∀ x, isRuleDelete t x → P x) : Emits P (removeRules c t) := by
  have hl : ∀ p pat args n, isRuleDelete t (.act ([b!"ip", p, b!"rule", b!"delete", b!"table"] ++ args) []) → Emits P (ruleLoop p pat args n) := by
    intro p pat args n h
    induction n with
    | zero => exact emits_giveUp
    | succ n ih =>
      unfold ruleLoop
      refine emits_bind (emits_call (hq _)) fun r => ?_
      split
      · exact emits_bind (emits_run _ (hd _ h)) fun _ => ih
      · exact emits_pure _
  unfold removeRules
  exact emits_bind (hl _ _ _ _ ⟨_, .inl rfl⟩) fun _ => emits_bind (hl _ _ _ _ ⟨_, .inr rfl⟩) fun _ => emits_bind (hl _ _ _ _ ⟨_, .inl rfl⟩) fun _ => hl _ _ _ _ ⟨_, .inr rfl⟩

end WG.Quick
