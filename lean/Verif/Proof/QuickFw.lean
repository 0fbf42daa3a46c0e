import Verif.Proof.QuickEmits
import Verif.Proof.QuickDown
import Verif.Proof.QuickUp
import Verif.Proof.Uapi
/-! What the script tells the firewall, whatever happens, and what that does. -/
namespace WG.Quick
open WG.Spec WG.Spec.Quick

variable {α β : Type} {P : Call → Prop}

theorem unlines_cons (a : List UInt8) (l : List (List UInt8)) : unlines (a :: l) = a ++ 10 :: unlines l := by simp [unlines]

theorem nl_split {a b x y : List UInt8} (ha : (10 : UInt8) ∉ a) (hb : (10 : UInt8) ∉ b) (h : a ++ 10 :: x = b ++ 10 :: y) : a = b ∧ x = y := by
  induction a generalizing b with
  | nil =>
    cases b with
    | nil => simpa using h
    | cons c b => simp only [List.nil_append, List.cons_append, List.cons.injEq] at h; exact absurd (by rw [h.1]; simp) hb
  | cons d a ih =>
    cases b with
    | nil => simp only [List.nil_append, List.cons_append, List.cons.injEq] at h; exact absurd (by rw [h.1]; simp) ha
    | cons c b =>
      simp only [List.cons_append, List.cons.injEq] at h
      obtain ⟨rfl, h⟩ := h
      obtain ⟨rfl, rfl⟩ := ih (fun k => ha (List.mem_cons_of_mem _ k)) (fun k => hb (List.mem_cons_of_mem _ k)) h
      exact ⟨rfl, rfl⟩

theorem unlines_inj {a b : List (List UInt8)} (ha : ∀ l ∈ a, (10 : UInt8) ∉ l) (hb : ∀ l ∈ b, (10 : UInt8) ∉ l) (h : unlines a = unlines b) : a = b := by
  induction a generalizing b with
  | nil =>
    cases b with
    | nil => rfl
    | cons y b => rw [unlines_cons] at h; simp [unlines] at h
  | cons x a ih =>
    cases b with
    | nil => rw [unlines_cons] at h; simp [unlines] at h
    | cons y b =>
      rw [unlines_cons, unlines_cons] at h
      obtain ⟨rfl, h2⟩ := nl_split (ha x (by simp)) (hb y (by simp)) h
      rw [ih (fun l hl => ha l (List.mem_cons_of_mem _ hl)) (fun l hl => hb l (List.mem_cons_of_mem _ hl)) h2]

/-! ### Calls made, with what is known of results -/

/-- Whatever happens, all calls satisfy `P`; a result satisfies `V`. -/
def EmitsV (P : Call → Prop) (V : α → Prop) (m : Sh α) : Prop :=
  ∀ w s, (∃ new, (m w s).2.hist = s.hist ++ new ∧ ∀ e ∈ new, P e.1) ∧ ∀ a, (m w s).1 = .ok a → V a

theorem emits_bindV {V : α → Prop} {m : Sh α} {f : α → Sh β} (hm : EmitsV P V m) (hf : ∀ a, V a → Emits P (f a)) : Emits P (m.bind f) := by
  intro w s
  obtain ⟨⟨l, h1, h2⟩, hv⟩ := hm w s
  unfold Sh.bind
  rcases e : m w s with ⟨o, s'⟩
  rw [e] at h1 hv
  cases o with
  | ok a =>
    obtain ⟨l', h3, h4⟩ := hf a (hv a rfl) w s'
    refine ⟨l ++ l', by dsimp only at h1 ⊢; rw [h3, h1, List.append_assoc], ?_⟩
    intro e he
    rcases List.mem_append.1 he with he | he
    · exact h2 e he
    · exact h4 e he
  | exit n => exact ⟨l, h1, h2⟩
  | signal n => exact ⟨l, h1, h2⟩
  | running => exact ⟨l, h1, h2⟩

theorem emitsV_bind {W : α → Prop} {V : β → Prop} {m : Sh α} {f : α → Sh β} (hm : EmitsV P W m) (hf : ∀ a, W a → EmitsV P V (f a)) : EmitsV P V (m.bind f) := by
  intro w s
  refine ⟨emits_bindV hm (fun a ha w s => (hf a ha w s).1) w s, ?_⟩
  obtain ⟨-, hv⟩ := hm w s
  unfold Sh.bind
  rcases e : m w s with ⟨o, s'⟩
  rw [e] at hv
  cases o with
  | ok a => exact (hf a (hv a rfl) w s').2
  | exit n => intro a h; cases h
  | signal n => intro a h; cases h
  | running => intro a h; cases h

theorem emitsV_of {m : Sh α} (h : Emits P m) : EmitsV P (fun _ => True) m := fun w s => ⟨h w s, fun _ _ => trivial⟩
theorem emitsV_pure {V : α → Prop} {a : α} (h : V a) : EmitsV P V (Sh.pure a) := fun w s => ⟨emits_pure a w s, fun _ e => by cases e; exact h⟩
theorem emitsV_giveUp {V : α → Prop} : EmitsV P V (giveUp : Sh α) := fun w s => ⟨emits_giveUp w s, fun _ e => by cases e⟩

/-! ### All calls of `down` and `up` -/

theorem emits_removeDefault (c : Cfg) (hq : ∀ q, P (.query q)) (hd : ∀ t x, isRuleDelete t x → P x) : Emits P (removeDefault c) := by
  unfold removeDefault
  split
  · refine emits_bind ?_ fun t => ?_
    · unfold getFwmark
      refine emits_bind (emits_call (hq _)) fun r => ?_
      split
      · exact emits_pure _
      split <;> exact emits_pure _
    · cases t with
      | none => exact emits_pure _
      | some t =>
        refine emits_bind (emits_call (hq _)) fun r => ?_
        split
        · exact emits_removeRules c t hq (hd t)
        · exact emits_pure _
  · exact emits_pure _

theorem emits_delIf (c : Cfg) (hq : ∀ q, P (.query q)) (hcmd : ∀ argv, P (cmd argv)) (hn : ∀ out, P (.act [b!"nft", b!"-f"] (nftDelete c out)))
    (hi : ∀ ipt, ipt = b!"iptables" ∨ ipt = b!"ip6tables" → ∀ out, P (.act [ipt ++ b!"-restore", b!"-n"] (iptRestore c out).2)) : Emits P (delIf c) := by
  intro w s
  rw [delIf_eq]
  refine (?_ : Emits P (delWith c s.haveDns s.haveFw)) w s
  unfold delWith
  refine emits_bind ?_ fun _ => emits_bind ?_ fun _ => emits_bind (emits_removeDefault c hq ?_) fun _ => emits_run _ (hcmd _)
  · split
    · exact emits_unsetDns c _ hq fun pre => hcmd _
    · exact emits_pure _
  · split
    · exact emits_removeFirewall c _ hq hn hi
    · exact emits_pure _
  · rintro t x ⟨f, rfl | rfl⟩ <;> exact hcmd _

theorem emits_down (c : Cfg) (hq : ∀ q, P (.query q)) (hh : ∀ t, P (.hook t)) (hcmd : ∀ argv, P (cmd argv)) (hw : ∀ x, P (writeTmp c x))
    (hn : ∀ out, P (.act [b!"nft", b!"-f"] (nftDelete c out)))
    (hi : ∀ ipt, ipt = b!"iptables" ∨ ipt = b!"ip6tables" → ∀ out, P (.act [ipt ++ b!"-restore", b!"-n"] (iptRestore c out).2)) : Emits P (cmdDown c) := by
  unfold cmdDown
  refine emits_bind (emits_check c hq) fun _ => emits_bind (emits_hooks c hh _) fun _ => emits_bind ?_ fun _ =>
    emits_bind (emits_delIf c hq hcmd hn hi) fun _ => emits_bind (emits_unsetDns c _ hq fun pre => hcmd _) fun _ =>
    emits_bind (emits_removeFirewall c _ hq hn hi) fun _ => emits_hooks c hh _
  split
  · exact emits_saveConfig c hq hw (hcmd _) (hcmd _) (hcmd _)
  · exact emits_pure _

theorem showDec_no10 (n : Nat) : (10 : UInt8) ∉ showDec n := by
  intro h
  have := (showDec_isDecimal n).2.1 _ h
  revert this; decide

theorem markDecimal_no10 (s : CStr) : (10 : UInt8) ∉ markDecimal s := by
  unfold markDecimal
  split <;> exact showDec_no10 _

theorem emitsV_markTable (c : Cfg) (hq : ∀ q, P (.query q)) (hcmd : ∀ argv, P (cmd argv)) : EmitsV P (fun t => (10 : UInt8) ∉ t) (markTable c) := by
  unfold markTable
  refine emitsV_bind (W := fun o => ∀ t, o = some t → (10 : UInt8) ∉ t) ?_ fun o ho => ?_
  · unfold getFwmark
    refine emitsV_bind (emitsV_of (emits_call (hq _))) fun r _ => ?_
    split
    · exact emitsV_pure (by simp)
    split
    · exact emitsV_pure (by simp)
    · exact emitsV_pure (by rintro t ⟨⟩; exact markDecimal_no10 _)
  · cases o with
    | some t => exact emitsV_pure (ho t rfl)
    | none =>
      have hf : ∀ n t, Emits P (freeTable n t) := by
        intro n
        induction n with
        | zero => intro t; exact emits_giveUp
        | succ n ih =>
          intro t
          unfold freeTable
          refine emits_bind (emits_call (hq _)) fun r => ?_
          split
          · exact ih _
          · refine emits_bind (emits_call (hq _)) fun r => ?_
            split
            · exact ih _
            · exact emits_pure _
      refine emitsV_bind (emitsV_of (hf _ _)) fun t _ => emitsV_bind (emitsV_of (emits_run _ (hcmd _))) fun _ _ => emitsV_pure (showDec_no10 _)

theorem emits_setHaveDns : Emits P setHaveDns := fun _ s => ⟨[], by simp [setHaveDns], by simp⟩
theorem emits_setHaveFw : Emits P setHaveFw := fun _ s => ⟨[], by simp [setHaveFw], by simp⟩

theorem inetAddr_no10 {line a : CStr} (h : inetAddr line = some a) : (10 : UInt8) ∉ a := by
  obtain ⟨x, ⟨_, _, _, _, _, _, h1, _⟩, _⟩ := (inetAddr_iff line a).1 h
  intro k
  have := h1 _ k
  revert this; decide

theorem emits_addDefault (c : Cfg) (r : CStr) (hq : ∀ q, P (.query q)) (hcmd : ∀ argv, P (cmd argv))
    (hn : ∀ pf t as, pf = b!"ip" ∨ pf = b!"ip6" → (10 : UInt8) ∉ t → (∀ a ∈ as, (10 : UInt8) ∉ a) → P (.act [b!"nft", b!"-f"] (nftText c pf t as)))
    (hi : ∀ ipt t as, ipt = b!"iptables" ∨ ipt = b!"ip6tables" → (10 : UInt8) ∉ t → (∀ a ∈ as, (10 : UInt8) ∉ a) →
      P (.act [ipt ++ b!"-restore", b!"-n"] (restoreText c t as))) : Emits P (addDefault c r) := by
  unfold addDefault
  refine emits_bindV (emitsV_markTable c hq hcmd) fun t ht => emits_bind (emits_run _ (hcmd _)) fun _ => emits_bind (emits_run _ (hcmd _)) fun _ =>
    emits_bind (emits_run _ (hcmd _)) fun _ => emits_bind (emits_call (hq _)) fun a => emits_bind ?_ fun _ => emits_bind (emits_call (hq _)) fun t =>
    emits_bind ?_ fun _ => emits_setHaveFw
  · split
    · exact emits_pure _
    · exact emits_run _ (hcmd _)
  · have has : ∀ x ∈ (readLoopLines a.out).filterMap inetAddr, (10 : UInt8) ∉ x := by
      intro x hx
      obtain ⟨l, _, hl⟩ := List.mem_filterMap.1 hx
      exact inetAddr_no10 hl
    split
    · refine emits_run _ (hn _ _ _ ?_ ht has)
      unfold pfOf; split
      · exact .inr rfl
      · exact .inl rfl
    · refine emits_run _ (hi _ _ _ ?_ ht has)
      unfold iptOf; split
      · exact .inr rfl
      · exact .inl rfl

theorem emits_up (c : Cfg) (hq : ∀ q, P (.query q)) (hh : ∀ t, P (.hook t)) (hcmd : ∀ argv, P (cmd argv))
    (hs : ∀ x, P (.act [b!"wg", b!"setconf", c.iface] x)) (hr : ∀ p x, P (.act [b!"resolvconf", b!"-a", p, b!"-m", b!"0", b!"-x"] x))
    (hd : ∀ out, P (.act [b!"nft", b!"-f"] (nftDelete c out)))
    (hu : ∀ ipt, ipt = b!"iptables" ∨ ipt = b!"ip6tables" → ∀ out, P (.act [ipt ++ b!"-restore", b!"-n"] (iptRestore c out).2))
    (hn : ∀ pf t as, pf = b!"ip" ∨ pf = b!"ip6" → (10 : UInt8) ∉ t → (∀ a ∈ as, (10 : UInt8) ∉ a) → P (.act [b!"nft", b!"-f"] (nftText c pf t as)))
    (hi : ∀ ipt t as, ipt = b!"iptables" ∨ ipt = b!"ip6tables" → (10 : UInt8) ∉ t → (∀ a ∈ as, (10 : UInt8) ∉ a) →
      P (.act [ipt ++ b!"-restore", b!"-n"] (restoreText c t as))) : Emits P (cmdUp c) := by
  unfold cmdUp
  refine emits_bind (emits_call (hq _)) fun r => ?_
  split
  · exact emits_exit _
  refine emits_guarded (emits_delIf c hq hcmd hd hu) ?_
  unfold upBody
  have hmf : ∀ o m, Emits P (mtuFrom o m) := by
    intro o m
    unfold mtuFrom
    split
    · exact emits_pure _
    · split
      · exact emits_pure _
      · refine emits_bind (emits_call (hq _)) fun r => ?_
        split <;> exact emits_pure _
  refine emits_bind ?_ fun _ => emits_bind (emits_hooks c hh _) fun _ => emits_bind (emits_run _ (hs _)) fun _ =>
    emits_bind (emits_forEach (fun _ => emits_run _ (hcmd _)) _) fun _ => emits_bind ?_ fun _ => emits_bind ?_ fun _ => emits_bind (emits_call (hq _)) fun r =>
    emits_bind (emits_forEach (fun r => ?_) _) fun _ => emits_hooks c hh _
  · unfold addIf
    refine emits_bind (emits_call (hcmd _)) fun r => ?_
    split
    · exact emits_pure _
    · refine emits_bind (emits_call (hq _)) fun r => ?_
      split
      · exact emits_exit _
      · refine emits_bind (emits_call (hq _)) fun r => ?_
        split
        · exact emits_exit _
        · exact emits_run _ (hcmd _)
  · unfold setMtuUp
    split
    · exact emits_run _ (hcmd _)
    · refine emits_bind (emits_call (hq _)) fun r => emits_bind ?_ fun m => emits_bind ?_ fun m => emits_run _ (hcmd _)
      · generalize readLoopLines r.out = ls
        generalize (0 : Nat) = m
        induction ls generalizing m with
        | nil => exact emits_pure _
        | cons l ls ih =>
          unfold mtuLoop
          split
          · exact ih _
          · exact emits_bind (emits_call (hq _)) fun r => emits_bind (hmf _ _) fun m => ih _
      · unfold mtuDefault
        split
        · exact emits_bind (emits_call (hq _)) fun r => hmf _ _
        · exact emits_pure _
  · unfold setDns
    split
    · exact emits_pure _
    · exact emits_bind (emits_prefix hq) fun p => emits_bind (emits_run _ (hr _ _)) fun _ => emits_setHaveDns
  · unfold addRoute
    split
    · exact emits_pure _
    split
    · exact emits_run _ (hcmd _)
    split
    · exact emits_addDefault c r hq hcmd hn hi
    · refine emits_bind (emits_call (hq _)) fun q => ?_
      split
      · exact emits_pure _
      · exact emits_run _ (hcmd _)

/-! ### Lines told to the firewall -/

/-- What is told to nft consists of lines that satisfy `Q`. -/
def NftLines (Q : CStr → Prop) (x : Call) : Prop :=
  ∀ text, x = .act [b!"nft", b!"-f"] text → ∃ ls, text = unlines ls ∧ ∀ l ∈ ls, (10 : UInt8) ∉ l ∧ Q l

/-- What is told to iptables-restore or the like consists of lines that satisfy `Q`. -/
def IptLines (Q : CStr → Prop) (x : Call) : Prop :=
  ∀ ipt text, x = .act [ipt ++ b!"-restore", b!"-n"] text → ∃ ls, text = unlines ls ∧ ∀ l ∈ ls, (10 : UInt8) ∉ l ∧ Q l

variable {Q : CStr → Prop}

theorem nftLines_query (q : List CStr) : NftLines Q (.query q) := fun _ h => by cases h
theorem nftLines_hook (t : CStr) : NftLines Q (.hook t) := fun _ h => by cases h
theorem nftLines_cmd (a : List CStr) : NftLines Q (cmd a) := fun _ h => by
  simp only [cmd, Call.act.injEq] at h
  exact ⟨[], by rw [← h.2]; rfl, by simp⟩
theorem nftLines_act {a : List CStr} {x : List UInt8} (h : a ≠ [b!"nft", b!"-f"]) : NftLines Q (.act a x) := fun _ e => by
  simp only [Call.act.injEq] at e
  exact absurd e.1 h
theorem iptLines_query (q : List CStr) : IptLines Q (.query q) := fun _ _ h => by cases h
theorem iptLines_hook (t : CStr) : IptLines Q (.hook t) := fun _ _ h => by cases h
theorem iptLines_cmd (a : List CStr) : IptLines Q (cmd a) := fun _ _ h => by
  simp only [cmd, Call.act.injEq] at h
  exact ⟨[], by rw [← h.2]; rfl, by simp⟩
theorem iptLines_act {a : List CStr} {x : List UInt8} (h : ∀ ipt, a ≠ [ipt, b!"-n"]) : IptLines Q (.act a x) := fun _ _ e => by
  simp only [Call.act.injEq] at e
  exact absurd e.1 (h _)

theorem readLoop_no10 {out : List UInt8} {l : CStr} (h : l ∈ readLoopLines out) : (10 : UInt8) ∉ l := by
  obtain ⟨segs, last, _, h2, _, h4⟩ := (endedLines_iff out _).2 rfl
  generalize readLoopLines out = ls at h h4
  clear * - h h2 h4
  induction h4 with
  | nil => cases h
  | @cons s t ss ts ht _ ih =>
    rcases List.mem_cons.1 h with rfl | h
    · obtain ⟨a, b, h, _⟩ := ht
      have := h2 s (by simp)
      rw [h] at this
      exact fun k => this (by simp [k])
    · exact ih (fun s hs => h2 s (List.mem_cons_of_mem _ hs)) h

/-- A line that deletes a table of this interface. -/
def DeletesOwn (c : Cfg) (l : CStr) : Prop := ∃ t, l = b!"delete " ++ t ∧ b!" wg-quick-" ++ c.iface <:+ t

theorem nftDelete_lines (c : Cfg) (out : List UInt8) : NftLines (DeletesOwn c) (.act [b!"nft", b!"-f"] (nftDelete c out)) := by
  intro text e
  simp only [Call.act.injEq, true_and] at e
  subst e
  refine ⟨((readLoopLines out).filter fun t => (b!" wg-quick-" ++ c.iface).isSuffixOf t).map (b!"delete " ++ ·), ?_, ?_⟩
  · unfold nftDelete
    generalize readLoopLines out = ls
    induction ls with
    | nil => rfl
    | cons l ls ih =>
      rw [List.flatMap_cons, List.filter_cons, ih]
      split
      · rw [List.map_cons, unlines_cons]; simp
      · simp
  · intro l hl
    obtain ⟨t, ht, rfl⟩ := List.mem_map.1 hl
    rw [List.mem_filter] at ht
    refine ⟨?_, t, rfl, List.isSuffixOf_iff_suffix.1 ht.2⟩
    intro h
    rcases List.mem_append.1 h with h | h
    · revert h; decide
    · exact readLoop_no10 ht.1 h

/-- A line that undoes rules of this interface. -/
def Undoes (c : Cfg) (l : CStr) : Prop := TableLine l ∨ ∃ r, l = b!"-D " ++ r ∧ OwnRule c (b!"-A " ++ r)

theorem undo_mem {c : Cfg} {ls us : List CStr} (h : UndoLines c ls us) (h10 : ∀ l ∈ ls, (10 : UInt8) ∉ l) : ∀ u ∈ us, (10 : UInt8) ∉ u ∧ Undoes c u := by
  induction h with
  | nil => intro u hu; cases hu
  | @table l ls us ht _ ih =>
    intro u hu
    rcases List.mem_cons.1 hu with rfl | hu
    · exact ⟨h10 _ (by simp), .inl ht⟩
    · exact ih (fun l hl => h10 l (List.mem_cons_of_mem _ hl)) u hu
  | @rule r ls us ho _ ih =>
    intro u hu
    rcases List.mem_cons.1 hu with rfl | hu
    · have h1 := h10 _ (List.mem_cons_self ..)
      constructor
      · simp only [List.mem_append, not_or] at h1 ⊢
        exact ⟨by decide, h1.2⟩
      · right
        obtain ⟨a, b, hab⟩ := ho
        have : r = b!" " ++ (a ++ ruleComment c ++ b) := by simpa using hab
        exact ⟨a ++ ruleComment c ++ b, by rw [this]; rfl, a, b, rfl⟩
    · exact ih (fun l hl => h10 l (List.mem_cons_of_mem _ hl)) u hu
  | other _ _ _ ih => exact ih (fun l hl => h10 l (List.mem_cons_of_mem _ hl))

theorem iptRestore_lines (c : Cfg) (ipt : CStr) (out : List UInt8) : IptLines (Undoes c) (.act [ipt ++ b!"-restore", b!"-n"] (iptRestore c out).2) := by
  intro i text e
  simp only [Call.act.injEq] at e
  obtain ⟨_, rfl⟩ := e
  obtain ⟨us, h1, h2⟩ := iptRestore_text c out
  exact ⟨us, h2, undo_mem h1 fun l hl => readLoop_no10 hl⟩

theorem down_nft (c : Cfg) : Emits (NftLines (DeletesOwn c)) (cmdDown c) :=
  emits_down c nftLines_query nftLines_hook nftLines_cmd (fun _ => nftLines_act (by simp)) (nftDelete_lines c)
    (by rintro _ (rfl | rfl) out <;> exact nftLines_act (by simp))

theorem down_ipt (c : Cfg) : Emits (IptLines (Undoes c)) (cmdDown c) :=
  emits_down c iptLines_query iptLines_hook iptLines_cmd (fun _ => iptLines_act (by simp)) (fun _ => iptLines_act (by simp)) (fun i _ out => iptRestore_lines c i out)

/-! ### The effect on the tables of nftables -/

theorem TablesRun_append {T : Set NftTable} {h1 h2 : List Ev} {T' : Set NftTable} (h : TablesRun T (h1 ++ h2) T') : ∃ T1, TablesRun T h1 T1 ∧ TablesRun T1 h2 T' := by
  induction h1 generalizing T with
  | nil => exact ⟨T, .nil, h⟩
  | cons e h1 ih =>
    cases h with
    | listed a b h => obtain ⟨T1, k1, k2⟩ := ih h; exact ⟨T1, .listed a b k1, k2⟩
    | done a b h => obtain ⟨T1, k1, k2⟩ := ih h; exact ⟨T1, .done a b k1, k2⟩
    | failed a h => obtain ⟨T1, k1, k2⟩ := ih h; exact ⟨T1, .failed a k1, k2⟩
    | other a b h => obtain ⟨T1, k1, k2⟩ := ih h; exact ⟨T1, .other a b k1, k2⟩

theorem own_of_suffix {c : Cfg} (hc : (32 : UInt8) ∉ c.iface) {t : NftTable} (hw : t.WF) (h : b!" wg-quick-" ++ c.iface <:+ t.text) : t.Own c := by
  obtain ⟨a, h⟩ := h
  unfold NftTable.text at h
  have hn : (32 : UInt8) ∉ t.name := fun k => (hw.name _ k).1 rfl
  have h' : a ++ 32 :: (b!"wg-quick-" ++ c.iface) = (b!"table " ++ t.fam) ++ 32 :: t.name := by simpa using h
  have hq : (32 : UInt8) ∉ b!"wg-quick-" ++ c.iface := by simp [hc]
  -- compare the parts after the last blank
  have key : ∀ (a b x y : List UInt8), (32 : UInt8) ∉ x → (32 : UInt8) ∉ y → a ++ 32 :: x = b ++ 32 :: y → x = y := by
    intro a b x y hx hy e
    rcases List.append_eq_append_iff.1 e with ⟨d, h1, h2⟩ | ⟨d, h1, h2⟩
    · cases d with
      | nil => simpa using h2
      | cons z d =>
        simp only [List.cons_append, List.cons.injEq] at h2
        exact absurd (by rw [h2.2]; simp) hx
    · cases d with
      | nil => simpa using h2.symm
      | cons z d =>
        simp only [List.cons_append, List.cons.injEq] at h2
        exact absurd (by rw [h2.2]; simp) hy
  exact (key _ _ _ _ hq hn h').symm

/-- Tables of others. -/
theorem nft_spared {c : Cfg} {T : Set NftTable} {h : List Ev} {T' : Set NftTable} (hr : TablesRun T h T') {Q : CStr → Prop} (hl : ∀ e ∈ h, NftLines Q e.1)
    (hQ : ∀ t : NftTable, t.WF → ¬ t.Own c → ¬ Q (b!"add " ++ t.text) ∧ ¬ Q (b!"delete " ++ t.text)) (hw : ∀ t ∈ T, t.WF) :
    (∀ t ∈ T', t.WF) ∧ ∀ t, ¬ t.Own c → (t ∈ T' ↔ t ∈ T) := by
  induction hr with
  | nil => exact ⟨hw, fun _ _ => Iff.rfl⟩
  | listed _ _ _ ih => exact ih (fun e he => hl e (List.mem_cons_of_mem _ he)) hw
  | failed _ _ ih => exact ih (fun e he => hl e (List.mem_cons_of_mem _ he)) hw
  | other _ _ _ ih => exact ih (fun e he => hl e (List.mem_cons_of_mem _ he)) hw
  | @done T lines r h T' _ h10 _ ih =>
    obtain ⟨ls, e1, e2⟩ := hl _ (List.mem_cons_self ..) _ rfl
    have : lines = ls := unlines_inj h10 (fun l hl => (e2 l hl).1) e1
    subst this
    obtain ⟨i1, i2⟩ := ih (fun e he => hl e (List.mem_cons_of_mem _ he)) (by
      rintro t ⟨h | h, _⟩
      · exact hw t h
      · exact h.1)
    refine ⟨i1, fun t ht => ?_⟩
    rw [i2 t ht, Set.mem_ofPred_eq]
    constructor
    · rintro ⟨h | h, _⟩
      · exact h
      · exact absurd (e2 _ h.2).2 (hQ t h.1 ht).1
    · exact fun h => ⟨.inl h, fun k => (hQ t (hw t h) ht).2 (e2 _ k).2⟩

theorem nft_noAdds {T : Set NftTable} {h : List Ev} {T' : Set NftTable} (hr : TablesRun T h T') {Q : CStr → Prop} (hl : ∀ e ∈ h, NftLines Q e.1)
    (hQ : ∀ t : NftTable, ¬ Q (b!"add " ++ t.text)) : T' ⊆ T := by
  induction hr with
  | nil => exact fun _ h => h
  | listed _ _ _ ih => exact ih (fun e he => hl e (List.mem_cons_of_mem _ he))
  | failed _ _ ih => exact ih (fun e he => hl e (List.mem_cons_of_mem _ he))
  | other _ _ _ ih => exact ih (fun e he => hl e (List.mem_cons_of_mem _ he))
  | @done T lines r h T' _ h10 _ ih =>
    obtain ⟨ls, e1, e2⟩ := hl _ (List.mem_cons_self ..) _ rfl
    have : lines = ls := unlines_inj h10 (fun l hl => (e2 l hl).1) e1
    subst this
    intro t ht
    rcases (ih (fun e he => hl e (List.mem_cons_of_mem _ he)) ht).1 with h | h
    · exact h
    · exact absurd (e2 _ h.2).2 (hQ t)

theorem nft_none {T : Set NftTable} {h : List Ev} {T' : Set NftTable} (hr : TablesRun T h T') (hl : ∀ e ∈ h, NftLines (fun _ => False) e.1) : T' = T := by
  induction hr with
  | nil => rfl
  | listed _ _ _ ih => exact ih (fun e he => hl e (List.mem_cons_of_mem _ he))
  | failed _ _ ih => exact ih (fun e he => hl e (List.mem_cons_of_mem _ he))
  | other _ _ _ ih => exact ih (fun e he => hl e (List.mem_cons_of_mem _ he))
  | @done T lines r h T' _ h10 _ ih =>
    obtain ⟨ls, e1, e2⟩ := hl _ (List.mem_cons_self ..) _ rfl
    have : lines = ls := unlines_inj h10 (fun l hl => (e2 l hl).1) e1
    subst this
    have hnil : lines = [] := List.eq_nil_iff_forall_not_mem.2 fun l hl => (e2 l hl).2
    subst hnil
    rw [ih (fun e he => hl e (List.mem_cons_of_mem _ he))]
    ext t; simp

theorem tables_listed_inv {T T' : Set NftTable} {r : Reply} {h : List Ev} (hr : TablesRun T ((.query [b!"nft", b!"list", b!"tables"], r) :: h) T') :
    ∃ ts : List NftTable, (∀ t, t ∈ ts ↔ t ∈ T) ∧ r.out = unlines (ts.map NftTable.text) ∧ TablesRun T h T' := by
  cases hr with
  | listed h1 h2 h3 => exact ⟨_, h1, h2, h3⟩
  | other _ h _ => exact absurd rfl (h _)

theorem trimmed_self {s : CStr} {a b : UInt8} (h1 : s.head? = some a) (h2 : s.getLast? = some b) (ha : spaceTab a = false) (hb : spaceTab b = false) :
    Trimmed spaceTab s s :=
  ⟨[], [], by simp, by simp, by simp, fun c hc => by rw [h1] at hc; cases hc; exact ha, fun c hc => by rw [h2] at hc; cases hc; exact hb⟩

theorem ended_unlines {ls lines : List CStr} (h : ∀ l ∈ ls, Trimmed spaceTab l l ∧ ∀ c ∈ l, c ≠ 10 ∧ c ≠ 0) (he : EndedLines (unlines ls) lines) : lines = ls := by
  have : EndedLines (unlines ls) ls := by
    refine ⟨ls, [], ?_, fun s hs k => (h s hs).2 _ k |>.1 rfl, by simp, ?_⟩
    · rw [List.append_nil, List.filter_eq_self.2]
      · rfl
      · intro c hc
        unfold unlines at hc
        rw [List.mem_flatMap] at hc
        obtain ⟨l, hl, hc⟩ := hc
        rcases List.mem_append.1 hc with hc | hc
        · simpa using (h l hl).2 c hc |>.2
        · rw [List.mem_singleton] at hc; subst hc; decide
    · have : ∀ l ∈ ls, Trimmed spaceTab l l := fun l hl => (h l hl).1
      clear h he
      induction ls with
      | nil => exact .nil
      | cons l ls ih => exact .cons (this l (by simp)) (ih fun x hx => this x (List.mem_cons_of_mem _ hx))
  rw [(endedLines_iff _ _).1 this, (endedLines_iff _ _).1 he]

theorem text_clean {t : NftTable} (hw : t.WF) : Trimmed spaceTab t.text t.text ∧ ∀ c ∈ t.text, c ≠ 10 ∧ c ≠ 0 := by
  constructor
  · obtain ⟨x, hx⟩ : ∃ x, t.name.getLast? = some x := by
      cases e : t.name.getLast? with
      | none => exact absurd (List.getLast?_eq_none_iff.1 e) hw.ne
      | some x => exact ⟨x, rfl⟩
    have hxm := hw.name x (List.mem_of_getLast? hx)
    refine trimmed_self (a := c!"t") (b := x) rfl ?_ (by decide) ?_
    · unfold NftTable.text
      rw [List.getLast?_append, hx]; rfl
    · unfold spaceTab
      simp [hxm.1, hxm.2.1]
  · intro c hc
    unfold NftTable.text at hc
    simp only [List.mem_append] at hc
    rcases hc with ((hc | hc) | hc) | hc
    · revert hc c; decide
    · exact ⟨(hw.fam c hc).2.2.1, (hw.fam c hc).2.2.2⟩
    · revert hc c; decide
    · exact ⟨(hw.name c hc).2.2.1, (hw.name c hc).2.2.2⟩

theorem suffix_of_own {c : Cfg} {t : NftTable} (h : t.Own c) : b!" wg-quick-" ++ c.iface <:+ t.text := by
  unfold NftTable.Own at h
  unfold NftTable.text
  rw [h]
  exact ⟨b!"table " ++ t.fam, by simp⟩

/-- The tables of this interface are removed. -/
theorem nft_done {c : Cfg} (hc : (32 : UInt8) ∉ c.iface) {l : List Ev} (hn : NftRemoval c l) {T T' : Set NftTable} (hr : TablesRun T l T') (hw : ∀ t ∈ T, t.WF)
    (hp : ∀ t, (.query [b!"type", b!"-p", b!"nft"], t) ∈ l → t.status = 0) (hs : ∀ x d, (.act [b!"nft", b!"-f"] x, d) ∈ l → d.status = 0) :
    T' = {t | t ∈ T ∧ ¬ t.Own c} := by
  have skip : ∀ {t : Reply} {h : List Ev} {T : Set NftTable}, TablesRun T ((.query [b!"type", b!"-p", b!"nft"], t) :: h) T' → TablesRun T h T' := by
    intro t h T hr
    cases hr with
    | other _ _ h => exact h
  rcases hn with ⟨t, h, rfl⟩ | ⟨t, r, lines, _, h2, h3, rfl⟩ | ⟨t, r, d, lines, _, h2, h3, rfl⟩
  · exact absurd (hp t (by simp)) h
  · obtain ⟨ts, k1, k2, k3⟩ := tables_listed_inv (skip hr)
    cases k3
    rw [k2] at h2
    have hwt : ∀ t ∈ ts, t.WF := fun t ht => hw t ((k1 t).1 ht)
    have := ended_unlines (fun l hl => by obtain ⟨t, ht, rfl⟩ := List.mem_map.1 hl; exact text_clean (hwt t ht)) h2
    subst this
    ext t
    simp only [Set.mem_ofPred_eq, iff_self_and]
    intro ht ho
    have : t.text ∈ ownTables c (ts.map NftTable.text) := by
      unfold ownTables
      rw [List.mem_filter, decide_eq_true_eq]
      exact ⟨List.mem_map.2 ⟨t, (k1 t).2 ht, rfl⟩, suffix_of_own ho⟩
    rw [h3] at this; cases this
  · obtain ⟨ts, k1, k2, k3⟩ := tables_listed_inv (skip hr)
    rw [k2] at h2
    have hwt : ∀ t ∈ ts, t.WF := fun t ht => hw t ((k1 t).1 ht)
    have := ended_unlines (fun l hl => by obtain ⟨t, ht, rfl⟩ := List.mem_map.1 hl; exact text_clean (hwt t ht)) h2
    subst this
    have hd : d.status = 0 := hs _ d (List.mem_cons_of_mem _ (List.mem_cons_of_mem _ (List.mem_singleton.2 rfl)))
    have htext : ((ownTables c (ts.map NftTable.text)).flatMap fun t => b!"delete " ++ t ++ b!"\n") = unlines ((ownTables c (ts.map NftTable.text)).map (b!"delete " ++ ·)) := by
      rw [unlines_map]
    rw [htext] at k3
    generalize hx : unlines ((ownTables c (ts.map NftTable.text)).map (b!"delete " ++ ·)) = x at k3
    cases k3 with
    | failed h _ => exact absurd hd h
    | other h _ _ => exact absurd rfl (h _ _)
    | @done _ ls _ _ _ _ h10 h =>
      have := unlines_inj (by
        intro l hl
        obtain ⟨s, hs, rfl⟩ := List.mem_map.1 hl
        unfold ownTables at hs
        obtain ⟨t, ht, rfl⟩ := List.mem_map.1 (List.mem_filter.1 hs).1
        intro k
        rcases List.mem_append.1 k with k | k
        · revert k; decide
        · exact ((text_clean (hwt t ht)).2 _ k).1 rfl) h10 hx
      subst this
      cases h
      ext t
      simp only [Set.mem_ofPred_eq]
      have hno : b!"add " ++ t.text ∉ (ownTables c (ts.map NftTable.text)).map (b!"delete " ++ ·) := by
        intro k
        obtain ⟨s, _, hs⟩ := List.mem_map.1 k
        simp at hs
      have hdel : b!"delete " ++ t.text ∈ (ownTables c (ts.map NftTable.text)).map (b!"delete " ++ ·) ↔ t.text ∈ ownTables c (ts.map NftTable.text) := by
        rw [List.mem_map]
        constructor
        · rintro ⟨s, hs, e⟩
          rw [List.append_cancel_left_eq] at e
          exact e ▸ hs
        · exact fun h => ⟨_, h, rfl⟩
      rw [hdel]
      constructor
      · rintro ⟨h | h, h'⟩
        · refine ⟨h, fun ho => h' ?_⟩
          unfold ownTables
          rw [List.mem_filter, decide_eq_true_eq]
          exact ⟨List.mem_map.2 ⟨t, (k1 t).2 h, rfl⟩, suffix_of_own ho⟩
        · exact absurd h.2 hno
      · rintro ⟨h, h'⟩
        refine ⟨.inl h, fun k => h' ?_⟩
        unfold ownTables at k
        rw [List.mem_filter, decide_eq_true_eq] at k
        exact own_of_suffix hc (hw t h) k.2


/-! ### The effect on the tables of iptables -/

instance (c : Cfg) : DecidablePred (OwnRule c) := fun l => decidable_of_iff _ (ownRule_iff c l)

theorem IptRun_append {S : IptTables} {h1 h2 : List Ev} {S' : IptTables} (h : IptRun S (h1 ++ h2) S') : ∃ S1, IptRun S h1 S1 ∧ IptRun S1 h2 S' := by
  induction h1 generalizing S with
  | nil => exact ⟨S, .nil, h⟩
  | cons e h1 ih =>
    cases h with
    | listed a h => obtain ⟨T1, k1, k2⟩ := ih h; exact ⟨T1, .listed a k1, k2⟩
    | restored a b d h => obtain ⟨T1, k1, k2⟩ := ih h; exact ⟨T1, .restored a b d k1, k2⟩
    | failed a b d h => obtain ⟨T1, k1, k2⟩ := ih h; exact ⟨T1, .failed a b d k1, k2⟩
    | other a b h => obtain ⟨T1, k1, k2⟩ := ih h; exact ⟨T1, .other a b k1, k2⟩

theorem filter_erase {l : List CStr} {x : CStr} {p : CStr → Bool} (h : p x = false) : (l.erase x).filter p = l.filter p := by
  induction l with
  | nil => rfl
  | cons y l ih =>
    rw [List.erase_cons]
    split
    · rename_i e
      rw [beq_iff_eq] at e
      subst e
      rw [List.filter_cons, if_neg (by rw [h]; simp)]
    · rw [List.filter_cons, List.filter_cons, ih]

/-- Lines for iptables-restore that do not concern other rules. -/
def Spares4 (c : Cfg) (l : CStr) : Prop :=
  TableLine l ∨ (∃ r, l = b!"-D " ++ r ∧ OwnRule c (b!"-A " ++ r)) ∨ ∃ r, l = b!"-I " ++ r ∧ OwnRule c (b!"-A " ++ r)

theorem restore_spared {c : Cfg} {cur : Option CStr} {ts : List IptTable} {ls : List CStr} {ts' : List IptTable} (h : Restore cur ts ls ts')
    (hl : ∀ l ∈ ls, Spares4 c l) : ts'.map (IptTable.without c) = ts.map (IptTable.without c) := by
  induction h with
  | nil => rfl
  | @cons cur ts l cur' ts' ls ts'' h1 _ ih =>
    rw [ih fun l hl' => hl l (List.mem_cons_of_mem _ hl')]
    have hx := hl l (List.mem_cons_self ..)
    clear ih
    cases h1 with
    | select => rfl
    | commit => rfl
    | @delete n a t b r _ _ _ =>
      have ho : OwnRule c (b!"-A " ++ r) := by
        rcases hx with (⟨t, h⟩ | h) | ⟨r', h, h'⟩ | ⟨r', h, _⟩
        · simp at h
        · simp at h
        · simp only [List.append_cancel_left_eq] at h; rw [h]; exact h'
        · simp at h
      simp only [List.map_append, List.map_cons]
      congr 2
      unfold IptTable.without
      rw [filter_erase (by simpa using ho)]
    | @insert n a t b r y _ hown =>
      have ho : OwnRule c (b!"-A " ++ r) := by
        rw [hown c]
        rcases hx with (⟨t, h⟩ | h) | ⟨r', h, _⟩ | ⟨r', h, h'⟩
        · simp at h
        · simp at h
        · simp at h
        · simp only [List.append_cancel_left_eq] at h; rw [h]; exact h'
      simp only [List.map_append, List.map_cons]
      congr 2
      unfold IptTable.without
      simp only [List.filter_cons]
      rw [if_neg (by simpa using ho)]

theorem ipt_spared {c : Cfg} {S : IptTables} {h : List Ev} {S' : IptTables} (hr : IptRun S h S') (hl : ∀ e ∈ h, IptLines (Spares4 c) e.1) :
    ∀ ipt, (S' ipt).map (IptTable.without c) = (S ipt).map (IptTable.without c) := by
  induction hr with
  | nil => exact fun _ => rfl
  | listed _ _ ih => exact ih fun e he => hl e (List.mem_cons_of_mem _ he)
  | other _ _ _ ih => exact ih fun e he => hl e (List.mem_cons_of_mem _ he)
  | @restored S ipt lines ts r h S' _ h10 hre _ ih =>
    obtain ⟨ls, e1, e2⟩ := hl _ (List.mem_cons_self ..) _ _ rfl
    have : lines = ls := unlines_inj h10 (fun l hl => (e2 l hl).1) e1
    subst this
    intro i
    rw [ih (fun e he => hl e (List.mem_cons_of_mem _ he))]
    by_cases hi : i = ipt
    · subst hi; rw [Function.update_self]; exact restore_spared hre fun l hl => (e2 l hl).2
    · rw [Function.update_of_ne hi]
  | @failed S ipt lines rest ts r h S' _ h10 hre _ ih =>
    obtain ⟨ls, e1, e2⟩ := hl _ (List.mem_cons_self ..) _ _ rfl
    have : lines ++ rest = ls := unlines_inj h10 (fun l hl => (e2 l hl).1) e1
    subst this
    intro i
    rw [ih (fun e he => hl e (List.mem_cons_of_mem _ he))]
    by_cases hi : i = ipt
    · subst hi; rw [Function.update_self]; exact restore_spared hre fun l hl => (e2 l (List.mem_append_left _ hl)).2
    · rw [Function.update_of_ne hi]

theorem restore_nil {cur : Option CStr} {ts ts' : List IptTable} (h : Restore cur ts [] ts') : ts' = ts := by cases h; rfl

theorem ipt_none {S : IptTables} {h : List Ev} {S' : IptTables} (hr : IptRun S h S') (hl : ∀ e ∈ h, IptLines (fun _ => False) e.1) : S' = S := by
  induction hr with
  | nil => rfl
  | listed _ _ ih => exact ih fun e he => hl e (List.mem_cons_of_mem _ he)
  | other _ _ _ ih => exact ih fun e he => hl e (List.mem_cons_of_mem _ he)
  | @restored S ipt lines ts r h S' _ h10 hre _ ih =>
    obtain ⟨ls, e1, e2⟩ := hl _ (List.mem_cons_self ..) _ _ rfl
    have : lines = ls := unlines_inj h10 (fun l hl => (e2 l hl).1) e1
    subst this
    have hnil : lines = [] := List.eq_nil_iff_forall_not_mem.2 fun l hl => (e2 l hl).2
    subst hnil
    rw [ih (fun e he => hl e (List.mem_cons_of_mem _ he)), restore_nil hre, Function.update_eq_self]
  | @failed S ipt lines rest ts r h S' _ h10 hre _ ih =>
    obtain ⟨ls, e1, e2⟩ := hl _ (List.mem_cons_self ..) _ _ rfl
    have : lines ++ rest = ls := unlines_inj h10 (fun l hl => (e2 l hl).1) e1
    subst this
    have hnil : lines = [] := List.eq_nil_iff_forall_not_mem.2 fun l hl => (e2 l (List.mem_append_left _ hl)).2
    subst hnil
    rw [ih (fun e he => hl e (List.mem_cons_of_mem _ he)), restore_nil hre, Function.update_eq_self]

/-! Removal of all own rules. -/

theorem undo_table {c : Cfg} {l : CStr} {ls us : List CStr} (ht : TableLine l) (h : UndoLines c (l :: ls) us) : ∃ us', us = l :: us' ∧ UndoLines c ls us' := by
  generalize e : l :: ls = x at h
  cases h with
  | nil => cases e
  | table _ h => cases e; exact ⟨_, rfl, h⟩
  | rule ho h => cases e; exact absurd ht (own_not_table ho)
  | other hn _ h => cases e; exact absurd ht hn

theorem undo_skip {c : Cfg} {l : CStr} {ls us : List CStr} (ht : ¬ TableLine l) (ho : ¬ OwnRule c l) (h : UndoLines c (l :: ls) us) : UndoLines c ls us := by
  generalize e : l :: ls = x at h
  cases h with
  | nil => cases e
  | table k h => cases e; exact absurd k ht
  | rule k h => cases e; exact absurd k ho
  | other _ _ h => cases e; exact h

theorem undo_rule {c : Cfg} {r : CStr} {ls us : List CStr} (ho : OwnRule c (b!"-A " ++ r)) (h : UndoLines c ((b!"-A " ++ r) :: ls) us) :
    ∃ us', us = (b!"-D " ++ r) :: us' ∧ UndoLines c ls us' := by
  generalize e : (b!"-A " ++ r) :: ls = x at h
  cases h with
  | nil => cases e
  | table k h => cases e; exact absurd k (own_not_table ho)
  | @rule r' _ _ k h =>
    simp only [List.cons.injEq] at e
    obtain ⟨e, rfl⟩ := e
    have : r' = b!" " ++ r := by simpa using e.symm
    subst this
    exact ⟨_, rfl, h⟩
  | other _ k h => cases e; exact absurd ho k

theorem undo_filter {c : Cfg} {ls us : List CStr} (h : UndoLines c ls us) : UndoLines c (ls.filter fun l => decide (l.head? ≠ some c!"#")) us := by
  induction h with
  | nil => exact .nil
  | @table l ls us ht _ ih =>
    rw [List.filter_cons, if_pos]
    · exact .table ht ih
    · rcases ht with ⟨t, rfl⟩ | rfl <;> simp
  | @rule r ls us ho _ ih =>
    rw [List.filter_cons, if_pos]
    · exact .rule ho ih
    · simp
  | @other l ls us h1 h2 _ ih =>
    rw [List.filter_cons]
    split
    · exact .other h1 h2 ih
    · exact ih

theorem undo_chains {c : Cfg} {chs ls us : List CStr} (hc : ∀ l ∈ chs, l.head? = some c!":") (h : UndoLines c (chs ++ ls) us) : UndoLines c ls us := by
  induction chs with
  | nil => exact h
  | cons l chs ih =>
    have hl := hc l (by simp)
    refine ih (fun x hx => hc x (List.mem_cons_of_mem _ hx)) (undo_skip ?_ ?_ h)
    · rintro (⟨t, rfl⟩ | rfl) <;> simp at hl
    · rintro ⟨a, b, rfl⟩; simp at hl

theorem foldl_erase {p : CStr → Bool} (l pre : List CStr) (hp : ∀ x ∈ pre, p x = false) :
    (l.filter p).foldl List.erase (pre ++ l) = pre ++ l.filter fun x => !p x := by
  induction l generalizing pre with
  | nil => rfl
  | cons x l ih =>
    by_cases hx : p x = true
    · rw [List.filter_cons, if_pos hx, List.foldl_cons, List.filter_cons, if_neg (by simp [hx]), List.erase_append_right _ (fun k => by rw [hp x k] at hx; cases hx),
        List.erase_cons_head]
      exact ih pre hp
    · have hx' : p x = false := by simpa using hx
      have := ih (pre ++ [x]) (by
        intro y hy
        rcases List.mem_append.1 hy with hy | hy
        · exact hp y hy
        · rw [List.mem_singleton.1 hy]; exact hx')
      rw [List.filter_cons, if_neg hx, List.filter_cons, if_pos (by simp [hx'])]
      simpa using this

theorem names_split {a a' b b' : List IptTable} {t t' : IptTable} (e : a ++ t :: b = a' ++ t' :: b') (hn : ((a ++ t :: b).map IptTable.name).Nodup)
    (h : t.name = t'.name) : a = a' ∧ t = t' ∧ b = b' := by
  induction a generalizing a' with
  | nil =>
    cases a' with
    | nil => simpa using e
    | cons x a' =>
      simp only [List.nil_append, List.cons_append, List.cons.injEq] at e
      obtain ⟨rfl, rfl⟩ := e
      simp only [List.nil_append, List.map_cons, List.nodup_cons] at hn
      exact absurd (by rw [h]; simp) hn.1
  | cons x a ih =>
    cases a' with
    | nil =>
      simp only [List.nil_append, List.cons_append, List.cons.injEq] at e
      obtain ⟨rfl, rfl⟩ := e
      simp only [List.cons_append, List.map_cons, List.nodup_cons] at hn
      exact absurd (by rw [← h]; simp) hn.1
    | cons y a' =>
      simp only [List.cons_append, List.cons.injEq] at e
      obtain ⟨rfl, e⟩ := e
      simp only [List.cons_append, List.map_cons, List.nodup_cons] at hn
      obtain ⟨rfl, h2, h3⟩ := ih e hn.2
      exact ⟨rfl, h2, h3⟩

theorem line_commit {cur cur' : Option CStr} {ts ts' : List IptTable} (h : RestoreLine cur ts b!"COMMIT" cur' ts') : cur' = none ∧ ts' = ts := by
  generalize e : b!"COMMIT" = l at h
  cases h with
  | commit => exact ⟨rfl, rfl⟩
  | select => simp at e
  | delete _ _ _ => simp at e
  | insert _ _ => simp at e

theorem line_select {cur cur' : Option CStr} {n : CStr} {ts ts' : List IptTable} (h : RestoreLine cur ts (b!"*" ++ n) cur' ts') : cur' = some n ∧ ts' = ts := by
  generalize e : b!"*" ++ n = l at h
  cases h with
  | commit => simp at e
  | @select _ _ n' =>
    simp only [List.append_cancel_left_eq] at e
    subst e; exact ⟨rfl, rfl⟩
  | delete _ _ _ => simp at e
  | insert _ _ => simp at e

/-- The lines for the rules of one table. -/
theorem restore_rules {c : Cfg} {pre post : List IptTable} {n : CStr} {chs : List CStr} {rs cur : List CStr} {ls us : List CStr} {out : List IptTable}
    (hn : ((pre ++ ⟨n, chs, cur⟩ :: post).map IptTable.name).Nodup) (hu : UndoLines c (rs.map (b!"-A " ++ ·) ++ b!"COMMIT" :: ls) us)
    (hr : Restore (some n) (pre ++ ⟨n, chs, cur⟩ :: post) us out) :
    ∃ us', UndoLines c ls us' ∧
      Restore none (pre ++ ⟨n, chs, (rs.filter fun r => decide (OwnRule c (b!"-A " ++ r))).foldl List.erase cur⟩ :: post) us' out := by
  induction rs generalizing cur us with
  | nil =>
    obtain ⟨us', rfl, h⟩ := undo_table (.inr rfl) hu
    refine ⟨us', h, ?_⟩
    cases hr with
    | cons h1 h2 =>
      obtain ⟨rfl, rfl⟩ := line_commit h1
      exact h2
  | cons r rs ih =>
    simp only [List.map_cons, List.cons_append] at hu
    by_cases ho : OwnRule c (b!"-A " ++ r)
    · obtain ⟨us', rfl, h⟩ := undo_rule ho hu
      rw [List.filter_cons, if_pos (by simpa using ho), List.foldl_cons]
      cases hr with
      | cons h1 h2 =>
        generalize e : b!"-D " ++ r = l at h1
        generalize e2 : pre ++ (⟨n, chs, cur⟩ : IptTable) :: post = ts at h1
        cases h1 with
        | commit => simp at e
        | select => simp at e
        | insert _ _ => simp at e
        | @delete _ a t b r' k1 k2 k3 =>
          simp only [List.append_cancel_left_eq] at e
          subst e
          obtain ⟨rfl, rfl, rfl⟩ := names_split e2 hn k1.symm
          refine ih ?_ h h2
          simpa using hn
    · have h := undo_skip (by rintro (⟨t, h⟩ | h) <;> simp at h) ho hu
      rw [List.filter_cons, if_neg (by simpa using ho)]
      exact ih hn h hr

theorem restore_all {c : Cfg} {ts pre : List IptTable} {us : List CStr} {cur : Option CStr} {out : List IptTable}
    (hc : ∀ t ∈ ts, ∀ l ∈ t.chains, l.head? = some c!":") (hn : ((pre ++ ts).map IptTable.name).Nodup)
    (hu : UndoLines c (ts.flatMap IptTable.lines) us) (hr : Restore cur (pre ++ ts) us out) : out = pre ++ ts.map (IptTable.without c) := by
  induction ts generalizing pre us cur with
  | nil =>
    cases hu
    rw [restore_nil hr]; rfl
  | cons t ts ih =>
    rw [List.flatMap_cons, IptTable.lines] at hu
    simp only [List.append_assoc, List.singleton_append] at hu
    obtain ⟨us', rfl, h⟩ := undo_table (.inl ⟨_, rfl⟩) hu
    have h := undo_chains (hc t (by simp)) h
    cases hr with
    | cons h1 h2 =>
      obtain ⟨rfl, rfl⟩ := line_select h1
      obtain ⟨us2, k1, k2⟩ := restore_rules (n := t.name) (chs := t.chains) (cur := t.rules) hn h h2
      have hfold := foldl_erase (p := fun r => decide (OwnRule c (b!"-A " ++ r))) t.rules [] (by simp)
      rw [List.nil_append, List.nil_append] at hfold
      rw [hfold] at k2
      have hw : (⟨t.name, t.chains, t.rules.filter fun r => !decide (OwnRule c (b!"-A " ++ r))⟩ : IptTable) = t.without c := by
        unfold IptTable.without; simp
      rw [hw] at k2
      have := ih (pre := pre ++ [t.without c]) (fun x hx => hc x (List.mem_cons_of_mem _ hx)) (by simpa [IptTable.without] using hn) k1 (by simpa using k2)
      rw [this]; simp

theorem ipt_listed_inv {S S' : IptTables} {ipt : CStr} {r : Reply} {h : List Ev} (hr : IptRun S ((.query [ipt ++ b!"-save"], r) :: h) S') :
    IptListing (S ipt) r.out ∧ IptRun S h S' := by
  generalize e : Call.query [ipt ++ b!"-save"] = q at hr
  cases hr with
  | listed h1 h2 =>
    simp only [Call.query.injEq, List.cons.injEq, and_true, List.append_cancel_right_eq] at e
    subst e; exact ⟨h1, h2⟩
  | restored _ _ _ _ => cases e
  | failed _ _ _ _ => cases e
  | other h _ _ => exact absurd e.symm (h _)

theorem ipt_restored_inv {S S' : IptTables} {ipt : CStr} {r : Reply} {us : List CStr} {h : List Ev} (hs : r.status = 0) (h10 : ∀ l ∈ us, (10 : UInt8) ∉ l)
    (hr : IptRun S ((.act [ipt ++ b!"-restore", b!"-n"] (unlines us), r) :: h) S') :
    ∃ ts, Restore none (S ipt) us ts ∧ IptRun (Function.update S ipt ts) h S' := by
  generalize e : Call.act [ipt ++ b!"-restore", b!"-n"] (unlines us) = q at hr
  cases hr with
  | listed h1 h2 => cases e
  | restored k1 k2 k3 k4 =>
    simp only [Call.act.injEq, List.cons.injEq, and_true, List.append_cancel_right_eq] at e
    obtain ⟨rfl, e⟩ := e
    have := unlines_inj h10 k2 e
    subst this
    exact ⟨_, k3, k4⟩
  | failed k _ _ _ => exact absurd hs k
  | other _ h _ => exact absurd e.symm (h _ _)

theorem own_comment {c : Cfg} {l : CStr} (h : OwnRule c l) : l.head? ≠ some c!"#" := by
  obtain ⟨a, b, rfl⟩ := h; simp

/-- The rules of this interface are removed from the tables of one of the two commands. -/
theorem ipt_done {c : Cfg} {ipt : CStr} {l : List Ev} (hn : IptRemoval c ipt l) {S S' : IptTables} (hr : IptRun S l S')
    (hs : ∀ x d, (.act [ipt ++ b!"-restore", b!"-n"] x, d) ∈ l → d.status = 0) : S' = Function.update S ipt ((S ipt).map (IptTable.without c)) := by
  rcases hn with ⟨r, lines, h1, h2, rfl⟩ | ⟨r, lines, d, us, h1, h2, h3, rfl⟩
  · obtain ⟨⟨ls, k1, k2, k3, k4, k5⟩, k⟩ := ipt_listed_inv hr
    cases k
    rw [k1] at h1
    have := ended_unlines k2 h1
    subst this
    have : (S ipt).map (IptTable.without c) = S ipt := by
      rw [List.map_congr_left (g := id), List.map_id]
      intro t ht
      have : (t.rules.filter fun r => decide (¬ OwnRule c (b!"-A " ++ r))) = t.rules := by
        rw [List.filter_eq_self]
        intro x hx
        have hm : b!"-A " ++ x ∈ (S ipt).flatMap IptTable.lines := by
          rw [List.mem_flatMap]
          refine ⟨t, ht, ?_⟩
          unfold IptTable.lines
          simp only [List.mem_append]
          exact .inl (.inr (List.mem_map.2 ⟨x, hx, rfl⟩))
        rw [← k3] at hm
        simpa using h2 _ (List.mem_filter.1 hm).1
      unfold IptTable.without
      rw [this]; rfl
    rw [this, Function.update_eq_self]
  · obtain ⟨⟨ls, k1, k2, k3, k4, k5⟩, k⟩ := ipt_listed_inv hr
    rw [k1] at h1
    have := ended_unlines k2 h1
    subst this
    have h10 := undo_mem h3 fun l hl k => ((k2 l hl).2 _ k).1 rfl
    obtain ⟨ts, j1, j2⟩ := ipt_restored_inv (hs _ d (List.mem_cons_of_mem _ (List.mem_singleton.2 rfl))) (fun l hl => (h10 l hl).1) k
    cases j2
    have hu := undo_filter h3
    rw [k3] at hu
    have := restore_all (pre := []) (out := ts) k5 (by simpa using k4) hu (by simpa using j1)
    rw [this]; rfl

end WG.Quick
