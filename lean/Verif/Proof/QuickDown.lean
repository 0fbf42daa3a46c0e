import Verif.Proof.QuickUp
/-! Taking the interface down. -/
namespace WG.Quick
open WG.Spec.Quick

variable {α β : Type} {X : Call → Prop} {Z : Nat → List Ev → Prop}

/-- A command, with its event. -/
theorem does_ev (c : Call) (hc : isAct c = true) (e : Bool) (hX : e = true ∨ X c) :
    Does X Z (run e c) (fun _ l => ∃ r, l = [(c, r)]) := by
  intro w s
  rw [run_eq]
  refine ⟨[(c, w s.hist c)], rfl, answers_one _ _ _, ?_⟩
  dsimp only
  by_cases h : (w s.hist c).sig = true
  · refine .inr ⟨[], [(c, w s.hist c)], (), [(c, w s.hist c)], _, ?_, rfl, by simp, ⟨_, rfl⟩, rfl, List.prefix_refl _⟩
    rw [if_pos h]
    exact ⟨_, _, rfl, h, rfl⟩
  · rw [if_neg h]
    by_cases h2 : e = true ∧ (w s.hist c).status ≠ 0
    · refine .inr ⟨[], [(c, w s.hist c)], (), [(c, w s.hist c)], _, ?_, rfl, by simp, ⟨_, rfl⟩, rfl, List.prefix_refl _⟩
      rw [if_pos h2]
      exact .inl ⟨_, _, rfl, hc, by simpa using h, rfl, h2.2⟩
    · refine .inl ⟨(), by rw [if_neg h2], ⟨_, rfl⟩, ?_⟩
      intro ev he
      rw [List.mem_singleton] at he; subst he
      refine ⟨by simpa using h, fun _ => ?_⟩
      by_cases h3 : (w s.hist c).status = 0
      · exact .inl h3
      · exact .inr (hX.resolve_left fun he => h2 ⟨he, h3⟩)

theorem does_nil : Does X Z (Sh.pure ()) (fun _ l => l = []) := (does_pure ()).weaken (by rintro _ _ ⟨_, h⟩; exact h)

theorem hasInfix_iff {pat s : CStr} : hasInfix pat s = true ↔ Occurs pat s := by
  unfold hasInfix Occurs
  rw [List.any_eq_true]
  constructor
  · rintro ⟨t, ht, hp⟩
    obtain ⟨a, rfl⟩ := mem_suffixes.1 ht
    obtain ⟨b, rfl⟩ := List.isPrefixOf_iff_prefix.1 hp
    exact ⟨a, b, by rw [List.append_assoc]⟩
  · rintro ⟨a, b, rfl⟩
    refine ⟨pat ++ b, mem_suffixes.2 ⟨a, by rw [List.append_assoc]⟩, List.isPrefixOf_iff_prefix.2 (List.prefix_append _ _)⟩

theorem hasDefault_iff {s : CStr} : hasDefaultRoute s = true ↔ DefaultShown s := by
  unfold hasDefaultRoute DefaultShown
  rw [List.any_eq_true]
  constructor
  · rintro ⟨t, ht, hp⟩
    obtain ⟨a, rfl⟩ := mem_suffixes.1 ht
    rw [Bool.and_eq_true] at hp
    obtain ⟨b, rfl⟩ := List.isPrefixOf_iff_prefix.1 hp.1
    refine ⟨a, b, by rw [List.append_assoc], ?_⟩
    have := hp.2
    simpa [List.head?_eq_none_iff, or_assoc] using this
  · rintro ⟨a, b, rfl, h⟩
    refine ⟨b!"/0" ++ b, mem_suffixes.2 ⟨a, by rw [List.append_assoc]⟩, ?_⟩
    rw [Bool.and_eq_true]
    refine ⟨List.isPrefixOf_iff_prefix.2 (List.prefix_append _ _), ?_⟩
    simpa [List.head?_eq_none_iff, or_assoc] using h

/-! ### Firewall -/

theorem nftDelete_eq (c : Cfg) (out : List UInt8) :
    nftDelete c out = (ownTables c (readLoopLines out)).flatMap fun t => b!"delete " ++ t ++ b!"\n" := by
  unfold nftDelete ownTables
  induction readLoopLines out with
  | nil => rfl
  | cons l ls ih =>
    rw [List.flatMap_cons, ih, List.filter_cons]
    by_cases h : b!" wg-quick-" ++ c.iface <:+ l
    · rw [if_pos (List.isSuffixOf_iff_suffix.2 h), if_pos (by simpa using h)]; rfl
    · rw [if_neg (fun e => h (List.isSuffixOf_iff_suffix.1 e)), if_neg (by simpa using h)]; rfl

theorem nftDelete_nil (c : Cfg) (out : List UInt8) : nftDelete c out = [] ↔ ownTables c (readLoopLines out) = [] := by
  rw [nftDelete_eq]
  cases ownTables c (readLoopLines out) <;> simp

theorem does_removeNft (c : Cfg) (e : Bool) (hX : e = true ∨ ∀ a, IsUndo c a → X a) : Does X Z (removeNft c e) (fun _ l => NftRemoval c l) := by
  unfold removeNft
  have h2 : ∀ t : Reply, Does X Z (if t.status = 0 then
        (call (.query [b!"nft", b!"list", b!"tables"])).bind fun r =>
        if nftDelete c r.out = [] then Sh.pure () else run e (.act [b!"nft", b!"-f"] (nftDelete c r.out))
      else Sh.pure ()) (fun _ l => NftRemoval c ((.query [b!"type", b!"-p", b!"nft"], t) :: l)) := by
    intro t
    by_cases ht : t.status = 0
    · rw [if_pos ht]
      have h3 : ∀ r : Reply, Does X Z (if nftDelete c r.out = [] then Sh.pure () else run e (.act [b!"nft", b!"-f"] (nftDelete c r.out)))
          (fun _ l => NftRemoval c ((.query [b!"type", b!"-p", b!"nft"], t) :: (.query [b!"nft", b!"list", b!"tables"], r) :: l)) := by
        intro r
        split
        · rename_i h
          exact does_nil.weaken fun _ l hl => .inr (.inl ⟨t, r, _, ht, (endedLines_iff _ _).2 rfl, (nftDelete_nil c _).1 h, by rw [hl]⟩)
        · rename_i h
          refine (does_ev _ rfl e (hX.imp_right fun f => f _ (.inr (.inl ⟨_, rfl⟩)))).weaken ?_
          rintro _ l ⟨d, rfl⟩
          exact .inr (.inr ⟨t, r, d, _, ht, (endedLines_iff _ _).2 rfl, fun hh => h ((nftDelete_nil c _).2 hh), by rw [nftDelete_eq]⟩)
      refine (does_bind (does_query _) h3 (fun r => (h3 r).inh)).weaken ?_
      rintro _ l ⟨r, l1, l2, rfl, h, rfl⟩
      exact h
    · rw [if_neg ht]
      exact does_nil.weaken fun _ l hl => .inl ⟨t, ht, by rw [hl]⟩
  refine (does_bind (does_query _) h2 (fun t => (h2 t).inh)).weaken ?_
  rintro _ l ⟨t, l1, l2, rfl, h, rfl⟩
  exact h

theorem ownRule_iff (c : Cfg) (l : CStr) :
    (b!"-A ".isPrefixOf l && hasInfix (b!"-m comment --comment \"wg-quick(8) rule for " ++ c.iface ++ b!"\"") (l.drop 3)) = true ↔ OwnRule c l := by
  rw [Bool.and_eq_true, hasInfix_iff, List.isPrefixOf_iff_prefix]
  unfold Occurs OwnRule ruleComment
  constructor
  · rintro ⟨⟨r, rfl⟩, a, b, h⟩
    refine ⟨a, b, ?_⟩
    rw [← h]; rfl
  · rintro ⟨a, b, rfl⟩
    exact ⟨List.prefix_append _ _, a, b, rfl⟩

theorem tableLine_iff (l : CStr) : (l.head? = some c!"*" ∨ l = b!"COMMIT") ↔ TableLine l := by
  unfold TableLine
  refine or_congr_left ?_
  cases l with
  | nil => simp
  | cons x xs => simp

theorem own_not_table {c : Cfg} {l : CStr} (h : OwnRule c l) : ¬ TableLine l := by
  obtain ⟨a, b, rfl⟩ := h
  rintro (⟨t, h⟩ | h) <;> simp at h

theorem table_not_A {l : CStr} (h : TableLine l) : b!"-A".isPrefixOf l = false := by
  rcases h with ⟨t, rfl⟩ | rfl
  · simp [List.isPrefixOf]
  · rfl

/-- The lines kept by the loop. -/
def keptLine (c : Cfg) (l : CStr) : Bool :=
  l.head? = some c!"*" || l == b!"COMMIT" ||
    (b!"-A ".isPrefixOf l && hasInfix (b!"-m comment --comment \"wg-quick(8) rule for " ++ c.iface ++ b!"\"") (l.drop 3))

theorem keptLine_iff (c : Cfg) (l : CStr) : keptLine c l = true ↔ TableLine l ∨ OwnRule c l := by
  unfold keptLine
  rw [Bool.or_eq_true, ownRule_iff, Bool.or_eq_true, ← tableLine_iff]
  simp

theorem ownRule_A {c : Cfg} {l : CStr} (h : OwnRule c l) : b!"-A".isPrefixOf l = true := by
  obtain ⟨a, b, rfl⟩ := h
  rw [List.isPrefixOf_iff_prefix]
  exact ⟨b!" " ++ (a ++ ruleComment c ++ b), rfl⟩

theorem undo_lines (c : Cfg) (ls : List CStr) :
    UndoLines c ls ((ls.filter (keptLine c)).map fun l => if b!"-A".isPrefixOf l then b!"-D" ++ l.drop 2 else l) := by
  induction ls with
  | nil => exact .nil
  | cons l ls ih =>
    rw [List.filter_cons]
    by_cases hk : keptLine c l = true
    · rw [if_pos hk, List.map_cons]
      rcases (keptLine_iff c l).1 hk with h | h
      · rw [if_neg (by rw [table_not_A h]; simp)]
        exact .table h ih
      · rw [if_pos (ownRule_A h)]
        obtain ⟨r, rfl⟩ := List.isPrefixOf_iff_prefix.1 (ownRule_A h)
        exact .rule h ih
    · rw [if_neg hk]
      rw [keptLine_iff] at hk
      exact .other (fun h => hk (.inl h)) (fun h => hk (.inr h)) ih

theorem iptRestore_text (c : Cfg) (out : List UInt8) :
    ∃ us, UndoLines c (readLoopLines out) us ∧ (iptRestore c out).2 = us.flatMap fun u => u ++ b!"\n" := by
  refine ⟨_, undo_lines c _, ?_⟩
  unfold iptRestore
  rw [List.flatMap_map]
  rfl

theorem iptRestore_found (c : Cfg) (out : List UInt8) : (iptRestore c out).1 = true ↔ ∃ x ∈ readLoopLines out, OwnRule c x := by
  have : (iptRestore c out).1 = ((readLoopLines out).filter (keptLine c)).any fun l => b!"-A".isPrefixOf l := rfl
  rw [this, List.any_eq_true]
  constructor
  · rintro ⟨x, hx, hA⟩
    rw [List.mem_filter, keptLine_iff] at hx
    refine ⟨x, hx.1, hx.2.resolve_left fun h => ?_⟩
    rw [table_not_A h] at hA
    exact absurd hA (by simp)
  · rintro ⟨x, hx, h⟩
    exact ⟨x, List.mem_filter.2 ⟨hx, (keptLine_iff c x).2 (.inr h)⟩, ownRule_A h⟩

theorem does_removeIpt (c : Cfg) (e : Bool) (ipt : CStr) (hX : e = true ∨ ∀ text, X (.act [ipt ++ b!"-restore", b!"-n"] text)) :
    Does X Z (removeIpt c e ipt) (fun _ l => IptRemoval c ipt l) := by
  unfold removeIpt
  have h2 : ∀ r : Reply, Does X Z (if (iptRestore c r.out).1 then run e (.act [ipt ++ b!"-restore", b!"-n"] (iptRestore c r.out).2) else Sh.pure ())
      (fun _ l => IptRemoval c ipt ((.query [ipt ++ b!"-save"], r) :: l)) := by
    intro r
    by_cases h : (iptRestore c r.out).1 = true
    · rw [if_pos h]
      obtain ⟨us, hu, ht⟩ := iptRestore_text c r.out
      refine (does_ev _ rfl e (hX.imp_right fun f => f _)).weaken ?_
      rintro _ l ⟨d, rfl⟩
      exact .inr ⟨r, _, d, us, (endedLines_iff _ _).2 rfl, (iptRestore_found c _).1 h, hu, by rw [ht]⟩
    · rw [if_neg h]
      exact does_nil.weaken fun _ l hl => .inl ⟨r, _, (endedLines_iff _ _).2 rfl, fun x hx ho => h ((iptRestore_found c _).2 ⟨x, hx, ho⟩), by rw [hl]⟩
  refine (does_bind (does_query _) h2 (fun t => (h2 t).inh)).weaken ?_
  rintro _ l ⟨t, l1, l2, rfl, h, rfl⟩
  exact h

theorem does_removeFirewall (c : Cfg) (e : Bool) (hX : e = true ∨ ∀ a, IsUndo c a → X a) :
    Does X Z (removeFirewall c e) (fun _ l => FwRemoval c l) := by
  unfold removeFirewall
  have h4 := does_removeIpt (Z := Z) c e b!"iptables" (hX.imp_right fun f t => f _ (.inr (.inr (.inl ⟨t, rfl⟩))))
  have h6 := does_removeIpt (Z := Z) c e b!"ip6tables" (hX.imp_right fun f t => f _ (.inr (.inr (.inr (.inl ⟨t, rfl⟩)))))
  have h46 := does_then (f := fun _ => removeIpt c e b!"ip6tables") h4 h6 h6.inh
  have ht : ∀ t : Reply, Does X Z (if t.status = 0 then (removeIpt c e b!"iptables").bind fun _ => removeIpt c e b!"ip6tables" else Sh.pure ())
      (fun _ l2 => if t.status = 0 then ∃ l4 l6, IptRemoval c b!"iptables" l4 ∧ IptRemoval c b!"ip6tables" l6 ∧ l2 = l4 ++ l6 else l2 = []) := by
    intro t
    by_cases h : t.status = 0
    · simp only [if_pos h]; exact h46
    · simp only [if_neg h]; exact does_nil
  have hq := does_bind (does_query (X := X) (Z := Z) [b!"type", b!"-p", b!"iptables"]) ht (fun t => (ht t).inh)
  refine (does_then (f := fun _ => _) (does_removeNft c e hX) hq hq.inh).weaken ?_
  rintro _ l ⟨l1, l2, h1, ⟨t, l3, l4, rfl, h, rfl⟩, rfl⟩
  exact ⟨l1, t, l4, rfl, h1, h⟩

/-! ### DNS, rules -/

theorem does_unsetDns (c : Cfg) (e : Bool) (hX : e = true ∨ ∀ a, IsUndo c a → X a) :
    Does X Z (unsetDns c e) (fun _ l => DnsRemoval c l) := by
  unfold unsetDns DnsRemoval
  by_cases h : c.opts.dns = []
  · simp only [if_pos h]; exact does_nil
  · simp only [if_neg h]
    refine (does_ifacePrefix.bind fun pre => does_ev (dnsDelete c pre) rfl e (hX.imp_right fun f => f _ (.inl ⟨pre, rfl⟩))).weaken ?_
    rintro _ l ⟨pre, l1, l2, h1, ⟨r, rfl⟩, rfl⟩
    exact ⟨pre, l1, r, h1, rfl⟩

theorem does_ruleLoop (proto pat : CStr) (args : List CStr) (hp : pat ≠ []) (n : Nat) :
    Does X Z (ruleLoop proto pat args n) (fun _ l => RuleRemoval proto pat args l) := by
  have inh : ∃ _ : Unit, ∃ l : List Ev, RuleRemoval proto pat args l :=
    ⟨(), _, .done (r := ⟨0, [], false⟩) (by
      rintro ⟨a, b, h⟩
      have : a ++ pat ++ b = [] := h.symm
      simp at this
      exact hp this.2.1)⟩
  induction n with
  | zero =>
    obtain ⟨_, l, h⟩ := inh
    intro w s
    exact ⟨[], by simp [giveUp, ruleLoop], answers_nil _ _, .inr ⟨[], [], (), l, l, rfl, rfl, by simp, h, rfl, List.nil_prefix⟩⟩
  | succ n ih =>
    unfold ruleLoop
    have h2 : ∀ r : Reply, Does X Z (if hasInfix pat (chomp r.out) then
        (run true (.act ([b!"ip", proto, b!"rule", b!"delete", b!"table"] ++ args) [])).bind fun _ => ruleLoop proto pat args n
        else Sh.pure ()) (fun _ l => RuleRemoval proto pat args ((.query [b!"ip", proto, b!"rule", b!"show"], r) :: l)) := by
      intro r
      by_cases h : hasInfix pat (chomp r.out) = true
      · rw [if_pos h]
        refine (does_then (f := fun _ => _) (does_ev (cmd ([b!"ip", proto, b!"rule", b!"delete", b!"table"] ++ args)) rfl true (.inl rfl)) ih inh).weaken ?_
        rintro _ l ⟨l1, l2, ⟨d, rfl⟩, h2, rfl⟩
        exact .again (hasInfix_iff.1 h) h2
      · rw [if_neg h]
        refine does_nil.weaken ?_
        rintro _ l rfl
        exact .done fun ho => h (hasInfix_iff.2 ho)
    refine (does_bind (does_query _) h2 (fun t => (h2 t).inh)).weaken ?_
    rintro _ l ⟨t, l1, l2, rfl, h, rfl⟩
    exact h

theorem does_removeRules (c : Cfg) (t : CStr) : Does X Z (removeRules c t) (fun _ l => RulesRemoval t l) := by
  unfold removeRules
  have d4 := does_ruleLoop (X := X) (Z := Z) b!"-6" b!"from all lookup main suppress_prefixlength 0" [b!"main", b!"suppress_prefixlength", b!"0"] (by simp) c.patience
  have d3 := does_then (f := fun _ => _) (does_ruleLoop (X := X) (Z := Z) b!"-6" (b!"lookup " ++ t) [t] (by simp) c.patience) d4 d4.inh
  have d2 := does_then (f := fun _ => _) (does_ruleLoop (X := X) (Z := Z) b!"-4" b!"from all lookup main suppress_prefixlength 0"
    [b!"main", b!"suppress_prefixlength", b!"0"] (by simp) c.patience) d3 d3.inh
  have d1 := does_then (f := fun _ => _) (does_ruleLoop (X := X) (Z := Z) b!"-4" (b!"lookup " ++ t) [t] (by simp) c.patience) d2 d2.inh
  refine d1.weaken ?_
  rintro _ l ⟨l1, _, h1, ⟨l2, _, h2, ⟨l3, l4, h3, h4, rfl⟩, rfl⟩, rfl⟩
  exact ⟨l1, l2, l3, l4, rfl, h1, h2, h3, h4⟩

theorem does_removeDefault (c : Cfg) : Does X Z (removeDefault c) (fun _ l => DefaultRemoval c l) := by
  unfold removeDefault DefaultRemoval
  by_cases ht : c.opts.table = [] ∨ c.opts.table = b!"auto"
  · simp only [if_pos ht]
    -- inline get_fwmark
    have hin : ∀ t : CStr, Does X Z ((call (.query [b!"wg", b!"show", c.iface, b!"allowed-ips"])).bind fun r =>
        if hasDefaultRoute (chomp r.out) then removeRules c t else Sh.pure ())
        (fun _ l' => ∃ q l'', l' = (.query [b!"wg", b!"show", c.iface, b!"allowed-ips"], q) :: l'' ∧
          ((¬ DefaultShown (chomp q.out) ∧ l'' = []) ∨ (DefaultShown (chomp q.out) ∧ RulesRemoval t l''))) := by
      intro t
      have h2 : ∀ r : Reply, Does X Z (if hasDefaultRoute (chomp r.out) then removeRules c t else Sh.pure ())
          (fun _ l'' => (¬ DefaultShown (chomp r.out) ∧ l'' = []) ∨ (DefaultShown (chomp r.out) ∧ RulesRemoval t l'')) := by
        intro r
        by_cases h : hasDefaultRoute (chomp r.out) = true
        · rw [if_pos h]
          exact (does_removeRules c t).weaken fun _ l hl => .inr ⟨hasDefault_iff.1 h, hl⟩
        · rw [if_neg h]
          exact does_nil.weaken fun _ l hl => .inl ⟨fun hd => h (hasDefault_iff.2 hd), hl⟩
      refine (does_bind (does_query _) h2 (fun t => (h2 t).inh)).weaken ?_
      rintro _ l ⟨r, l1, l2, rfl, h, rfl⟩
      exact ⟨r, l2, rfl, h⟩
    have h3 : ∀ t : Option CStr, Does X Z (match t with
        | none => Sh.pure ()
        | some table => (call (.query [b!"wg", b!"show", c.iface, b!"allowed-ips"])).bind fun r =>
          if hasDefaultRoute (chomp r.out) then removeRules c table else Sh.pure ())
        (fun _ l' => match t with
          | none => l' = []
          | some t => ∃ q l'', l' = (.query [b!"wg", b!"show", c.iface, b!"allowed-ips"], q) :: l'' ∧
            ((¬ DefaultShown (chomp q.out) ∧ l'' = []) ∨ (DefaultShown (chomp q.out) ∧ RulesRemoval t l''))) := by
      intro t
      cases t with
      | none => exact does_nil
      | some t => exact hin t
    refine ((does_getFwmark c).bind h3).weaken ?_
    rintro _ l ⟨t, l1, l2, ⟨m, rfl, ⟨rfl, hm⟩ | ⟨hm, rfl⟩⟩, h, rfl⟩
    · exact ⟨m, l2, rfl, .inl ⟨hm, h⟩⟩
    · obtain ⟨q, l'', rfl, h⟩ := h
      exact ⟨m, _, rfl, .inr ⟨hm, q, l'', rfl, h.imp_right fun h => ⟨h.1, _, markDecimal_text m, h.2⟩⟩⟩
  · simp only [if_neg ht]
    exact does_nil

/-- `del_if` with the two flags known. -/
def delWith (c : Cfg) (d f : Bool) : Sh Unit :=
  (if d then unsetDns c true else Sh.pure ()).bind fun _ =>
  (if f then removeFirewall c true else Sh.pure ()).bind fun _ =>
  (removeDefault c).bind fun _ =>
  run true (linkDelete c)

theorem does_delWith (c : Cfg) (d f : Bool) : Does X Z (delWith c d f) (fun _ l => Removal c d f l) := by
  unfold delWith
  have h4 := does_ev (X := X) (Z := Z) (linkDelete c) rfl true (.inl rfl)
  have h3 := does_then (f := fun _ => _) (does_removeDefault (X := X) (Z := Z) c) h4 h4.inh
  have h2' : Does X Z (if f then removeFirewall c true else Sh.pure ()) (fun _ l => if f then FwRemoval c l else l = []) := by
    cases f
    · exact does_nil
    · exact does_removeFirewall c true (.inl rfl)
  have h2 := does_then (f := fun _ => _) h2' h3 h3.inh
  have h1' : Does X Z (if d then unsetDns c true else Sh.pure ()) (fun _ l => if d then DnsRemoval c l else l = []) := by
    cases d
    · exact does_nil
    · exact does_unsetDns c true (.inl rfl)
  refine (does_then (f := fun _ => _) h1' h2 h2.inh).weaken ?_
  rintro _ l ⟨l1, _, a1, ⟨l2, _, a2, ⟨l3, _, a3, ⟨r, rfl⟩, rfl⟩, rfl⟩, rfl⟩
  exact ⟨l1, l2, l3, r, rfl, a1, a2, a3⟩

theorem keeps_ifacePrefix : Keeps ifacePrefix := by
  unfold ifacePrefix
  refine keeps_bind (keeps_call _) fun t => ?_
  split
  · exact keeps_pure _
  · refine keeps_bind (keeps_call _) fun r => ?_
    split <;> exact keeps_pure _

theorem keeps_unsetDns (c : Cfg) (e : Bool) : Keeps (unsetDns c e) := by
  unfold unsetDns
  split
  · exact keeps_pure _
  · exact keeps_bind keeps_ifacePrefix fun _ => keeps_run _ _

theorem keeps_removeFirewall (c : Cfg) (e : Bool) : Keeps (removeFirewall c e) := by
  unfold removeFirewall
  refine keeps_bind ?_ fun _ => keeps_bind (keeps_call _) fun t => ?_
  · unfold removeNft
    refine keeps_bind (keeps_call _) fun t => ?_
    split
    · refine keeps_bind (keeps_call _) fun t => ?_
      split
      · exact keeps_pure _
      · exact keeps_run _ _
    · exact keeps_pure _
  · have : ∀ i, Keeps (removeIpt c e i) := by
      intro i
      unfold removeIpt
      refine keeps_bind (keeps_call _) fun t => ?_
      split
      · exact keeps_run _ _
      · exact keeps_pure _
    split
    · exact keeps_bind (this _) fun _ => this _
    · exact keeps_pure _

theorem keeps_getFwmark (c : Cfg) : Keeps (getFwmark c) := by
  unfold getFwmark
  refine keeps_bind (keeps_call _) fun t => ?_
  split
  · exact keeps_pure _
  · split <;> exact keeps_pure _

theorem keeps_removeDefault (c : Cfg) : Keeps (removeDefault c) := by
  unfold removeDefault
  have hl : ∀ p q a n, Keeps (ruleLoop p q a n) := by
    intro p q a n
    induction n with
    | zero => exact keeps_giveUp
    | succ n ih =>
      unfold ruleLoop
      refine keeps_bind (keeps_call _) fun t => ?_
      split
      · exact keeps_bind (keeps_run _ _) fun _ => ih
      · exact keeps_pure _
  split
  · refine keeps_bind (keeps_getFwmark c) fun t => ?_
    cases t with
    | none => exact keeps_pure _
    | some t =>
      refine keeps_bind (keeps_call _) fun t => ?_
      split
      · exact keeps_bind (hl _ _ _ _) fun _ => keeps_bind (hl _ _ _ _) fun _ => keeps_bind (hl _ _ _ _) fun _ => hl _ _ _ _
      · exact keeps_pure _
  · exact keeps_pure _

theorem delIf_eq (c : Cfg) (w : World) (s : St) : delIf c w s = delWith c s.haveDns s.haveFw w s := by
  have h1 : Keeps (if s.haveDns then unsetDns c true else Sh.pure ()) := by
    split
    · exact keeps_unsetDns _ _
    · exact keeps_pure _
  have := h1 w s
  unfold delIf delWith
  unfold Sh.bind getDns getFw
  dsimp only
  rcases e : (if s.haveDns = true then unsetDns c true else Sh.pure ()) w s with ⟨o, s'⟩
  rw [e] at this
  cases o with
  | ok a => dsimp only; rw [this.2]
  | exit n => rfl
  | signal n => rfl
  | running => rfl

theorem keeps_delWith (c : Cfg) (d f : Bool) : Keeps (delWith c d f) := by
  unfold delWith
  refine keeps_bind ?_ fun _ => keeps_bind ?_ fun _ => keeps_bind (keeps_removeDefault c) fun _ => keeps_run _ _
  · split
    · exact keeps_unsetDns _ _
    · exact keeps_pure _
  · split
    · exact keeps_removeFirewall _ _
    · exact keeps_pure _

end WG.Quick
