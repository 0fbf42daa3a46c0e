import Verif.Proof.QuickFwSim
import Verif.Props.QuickOthers
/-!
C61 Bringing an interface up or down touches no firewall rules but its own, and taking it down removes all of its own.
-/
namespace WG
open Spec Spec.Quick Quick

namespace Quick

theorem iface_bytes {c : Cfg} (h : IsIfaceName c.iface) : (32 : UInt8) ∉ c.iface ∧ (10 : UInt8) ∉ c.iface := by
  constructor <;> intro k <;> have := h.2.2 _ k <;> revert this <;> decide

/-- Has no effect on the firewall. -/
def Quiet (x : Call) : Prop := NftLines (fun _ => False) x ∧ IptLines (fun _ => False) x

theorem quiet_query (q : List CStr) : Quiet (.query q) := ⟨nftLines_query _, iptLines_query _⟩
theorem quiet_hook (t : CStr) : Quiet (.hook t) := ⟨nftLines_hook _, iptLines_hook _⟩
theorem quiet_cmd (a : List CStr) : Quiet (cmd a) := ⟨nftLines_cmd _, iptLines_cmd _⟩
theorem quiet_long {a b c : CStr} {l : List CStr} {x : List UInt8} : Quiet (.act (a :: b :: c :: l) x) := ⟨nftLines_act (by simp), iptLines_act (by simp)⟩

def QuietAll (l : List Ev) : Prop := ∀ e ∈ l, Quiet e.1

theorem quiet_nil : QuietAll [] := by intro e he; cases he
theorem quiet_cons {e : Ev} {l : List Ev} (h : Quiet e.1) (hl : QuietAll l) : QuietAll (e :: l) := by
  intro x hx
  rcases List.mem_cons.1 hx with rfl | hx
  · exact h
  · exact hl x hx
theorem quiet_append {a b : List Ev} (ha : QuietAll a) (hb : QuietAll b) : QuietAll (a ++ b) := by
  intro e he
  rcases List.mem_append.1 he with he | he
  · exact ha e he
  · exact hb e he
theorem quiet_queries {a : List Ev} (ha : ∀ e ∈ a, isAct e.1 = false) : QuietAll a := by
  intro e he
  have := ha e he
  obtain ⟨x, r⟩ := e
  cases x with
  | query q => exact quiet_query q
  | hook t => exact quiet_hook t
  | act a t => cases this

theorem quiet_acts {l : List Ev} (h : ∀ a ∈ acts l, Quiet a) : QuietAll l := by
  intro e he
  by_cases ha : isAct e.1 = true
  · exact h e.1 (mem_acts.2 ⟨⟨e, he, rfl⟩, ha⟩)
  · obtain ⟨x, r⟩ := e
    cases x with
    | query q => exact quiet_query q
    | hook t => exact quiet_hook t
    | act a t => exact absurd rfl ha

theorem quiet_hooks {c : Cfg} {hs : List CStr} {l : List Ev} (h : HookActs c hs (acts l)) : QuietAll l := by
  refine quiet_acts ?_
  unfold HookActs at h
  generalize acts l = la at h
  induction h with
  | nil => intro a ha; cases ha
  | cons hx _ ih =>
    intro a ha
    rcases List.mem_cons.1 ha with rfl | ha
    · obtain ⟨t, ht, _⟩ := hx; rw [ht]; exact quiet_hook t
    · exact ih a ha

theorem quiet_first {c : Cfg} {f : List Ev} (h : DownFirst c f) : QuietAll f := by
  obtain ⟨a, b, rfl, h1, _, h2⟩ := h
  refine quiet_append (quiet_hooks h1) ?_
  split at h2
  · obtain ⟨q, t, x, rfl, hq, _, r1, r2, r3, rfl, _⟩ := h2
    exact quiet_append (quiet_queries hq) (quiet_cons quiet_long (quiet_cons (quiet_cmd _) (quiet_cons (quiet_cmd _) quiet_nil)))
  · subst h2; exact quiet_nil

theorem quiet_rules {fam pat : CStr} {args : List CStr} {l : List Ev} (h : RuleRemoval fam pat args l) : QuietAll l := by
  induction h with
  | done _ => exact quiet_cons (quiet_query _) quiet_nil
  | again _ _ ih => exact quiet_cons (quiet_query _) (quiet_cons (quiet_cmd _) ih)

theorem quiet_default {c : Cfg} {l : List Ev} (h : DefaultRemoval c l) : QuietAll l := by
  unfold DefaultRemoval at h
  split at h
  · obtain ⟨m, l', rfl, h⟩ := h
    refine quiet_cons (quiet_query _) ?_
    rcases h with ⟨_, rfl⟩ | ⟨_, q, l'', rfl, h⟩
    · exact quiet_nil
    refine quiet_cons (quiet_query _) ?_
    rcases h with ⟨_, rfl⟩ | ⟨_, t, _, l1, l2, l3, l4, rfl, h1, h2, h3, h4⟩
    · exact quiet_nil
    exact quiet_append (quiet_rules h1) (quiet_append (quiet_rules h2) (quiet_append (quiet_rules h3) (quiet_rules h4)))
  · subst h; exact quiet_nil

theorem quiet_prefix {p : CStr} {l : List Ev} (h : PrefixShown p l) : QuietAll l := by
  rcases h with ⟨t, _, _, rfl⟩ | ⟨t, r, _, _, _, rfl, _⟩
  · exact quiet_cons (quiet_query _) quiet_nil
  · exact quiet_cons (quiet_query _) (quiet_cons (quiet_query _) quiet_nil)

theorem quiet_dns {c : Cfg} {l : List Ev} (h : DnsRemoval c l) : QuietAll l := by
  unfold DnsRemoval at h
  split at h
  · subst h; exact quiet_nil
  · obtain ⟨pre, l', r, h, rfl⟩ := h
    exact quiet_append (quiet_prefix h) (quiet_cons (quiet_cmd _) quiet_nil)

/-- In a successful `down`, the firewall changes in the removal of its rules only. -/
theorem down_fw {c : Cfg} {w : World} (ho : (cmdDown c w {}).1 = .ok ()) :
    ∃ a l b, (cmdDown c w {}).2.hist = a ++ (l ++ b) ∧ FwRemoval c l ∧ QuietAll a ∧ QuietAll b := by
  obtain ⟨f, a, b, h1, _, hf, ⟨l1, l2, l3, d, rfl, k1, k2, k3⟩, ⟨m1, m2, m3, rfl, n1, n2, n3⟩, _⟩ := c58_success c w ho
  simp only [Bool.false_eq_true, if_false] at k1 k2
  subst k1 k2
  refine ⟨(ifaceCheck, w [] ifaceCheck) :: (f ++ (l3 ++ (deleteAct c, d) :: m1)), m2, m3, by rw [h1]; simp, n2, ?_, quiet_hooks n3⟩
  exact quiet_cons (quiet_query _) (quiet_append (quiet_first hf) (quiet_append (quiet_default k3) (quiet_cons (quiet_cmd _) (quiet_dns n1))))

theorem tables_middle {T T' : Set NftTable} {a l b : List Ev} (h : TablesRun T (a ++ (l ++ b)) T') (ha : QuietAll a) (hb : QuietAll b) : TablesRun T l T' := by
  obtain ⟨T1, h1, h2⟩ := TablesRun_append h
  obtain ⟨T2, h3, h4⟩ := TablesRun_append h2
  rw [nft_none h1 fun e he => (ha e he).1] at h3
  rw [nft_none h4 fun e he => (hb e he).1]; exact h3

theorem ipt_middle {S S' : IptTables} {a l b : List Ev} (h : IptRun S (a ++ (l ++ b)) S') (ha : QuietAll a) (hb : QuietAll b) : IptRun S l S' := by
  obtain ⟨T1, h1, h2⟩ := IptRun_append h
  obtain ⟨T2, h3, h4⟩ := IptRun_append h2
  rw [ipt_none h1 fun e he => (ha e he).2] at h3
  rw [ipt_none h4 fun e he => (hb e he).2]; exact h3

theorem deletes_spares {c : Cfg} (hi : IsIfaceName c.iface) (t : NftTable) (hw : t.WF) (ho : ¬ t.Own c) :
    ¬ DeletesOwn c (b!"add " ++ t.text) ∧ ¬ DeletesOwn c (b!"delete " ++ t.text) := by
  constructor
  · rintro ⟨x, h, _⟩; simp at h
  · rintro ⟨x, h, h'⟩
    simp only [List.append_cancel_left_eq] at h
    subst h
    exact ho (own_of_suffix (iface_bytes hi).1 hw h')

theorem undoes_spares {c : Cfg} {x : Call} (h : IptLines (Undoes c) x) : IptLines (Spares4 c) x := by
  intro i t e
  obtain ⟨ls, h1, h2⟩ := h i t e
  refine ⟨ls, h1, fun l hl => ⟨(h2 l hl).1, ?_⟩⟩
  rcases (h2 l hl).2 with h | h
  · exact .inl h
  · exact .inr (.inl h)

end Quick

/-- **C61** Whatever happens while an interface is taken down, nftables tables of others stay, and none is added. -/
theorem c61_nft_others (c : Cfg) (w : World) (hi : IsIfaceName c.iface) (T T' : Set NftTable) (hT : TablesRun T (cmdDown c w {}).2.hist T')
    (hw : ∀ t ∈ T, t.WF) : T' ⊆ T ∧ ∀ t ∈ T, ¬ t.Own c → t ∈ T' := by
  obtain ⟨l, h1, h2⟩ := down_nft c w {}
  simp only [List.nil_append] at h1
  rw [h1] at hT
  exact ⟨nft_noAdds hT h2 fun t ⟨x, h, _⟩ => by simp at h,
    fun t ht ho => ((nft_spared (c := c) hT h2 (deletes_spares hi) hw).2 t ho).2 ht⟩

/-- **C61** If `nft` is there and does what it is told, a successful `down` leaves exactly the tables of others. -/
theorem c61_nft_removed (c : Cfg) (w : World) (ho : (cmdDown c w {}).1 = .ok ()) (hi : IsIfaceName c.iface) (T T' : Set NftTable)
    (hT : TablesRun T (cmdDown c w {}).2.hist T') (hw : ∀ t ∈ T, t.WF)
    (hp : ∀ r, (.query [b!"type", b!"-p", b!"nft"], r) ∈ (cmdDown c w {}).2.hist → r.status = 0)
    (hs : ∀ x r, (.act [b!"nft", b!"-f"] x, r) ∈ (cmdDown c w {}).2.hist → r.status = 0) : T' = {t | t ∈ T ∧ ¬ t.Own c} := by
  obtain ⟨a, l, b, h1, ⟨l1, t, l2, rfl, h2, h3⟩, h4, h5⟩ := down_fw ho
  rw [h1] at hT hp hs
  have hT := tables_middle hT h4 h5
  obtain ⟨T1, k1, k2⟩ := TablesRun_append hT
  have : T' = T1 := by
    refine nft_none k2 ?_
    intro e he
    rcases List.mem_cons.1 he with rfl | he
    · exact nftLines_query _
    · have hipt : ∀ {ipt l}, (ipt = b!"iptables" ∨ ipt = b!"ip6tables") → IptRemoval c ipt l → ∀ e ∈ l, NftLines (fun _ => False) e.1 := by
        intro ipt l hipt h e he
        rcases h with ⟨r, lines, _, _, rfl⟩ | ⟨r, lines, d, us, _, _, _, rfl⟩
        · rw [List.mem_singleton] at he; subst he; exact nftLines_query _
        · simp only [List.mem_cons, List.not_mem_nil, or_false] at he
          rcases he with rfl | rfl
          · exact nftLines_query _
          · rcases hipt with rfl | rfl <;> exact nftLines_act (by simp)
      split at h3
      · obtain ⟨l4, l6, j4, j6, rfl⟩ := h3
        rcases List.mem_append.1 he with he | he
        · exact hipt (.inl rfl) j4 e he
        · exact hipt (.inr rfl) j6 e he
      · subst h3; cases he
  rw [this]
  exact nft_done (iface_bytes hi).1 h2 k1 hw (fun r hr => hp r (by simp [hr])) (fun x r hr => hs x r (by simp [hr]))

/-- **C61** Whatever happens while an interface is taken down, iptables tables keep their chains and all rules that are not the
interface's, in their order. -/
theorem c61_ipt_others (c : Cfg) (w : World) (S S' : IptTables) (hS : IptRun S (cmdDown c w {}).2.hist S') (ipt : List UInt8) :
    (S' ipt).map (IptTable.without c) = (S ipt).map (IptTable.without c) := by
  obtain ⟨l, h1, h2⟩ := down_ipt c w {}
  simp only [List.nil_append] at h1
  rw [h1] at hS
  exact ipt_spared hS (fun e he => undoes_spares (h2 e he)) ipt

/-- **C61** If `iptables` is there and does what it is told, a successful `down` removes exactly the rules of the interface. -/
theorem c61_ipt_removed (c : Cfg) (w : World) (ho : (cmdDown c w {}).1 = .ok ()) (S S' : IptTables) (hS : IptRun S (cmdDown c w {}).2.hist S')
    (hp : ∀ r, (.query [b!"type", b!"-p", b!"iptables"], r) ∈ (cmdDown c w {}).2.hist → r.status = 0)
    (hs : ∀ ipt x r, (.act [ipt ++ b!"-restore", b!"-n"] x, r) ∈ (cmdDown c w {}).2.hist → r.status = 0) :
    S' b!"iptables" = (S b!"iptables").map (IptTable.without c) ∧ S' b!"ip6tables" = (S b!"ip6tables").map (IptTable.without c) ∧
    ∀ ipt, ipt ≠ b!"iptables" → ipt ≠ b!"ip6tables" → S' ipt = S ipt := by
  obtain ⟨a, l, b, h1, ⟨l1, t, l2, rfl, h2, h3⟩, h4, h5⟩ := down_fw ho
  rw [h1] at hS hp hs
  have hS := ipt_middle hS h4 h5
  rw [if_pos (hp t (by simp))] at h3
  obtain ⟨l4, l6, j4, j6, rfl⟩ := h3
  obtain ⟨S1, k1, k2⟩ := IptRun_append hS
  have e1 : S1 = S := by
    refine ipt_none k1 ?_
    intro e he
    rcases h2 with ⟨t, _, rfl⟩ | ⟨t, r, lines, _, _, _, rfl⟩ | ⟨t, r, d, lines, _, _, _, rfl⟩ <;>
      simp only [List.mem_cons, List.not_mem_nil, or_false] at he
    · subst he; exact iptLines_query _
    · rcases he with rfl | rfl <;> exact iptLines_query _
    · rcases he with rfl | rfl | rfl
      · exact iptLines_query _
      · exact iptLines_query _
      · exact iptLines_act (by simp)
  subst e1
  have k3 : IptRun S1 (l4 ++ l6) S' := by
    generalize e : Call.query [b!"type", b!"-p", b!"iptables"] = q at k2
    cases k2 with
    | listed _ _ => simp at e
    | restored => cases e
    | failed => cases e
    | other _ _ h => exact h
  obtain ⟨S2, k4, k5⟩ := IptRun_append k3
  have e2 := ipt_done j4 k4 (fun x d hd => hs b!"iptables" x d (by simp only [List.mem_append, List.mem_cons]; tauto))
  have e3 := ipt_done j6 k5 (fun x d hd => hs b!"ip6tables" x d (by simp only [List.mem_append, List.mem_cons]; tauto))
  rw [e3, e2]
  refine ⟨?_, ?_, ?_⟩
  · rw [Function.update_of_ne (by decide), Function.update_self]
  · rw [Function.update_self, Function.update_of_ne (by decide)]
  · intro ipt n4 n6
    rw [Function.update_of_ne n6, Function.update_of_ne n4]

namespace Quick

/-- Lines for nft that concern tables of this interface only. -/
def OwnLine (c : Cfg) (l : CStr) : Prop := ∀ t : NftTable, t.WF → (l = b!"add " ++ t.text ∨ l = b!"delete " ++ t.text) → t.Own c

theorem nftText_lines {c : Cfg} (hi : IsIfaceName c.iface) (pf t : CStr) (as : List CStr) (hpf : pf = b!"ip" ∨ pf = b!"ip6") (ht : (10 : UInt8) ∉ t)
    (has : ∀ a ∈ as, (10 : UInt8) ∉ a) : NftLines (OwnLine c) (.act [b!"nft", b!"-f"] (nftText c pf t as)) := by
  intro text e
  simp only [Call.act.injEq, true_and] at e
  subst e
  refine ⟨_, nftText_eq c pf t as, fun l hl => ?_⟩
  obtain ⟨h32, h10⟩ := iface_bytes hi
  have hp10 : (10 : UInt8) ∉ pf := by rcases hpf with rfl | rfl <;> decide
  unfold nftRules at hl
  simp only [List.mem_append, List.mem_cons, List.not_mem_nil, or_false, List.mem_map] at hl
  rcases hl with ((rfl | rfl | rfl | rfl) | ⟨a, ha, rfl⟩) | rfl | rfl
  · refine ⟨by simp [h10, hp10], fun tb hw h => ?_⟩
    rcases h with h | h
    · refine own_of_suffix h32 hw ⟨b!"table " ++ pf, ?_⟩
      have : b!"table " ++ (pf ++ b!" wg-quick-" ++ c.iface) = tb.text := by simpa using h
      rw [← this]; simp
    · simp at h
  · refine ⟨by simp [h10, hp10], fun tb hw h => ?_⟩
    rcases h with h | h <;> simp [NftTable.text] at h
  · refine ⟨by simp [h10, hp10], fun tb hw h => ?_⟩
    rcases h with h | h <;> simp [NftTable.text] at h
  · refine ⟨by simp [h10, hp10], fun tb hw h => ?_⟩
    rcases h with h | h <;> simp [NftTable.text] at h
  · have := has a ha
    refine ⟨by simp [h10, hp10, this], fun tb hw h => ?_⟩
    rcases h with h | h <;> simp [NftTable.text] at h
  · refine ⟨by simp [h10, hp10, ht], fun tb hw h => ?_⟩
    rcases h with h | h <;> simp [NftTable.text] at h
  · refine ⟨by simp [h10, hp10], fun tb hw h => ?_⟩
    rcases h with h | h <;> simp [NftTable.text] at h

theorem restoreText_lines {c : Cfg} (hi : IsIfaceName c.iface) (ipt t : CStr) (as : List CStr) (ht : (10 : UInt8) ∉ t)
    (has : ∀ a ∈ as, (10 : UInt8) ∉ a) : IptLines (Spares4 c) (.act [ipt ++ b!"-restore", b!"-n"] (restoreText c t as)) := by
  intro i text e
  simp only [Call.act.injEq] at e
  obtain ⟨_, rfl⟩ := e
  refine ⟨_, restoreText_eq c t as, fun l hl => ?_⟩
  obtain ⟨h32, h10⟩ := iface_bytes hi
  have hc : (10 : UInt8) ∉ ruleComment c := by unfold ruleComment; simp [h10]
  have own : ∀ x : CStr, OwnRule c (b!"-A " ++ (x ++ ruleComment c)) := fun x => ⟨x, [], by simp⟩
  unfold iptRules at hl
  simp only [List.mem_append, List.mem_cons, List.not_mem_nil, or_false, List.mem_map] at hl
  rcases hl with (rfl | ⟨a, ha, rfl⟩) | rfl | rfl | rfl | rfl | rfl
  · exact ⟨by decide, .inl (.inl ⟨b!"raw", rfl⟩)⟩
  · have := has a ha
    refine ⟨by simp [h10, hc, this], .inr (.inr ⟨b!"PREROUTING ! -i " ++ c.iface ++ b!" -d " ++ a ++ b!" -m addrtype ! --src-type LOCAL -j DROP " ++ ruleComment c, by simp, own _⟩)⟩
  · exact ⟨by decide, .inl (.inr rfl)⟩
  · exact ⟨by decide, .inl (.inl ⟨b!"mangle", rfl⟩)⟩
  · refine ⟨by simp [hc, ht], .inr (.inr ⟨b!"POSTROUTING -m mark --mark " ++ t ++ b!" -p udp -j CONNMARK --save-mark " ++ ruleComment c, by simp, own _⟩)⟩
  · refine ⟨by simp [hc], .inr (.inr ⟨b!"PREROUTING -p udp -j CONNMARK --restore-mark " ++ ruleComment c, by simp, own _⟩)⟩
  · exact ⟨by decide, .inl (.inr rfl)⟩

theorem deletes_own {c : Cfg} (hi : IsIfaceName c.iface) {x : Call} (h : NftLines (DeletesOwn c) x) : NftLines (OwnLine c) x := by
  intro t e
  obtain ⟨ls, h1, h2⟩ := h t e
  refine ⟨ls, h1, fun l hl => ⟨(h2 l hl).1, fun tb hw hl' => ?_⟩⟩
  have := (h2 l hl).2
  by_contra hno
  obtain ⟨k1, k2⟩ := deletes_spares hi tb hw hno
  rcases hl' with rfl | rfl
  · exact k1 this
  · exact k2 this

theorem up_nft (c : Cfg) (hi : IsIfaceName c.iface) : Emits (NftLines (OwnLine c)) (cmdUp c) :=
  emits_up c nftLines_query nftLines_hook nftLines_cmd (fun _ => nftLines_act (by simp)) (fun _ _ => nftLines_act (by simp))
    (fun out => deletes_own hi (nftDelete_lines c out)) (by rintro _ (rfl | rfl) out <;> exact nftLines_act (by simp)) (nftText_lines hi)
    (by rintro _ _ _ (rfl | rfl) _ _ <;> exact nftLines_act (by simp))

theorem up_ipt (c : Cfg) (hi : IsIfaceName c.iface) : Emits (IptLines (Spares4 c)) (cmdUp c) :=
  emits_up c iptLines_query iptLines_hook iptLines_cmd (fun _ => iptLines_act (by simp)) (fun _ _ => iptLines_act (by simp))
    (fun _ => iptLines_act (by simp)) (fun i _ out => undoes_spares (iptRestore_lines c i out)) (fun _ _ _ _ _ _ => iptLines_act (by simp))
    (fun i t as _ ht has => restoreText_lines hi i t as ht has)

end Quick

/-- **C61** Whatever happens while an interface is brought up (and cleaned up again if that fails), tables of others neither appear
nor vanish, and iptables rules of others stay as they are. -/
theorem c61_up_others (c : Cfg) (w : World) (hi : IsIfaceName c.iface) (T T' : Set NftTable) (hT : TablesRun T (cmdUp c w {}).2.hist T')
    (hw : ∀ t ∈ T, t.WF) (S S' : IptTables) (hS : IptRun S (cmdUp c w {}).2.hist S') :
    (∀ t, ¬ t.Own c → (t ∈ T' ↔ t ∈ T)) ∧ ∀ ipt, (S' ipt).map (IptTable.without c) = (S ipt).map (IptTable.without c) := by
  obtain ⟨l, h1, h2⟩ := up_nft c hi w {}
  obtain ⟨l', h1', h2'⟩ := up_ipt c hi w {}
  simp only [List.nil_append] at h1 h1'
  rw [h1] at hT
  rw [h1'] at hS
  exact ⟨(nft_spared (c := c) hT h2 (fun t hw ho => ⟨fun h => ho (h t hw (.inl rfl)), fun h => ho (h t hw (.inr rfl))⟩) hw).2, ipt_spared hS h2'⟩

/-- **C61** An attempt to bring an interface up, however it ends, followed by a successful `down` restores the firewall, if there were
no rules of the interface before, and `nft` and `iptables` are there and do what they are told during `down`. -/
theorem c61_up_down (c : Cfg) (w w' : World) (hi : IsIfaceName c.iface) (ho : (cmdDown c w' {}).1 = .ok ())
    (T0 T1 T2 : Set NftTable) (t1 : TablesRun T0 (cmdUp c w {}).2.hist T1) (t2 : TablesRun T1 (cmdDown c w' {}).2.hist T2) (hw : ∀ t ∈ T0, t.WF ∧ ¬ t.Own c)
    (S0 S1 S2 : IptTables) (s1 : IptRun S0 (cmdUp c w {}).2.hist S1) (s2 : IptRun S1 (cmdDown c w' {}).2.hist S2)
    (hn : ∀ ipt, ∀ t ∈ S0 ipt, ∀ r ∈ t.rules, ¬ OwnRule c (b!"-A " ++ r))
    (hp : ∀ p r, (.query [b!"type", b!"-p", p], r) ∈ (cmdDown c w' {}).2.hist → r.status = 0)
    (hs : ∀ argv x r, (.act argv x, r) ∈ (cmdDown c w' {}).2.hist → r.status = 0) :
    T2 = T0 ∧ S2 b!"iptables" = S0 b!"iptables" ∧ S2 b!"ip6tables" = S0 b!"ip6tables" := by
  obtain ⟨l, h1, h2⟩ := up_nft c hi w {}
  simp only [List.nil_append] at h1
  have t1' := t1
  rw [h1] at t1'
  obtain ⟨hw1, hiff⟩ := nft_spared (c := c) t1' h2 (fun t hw ho => ⟨fun h => ho (h t hw (.inl rfl)), fun h => ho (h t hw (.inr rfl))⟩) fun t ht => (hw t ht).1
  have e1 := c61_nft_removed c w' ho hi T1 T2 t2 hw1 (fun r hr => hp _ r hr) (fun x r hr => hs _ x r hr)
  obtain ⟨_, k1⟩ := c61_up_others c w hi T0 T1 t1 (fun t ht => (hw t ht).1) S0 S1 s1
  obtain ⟨j4, j6, _⟩ := c61_ipt_removed c w' ho S1 S2 s2 (fun r hr => hp _ r hr) (fun _ x r hr => hs _ x r hr)
  have hid : ∀ ipt, (S0 ipt).map (IptTable.without c) = S0 ipt := by
    intro ipt
    rw [List.map_congr_left (g := id), List.map_id]
    intro t ht
    unfold IptTable.without
    rw [List.filter_eq_self.2]
    · rfl
    · intro r hr; exact decide_eq_true (hn ipt t ht r hr)
  refine ⟨?_, by rw [j4, k1, hid], by rw [j6, k1, hid]⟩
  rw [e1]
  ext t
  rw [Set.mem_ofPred_eq]
  constructor
  · rintro ⟨h, h'⟩; exact (hiff t h').1 h
  · intro h; exact ⟨(hiff t (hw t h).2).2 h, (hw t h).2⟩

/-! ### Concrete cases -/

/-- Tables of others, one with a name that ends alike, and tables of another interface. -/
def exTables : List NftTable := [⟨b!"ip", b!"filter"⟩, ⟨b!"inet", b!"my-wg-quick-wg0"⟩, ⟨b!"ip", b!"wg-quick-wg1"⟩, ⟨b!"ip", b!"wg-quick-wg01"⟩]
def exOwnTables : List NftTable := [⟨b!"ip", b!"wg-quick-wg0"⟩, ⟨b!"ip6", b!"wg-quick-wg0"⟩]

def exIptRule (i : CStr) : CStr := b!"PREROUTING -p udp -m comment --comment \"wg-quick(8) rule for " ++ i ++ b!"\" -j CONNMARK --restore-mark"
def exIpt (own : List CStr) : Ipts :=
  ⟨[⟨b!"raw", [b!":PREROUTING ACCEPT [0:0]"], []⟩, ⟨b!"mangle", [b!":PREROUTING ACCEPT [0:0]", b!":POSTROUTING ACCEPT [0:0]"], own ++ [exIptRule b!"wg1", b!"PREROUTING -j ACCEPT"]⟩],
   [⟨b!"filter", [b!":INPUT DROP [0:0]"], [b!"INPUT -s fe80::/10 -j ACCEPT"]⟩]⟩

/-- As `exDownWorld`, with nft. -/
def exFwDown (l : List NftTable) (p : Ipts) : World := withFw l p fun h c => if c = .query [b!"type", b!"-p", b!"nft"] then ⟨0, b!"/usr/sbin/nft\n", false⟩ else exDownWorld h c

theorem exFwDown_types {l : List Ev} (h : (l.all fun e => match e.1 with | .query (a :: _) => a != b!"type" || e.2.status == 0 | .act _ _ => e.2.status == 0 | _ => true) = true) :
    (∀ p r, (.query [b!"type", b!"-p", p], r) ∈ l → r.status = 0) ∧ ∀ argv x r, (.act argv x, r) ∈ l → r.status = 0 := by
  rw [List.all_eq_true] at h
  refine ⟨fun p r hr => ?_, fun a x r hr => ?_⟩
  · simpa using h _ hr
  · simpa using h _ hr

/-- The hypotheses of the theorems on `down` are met; own tables and rules are removed, those of others stay. -/
example : let w := exFwDown (exTables ++ exOwnTables) (exIpt [exIptRule b!"wg0"])
    let h := (cmdDown (exRouteCfg []) w {}).2.hist
    IsIfaceName (exRouteCfg []).iface ∧ (cmdDown (exRouteCfg []) w {}).1 = .ok () ∧ TablesRun {t | t ∈ exTables ++ exOwnTables} h {t | t ∈ exTables} ∧
    (∀ t ∈ exTables ++ exOwnTables, t.WF) ∧ IptRun (exIpt [exIptRule b!"wg0"]).tables h (exIpt []).tables ∧
    (∀ p r, (.query [b!"type", b!"-p", p], r) ∈ h → r.status = 0) ∧ ∀ argv x r, (.act argv x, r) ∈ h → r.status = 0 := by
  refine ⟨?_, by decide +kernel, nftSim_sound (by decide +kernel), fun t ht => tableWf_iff.1 ?_, iptSim_sound (by decide +kernel), exFwDown_types (by decide +kernel)⟩
  · unfold IsIfaceName; decide +kernel
  · exact List.all_eq_true.1 (show (exTables ++ exOwnTables).all tableWf = true by decide +kernel) t ht

def exNftFails : World := fun h c => match c with
  | .act (a :: _) _ => ⟨if a = b!"nft" then 1 else 0, [], false⟩
  | c => exFwDown (exTables ++ exOwnTables) (exIpt []) h c

/-- **C61** (limit) If `nft -f` fails, `down` succeeds all the same, and the tables of the interface are still there. So the hypothesis
of `c61_nft_removed` that the command does what it is told is needed. -/
theorem c61_unreported : ∃ (c : Cfg) (w : World) (T : Set NftTable), (cmdDown c w {}).1 = .ok () ∧ (∀ t ∈ T, t.WF) ∧
    TablesRun T (cmdDown c w {}).2.hist T ∧ ∃ t ∈ T, t.Own c :=
  ⟨exRouteCfg [], exNftFails, {t | t ∈ exTables ++ exOwnTables}, by decide +kernel,
    fun t ht => tableWf_iff.1 (List.all_eq_true.1 (show (exTables ++ exOwnTables).all tableWf = true by decide +kernel) t ht),
    nftSim_sound (by decide +kernel), ⟨b!"ip", b!"wg-quick-wg0"⟩, by decide +kernel, rfl⟩

/-- The hypotheses of `c61_up_down` are met, with nft and without. -/
example (nft : Bool) : let c := exRouteCfg []
    let w : World := fun h x => if x = .query [b!"type", b!"-p", b!"nft"] then ⟨if nft then 0 else 1, [], false⟩ else exRouteWorld h x
    let T1 := if nft then exTables ++ exOwnTables else exTables
    let own := [b!"PREROUTING -p udp -j CONNMARK --restore-mark " ++ ruleComment c, b!"POSTROUTING -m mark --mark 51822 -p udp -j CONNMARK --save-mark " ++ ruleComment c]
    let S0 : Ipts := ⟨(exIpt []).four, [⟨b!"raw", [], []⟩, ⟨b!"mangle", [], []⟩]⟩
    let S1 : Ipts := if nft then S0 else ⟨(exIpt own).four, [⟨b!"raw", [], []⟩, ⟨b!"mangle", [], own⟩]⟩
    let w' := exFwDown T1 S1
    (cmdUp c w {}).1 = .ok () ∧ (cmdDown c w' {}).1 = .ok () ∧ TablesRun {t | t ∈ exTables} (cmdUp c w {}).2.hist {t | t ∈ T1} ∧
    TablesRun {t | t ∈ T1} (cmdDown c w' {}).2.hist {t | t ∈ exTables} ∧ (∀ t ∈ exTables, t.WF ∧ ¬ t.Own c) ∧
    IptRun S0.tables (cmdUp c w {}).2.hist S1.tables ∧ IptRun S1.tables (cmdDown c w' {}).2.hist S0.tables ∧
    (∀ i, ∀ t ∈ S0.tables i, ∀ r ∈ t.rules, ¬ OwnRule c (b!"-A " ++ r)) := by
  refine ⟨?_, ?_, nftSim_sound ?_, nftSim_sound ?_, ?_, iptSim_sound ?_, iptSim_sound ?_, ?_⟩
  · cases nft <;> decide +kernel
  · cases nft <;> decide +kernel
  · cases nft <;> decide +kernel
  · cases nft <;> decide +kernel
  · intro t ht
    have : exTables.all (fun t => tableWf t && t.name != b!"wg-quick-wg0") = true := by decide +kernel
    have := List.all_eq_true.1 this t ht
    rw [Bool.and_eq_true, bne_iff_ne] at this
    exact ⟨tableWf_iff.1 this.1, this.2⟩
  · cases nft <;> decide +kernel
  · cases nft <;> decide +kernel
  · intro i
    unfold Ipts.tables
    split
    · decide +kernel
    split
    · decide +kernel
    · simp

end WG
