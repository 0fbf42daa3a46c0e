import Verif.Proof.AndroidDel
import Verif.Proof.Show
import Verif.Spec.AndroidUp
import Verif.Props.AndroidDown
/-!
The parts of a successful `up` of wg-quick for Android.
-/
namespace WG.Android
open WG.Spec WG.Spec.Android WG.Spec.Quick
open WG.Quick (suffixes words_unique isNameserver isNameserver_iff mtuIn devIn endpointHost endpointHost_iff endpointHost_none mtuIn_iff mtuIn_none devIn_iff devIn_none)

theorem collected_filter {α : Type} (p : α → Bool) {P : α → Prop} (hp : ∀ x, p x = true ↔ P x) (xs : List α) : Collected (fun w x => x = w ∧ P w) xs (xs.filter p) := by
  induction xs with
  | nil => exact .nil
  | cons x xs ih =>
    by_cases h : p x = true
    · rw [List.filter_cons_of_pos h]; exact .hit ⟨rfl, (hp x).1 h⟩ ih
    · rw [List.filter_cons_of_neg h]; exact .miss (fun y hy => h ((hp x).2 hy.2)) ih

theorem listSeps_eq : listSeps = listSep := by
  funext c; revert c; apply forall_u8; decide +kernel

theorem unquoted_iff (w : CStr) : unquoted w = true ↔ ¬ Unquotable w := by
  simp [unquoted, Unquotable, not_or]

theorem entries_ok (s : CStr) : Entries s ((strtok listSeps s).filter unquoted) := by
  rw [listSeps_eq]
  exact ⟨_, strtok_words _ _, collected_filter _ unquoted_iff _⟩

theorem linesOf_eq (out : List UInt8) : (getlines out).map cstr = linesOf out := lines_eq out

section
variable {e : Env} {h h' : List Ev}

/-! ### Addresses -/

/-- The calls of `add_addr`. -/
def addrCalls (iface addr : CStr) : List Call :=
  if c!":" ∈ addr then [ndc (b!"interface ipv6 " ++ iface ++ b!" enable"), .system (b!"ip -6 addr add '" ++ addr ++ b!"' dev " ++ iface)]
  else [ndc (b!"interface setcfg " ++ iface ++ b!" '" ++ addr.takeWhile (· ≠ c!"/") ++ b!"' " ++ decimal (match addr.dropWhile (· ≠ c!"/") with
      | [] => 32
      | _ :: m => toUnsigned (atoi m) % 256))]

theorem addAddr_did {iface addr : CStr} {u : Unit} (hb : addAddr iface addr e h = (.ok u, h')) : ∃ t, h' = h ++ t ∧ Did true t (addrCalls iface addr) := by
  unfold addAddr at hb
  unfold addrCalls
  by_cases hc : c!":" ∈ addr
  · rw [if_pos hc] at hb ⊢
    obtain ⟨_, h1, b1, b2⟩ := bind_ok hb
    obtain ⟨t1, e1, d1⟩ := cndc_did (strict := true) b1
    obtain ⟨t2, e2, d2⟩ := cmd_did b2
    exact ⟨t1 ++ t2, by rw [e2, e1, List.append_assoc], d1.append d2⟩
  · rw [if_neg hc] at hb ⊢
    rw [showDec_eq] at hb
    exact cndc_did hb

theorem takeWhile_none {p : UInt8 → Bool} {s : CStr} (h : ∀ c ∈ s, p c = true) : s.takeWhile p = s ∧ s.dropWhile p = [] :=
  ⟨List.takeWhile_eq_self_iff.2 h, List.dropWhile_eq_nil_iff.2 h⟩

theorem dropWhile_stop {p : UInt8 → Bool} (a : CStr) (c : UInt8) (r : CStr) (h1 : ∀ x ∈ a, p x = true) (h2 : p c = false) : (a ++ c :: r).dropWhile p = c :: r := by
  rw [List.dropWhile_append_of_pos h1, List.dropWhile_cons_of_neg (by simp [h2])]

theorem addsAddr_ok (iface a : CStr) : AddsAddr iface a (addrCalls iface a) := by
  unfold addrCalls
  refine ⟨fun h => if_pos h, fun h1 h2 => ?_, fun host len n h1 h2 h3 h4 h5 => ?_⟩
  · rw [if_neg h1]
    obtain ⟨e1, e2⟩ := takeWhile_none (p := fun c => decide (c ≠ c!"/")) (s := a) (fun c hc => by rw [decide_eq_true_eq]; rintro rfl; exact h2 hc)
    rw [e1, e2]
    dsimp only
    rw [show decimal 32 = b!"32" by decide +kernel]
    simp
  · rw [if_neg h1, h2]
    have e0 : host ++ b!"/" ++ len = host ++ c!"/" :: len := by simp
    have hh : ∀ c ∈ host, (fun c => decide (c ≠ c!"/")) c = true := fun c hc => by rw [decide_eq_true_eq]; rintro rfl; exact h3 hc
    have e1 := (takeWhile_stop (p := fun c => decide (c ≠ c!"/")) host c!"/" len hh (by decide)).1
    have e2 := dropWhile_stop (p := fun c => decide (c ≠ c!"/")) host c!"/" len hh (by decide)
    rw [e0, e1, e2]
    dsimp only
    rw [atoi_decimal h4 (by omega), Nat.mod_eq_of_lt h5]

theorem setAddr_did {iface addrs : CStr} {u : Unit} (hb : setAddr iface addrs e h = (.ok u, h')) :
    ∃ t, h' = h ++ t ∧ Did true t (((strtok listSeps addrs).filter unquoted).flatMap (addrCalls iface)) :=
  forEach_did (fun _ _ _ _ hx => addAddr_did hx) hb

/-! ### Configuration, port, rules -/

theorem setConfig_did {iface config : CStr} {u : Unit} (hb : setConfig iface config e h = (.ok u, h')) :
    ∃ t, h' = h ++ t ∧ Did true t [.write (b!"wg setconf " ++ iface ++ b!" /proc/self/fd/0") config] := by
  obtain ⟨r, h1, b1, b2⟩ := bind_ok hb
  obtain ⟨c1, c2, c3⟩ := call_ok b1
  by_cases hf : r.failed ≠ 0
  · rw [if_pos hf] at b2; exact (exit_ok b2).elim
  · rw [if_neg hf] at b2
    refine ⟨[(_, r)], ?_, rfl, ?_⟩
    · rw [← c2]
      cases hs : r.status with
      | exited n =>
        rw [hs] at b2
        cases n with
        | zero => exact (pure_ok b2).2.symm
        | succ n => exact (exit_ok b2).elim
      | error => rw [hs] at b2; exact (exit_ok b2).elim
      | signaled => rw [hs] at b2; exact (exit_ok b2).elim
    · intro ev hev
      rw [List.mem_singleton] at hev
      subst hev
      refine ⟨c3, Classical.not_not.1 hf, ?_⟩
      cases hs : r.status with
      | exited n =>
        rw [hs] at b2
        cases n with
        | zero => rfl
        | succ n => exact (exit_ok b2).elim
      | error => rw [hs] at b2; exact (exit_ok b2).elim
      | signaled => rw [hs] at b2; exact (exit_ok b2).elim

theorem wg_not_ndc (s : CStr) : ¬ b!"ndc " <+: b!"wg show " ++ s := by
  rw [← List.isPrefixOf_iff_prefix]; simp [List.isPrefixOf]

theorem ip_not_ndc (s : CStr) : ¬ b!"ndc " <+: b!"ip " ++ s := by
  rw [← List.isPrefixOf_iff_prefix]; simp [List.isPrefixOf]

/-- The port in the first line. -/
def portOf (v : Option CStr) : Nat := match v with
    | none => 0
    | some v => let n := (strtoul (2 ^ 64 - 1) 10 v).1; if n > 65535 then 0 else n

theorem portShown_ok (out : List UInt8) : PortShown out (portOf ((getlines out).map cstr).head?) := by
  intro n hn hl
  rw [linesOf_eq, hl]
  obtain ⟨g1, g2, g3⟩ := decimal_isDecimal n
  simp only [portOf, List.head?_cons]
  rcases hd : decimal n with _ | ⟨d, t⟩
  · exact absurd hd g1
  · have hdig := g2 d (by rw [hd]; simp)
    rw [List.cons_append, strtoul10 _ _ _ hdig]
    have : (d :: (t ++ b!"\n")).takeWhile (isDigitOf 10) = d :: t := by
      have := (takeWhile_stop (p := isDigitOf 10) (d :: t) 10 [] (fun c hc => by rw [isDigitOf10]; exact g2 c (by rw [hd]; exact hc)) (by decide)).1
      simpa using this
    rw [this, ← hd, digitsVal10 _ g2, ← g3]
    dsimp only
    have : (if n > 2 ^ 64 - 1 then 2 ^ 64 - 1 else n) = n := if_neg (by omega)
    rw [this, if_neg (by omega)]

theorem listenPort_did {iface : CStr} {port : Nat} (hb : listenPort iface e h = (.ok port, h')) :
    ∃ t r, h' = h ++ t ∧ (Call.read (b!"wg show " ++ iface ++ b!" listen-port"), r) ∈ t ∧ PortShown r.out port ∧
      Did true t [.system (b!"ip link set up dev " ++ iface), .read (b!"wg show " ++ iface ++ b!" listen-port"), .system (b!"ip link set down dev " ++ iface)] := by
  obtain ⟨_, h1, b1, hb⟩ := bind_ok hb
  obtain ⟨v, h2, b2, hb⟩ := bind_ok hb
  obtain ⟨_, h3, b3, hb⟩ := bind_ok hb
  obtain ⟨c1, c2⟩ := pure_ok hb
  obtain ⟨t1, e1, d1⟩ := cmd_did b1
  obtain ⟨r, e2, d2, hv, _⟩ := firstLine_did (strict := true) (by rw [List.append_assoc]; exact wg_not_ndc _) b2
  obtain ⟨t3, e3, d3⟩ := cmd_did b3
  subst c2 e3 e2 e1
  refine ⟨t1 ++ [(_, r)] ++ t3, r, by simp, by simp, ?_, (d1.append d2).append d3⟩
  rw [← c1]
  subst hv
  exact portShown_ok r.out

theorem afterKey_iff (l v : CStr) : (match l.dropWhile (· ≠ 9) with | [] => none | _ :: s => some s) = some v ↔ AfterKey l v := by
  have e := List.takeWhile_append_dropWhile (p := fun c : UInt8 => decide (c ≠ 9)) (l := l)
  have hk : (9 : UInt8) ∉ l.takeWhile (fun c => decide (c ≠ 9)) := fun hm => by simpa using List.mem_takeWhile_imp hm
  constructor
  · intro h
    cases hd : l.dropWhile (fun c => decide (c ≠ 9)) with
    | nil => rw [hd] at h; cases h
    | cons c s =>
      rw [hd] at h e
      injection h with h
      subst h
      have hc : c = 9 := by
        have := List.head_dropWhile_not (p := fun c : UInt8 => decide (c ≠ 9)) (l := l) (by rw [hd]; simp)
        simp only [hd, List.head_cons] at this
        simpa using this
      subst hc
      exact ⟨_, e.symm, hk⟩
  · rintro ⟨key, rfl, hk2⟩
    rw [dropWhile_stop (p := fun c : UInt8 => decide (c ≠ 9)) key 9 v (fun c hc => by rw [decide_eq_true_eq]; rintro rfl; exact hk2 hc) (by decide)]

/-- What follows the keys. -/
def afterKeys (ls : List CStr) : List CStr := ls.filterMap fun l => match l.dropWhile (· ≠ 9) with | [] => none | _ :: s => some s

theorem afterKeys_ok (ls : List CStr) : Collected AfterKey ls (afterKeys ls) := collected_mem ls fun l _ v => afterKey_iff l v

theorem endpointSeen_fold (ls : List CStr) (acc : Bool × Bool) : ls.foldl endpointSeen acc =
    (acc.1 || (afterKeys ls).any (fun v => v.head? = some c!"["), acc.2 && (afterKeys ls).all (fun v => v.head? = some c!"(")) := by
  induction ls generalizing acc with
  | nil => simp [afterKeys]
  | cons l ls ih =>
    rw [List.foldl_cons, ih]
    unfold endpointSeen afterKeys
    cases hd : l.dropWhile (fun c => decide (c ≠ 9)) with
    | nil => rw [List.filterMap_cons_none (by rw [hd])]
    | cons c s => rw [List.filterMap_cons_some (by rw [hd])]; simp [Bool.or_assoc, Bool.and_assoc]

theorem head_prefix (v : CStr) (c : UInt8) : (v.head? = some c) ↔ [c] <+: v := by
  cases v with
  | nil => simp
  | cons d v => simp [List.cons_prefix_cons, eq_comm]

theorem block_iff (ls : List CStr) : ((let acc := ls.foldl endpointSeen (false, true); !acc.1 && !acc.2) = true) ↔
    (∀ v ∈ afterKeys ls, ¬ b!"[" <+: v) ∧ ∃ v ∈ afterKeys ls, ¬ b!"(" <+: v := by
  rw [endpointSeen_fold]
  simp only [Bool.false_or, Bool.true_and, Bool.and_eq_true, Bool.not_eq_true', List.any_eq_false, List.all_eq_false, decide_eq_true_eq, head_prefix]

theorem upIf_did {iface : CStr} {port netid : Nat} (hup : upIf iface port e h = (.ok netid, h')) :
    ∃ t1 tr t2, h' = h ++ t1 ++ tr ++ t2 ∧ pickNetid e.patience e.random = some netid ∧ PortRules iface port tr ∧ (∀ ev ∈ tr, Went true ev) ∧
      Did true t1 [.system (b!"wg set " ++ iface ++ b!" fwmark 0x20000"), .system (b!"iptables -I OUTPUT 1 -m mark --mark 0x20000 -j ACCEPT" ++ ruleComment iface),
        .system (b!"ip6tables -I OUTPUT 1 -m mark --mark 0x20000 -j ACCEPT" ++ ruleComment iface)] ∧
      Did true t2 [.system (b!"ip link set up dev " ++ iface), ndc (b!"network create " ++ decimal netid ++ (if e.sdk < 31 then b!" vpn 1 1" else b!" vpn 1")),
        ndc (b!"network interface add " ++ decimal netid ++ b!" " ++ iface)] := by
  unfold upIf at hup
  obtain ⟨env, hh, he, hup⟩ := bind_ok hup
  obtain ⟨rfl, rfl⟩ : e = env ∧ h = hh := by simpa [getEnv] using he
  rcases hn : pickNetid e.patience e.random with _ | n
  · rw [hn] at hup; simp at hup
  rw [hn] at hup
  dsimp only at hup
  obtain ⟨_, k1, f1, hup⟩ := bind_ok hup
  obtain ⟨_, k2, f2, hup⟩ := bind_ok hup
  obtain ⟨_, k3, f3, hup⟩ := bind_ok hup
  obtain ⟨_, k4, f4, hup⟩ := bind_ok hup
  obtain ⟨_, k5, f5, hup⟩ := bind_ok hup
  obtain ⟨_, k6, f6, hup⟩ := bind_ok hup
  obtain ⟨_, k7, f7, hup⟩ := bind_ok hup
  obtain ⟨f8, f9⟩ := pure_ok hup
  subst f8
  rw [showDec_eq] at f6 f7
  obtain ⟨t1, g1, d1⟩ := cmd_did f1
  obtain ⟨t2, g2, d2⟩ := cmd_did f2
  obtain ⟨t3, g3, d3⟩ := cmd_did f3
  obtain ⟨t5, g5, d5⟩ := cmd_did f5
  obtain ⟨t6, g6, d6⟩ := cndc_did (strict := true) f6
  obtain ⟨t7, g7, d7⟩ := cndc_did (strict := true) f7
  have hport : ∃ tr, k4 = k3 ++ tr ∧ PortRules iface port tr ∧ ∀ ev ∈ tr, Went true ev := by
    by_cases hp : port ≠ 0
    · rw [if_pos hp] at f4
      obtain ⟨_, j1, i1, f4⟩ := bind_ok f4
      obtain ⟨block, j2, i2, f4⟩ := bind_ok f4
      obtain ⟨r, j3, i3, i4⟩ := bind_ok i2
      obtain ⟨_, j4, i5, i6⟩ := bind_ok i4
      obtain ⟨i7, i8⟩ := pure_ok i6
      rw [showDec_eq] at i1 f4
      obtain ⟨s1, c1, m1⟩ := cmd_did i1
      obtain ⟨c2, m2⟩ := popen_did (strict := true) (by rw [List.append_assoc]; exact wg_not_ndc _) i3
      obtain ⟨c3, _⟩ := atEof_ok i5
      obtain ⟨s4, c4, m4⟩ := cmd_did f4
      subst c3 i8 c4 c2 c1
      have hall := (m1.append m2).append m4
      refine ⟨s1 ++ [(_, r)] ++ s4, by simp, ⟨fun h => absurd h hp, fun _ => ⟨r, afterKeys (linesOf r.out), block, by simp, afterKeys_ok _, ?_, hall.1⟩⟩, hall.2⟩
      rw [← i7, linesOf_eq]
      exact block_iff _
    · rw [if_neg hp] at f4
      obtain ⟨_, d1⟩ := pure_ok f4
      exact ⟨[], by simp [d1], ⟨fun _ => rfl, fun h => absurd h hp⟩, by simp⟩
  obtain ⟨tr, g4, hr1, hr2⟩ := hport
  subst f9 g7 g6 g5 g4 g3 g2 g1
  exact ⟨t1 ++ t2 ++ t3, tr, t5 ++ t6 ++ t7, by simp, rfl, hr1, hr2, (d1.append d2).append d3, (d5.append d6).append d7⟩

/-! ### Routes -/

theorem setRoutes_did {iface : CStr} {netid : Nat} {u : Unit} (hb : setRoutes iface netid e h = (.ok u, h')) :
    ∃ r t routes, h' = h ++ (.read (b!"wg show " ++ iface ++ b!" allowed-ips"), r) :: t ∧ AllowedShown r.out routes ∧
      Did true ((.read (b!"wg show " ++ iface ++ b!" allowed-ips"), r) :: t) (.read (b!"wg show " ++ iface ++ b!" allowed-ips") ::
        routes.map fun a => ndc (b!"network route add " ++ decimal netid ++ b!" " ++ iface ++ b!" " ++ a)) := by
  obtain ⟨r, t, h1, _, h2⟩ := forLines_did (strict := true)
    (g := fun l => (routesIn l).map fun a => ndc (b!"network route add " ++ decimal netid ++ b!" " ++ iface ++ b!" " ++ a))
    (by rw [List.append_assoc]; exact wg_not_ndc _)
    (fun l h h' u hl => by
      obtain ⟨t, h1, h2⟩ := forEach_did (strict := true) (g := fun a => [ndc (b!"network route add " ++ decimal netid ++ b!" " ++ iface ++ b!" " ++ a)])
        (fun a h h' u ha => by unfold addRoute at ha; rw [showDec_eq] at ha; exact cndc_did ha) hl
      rw [flatMap_one] at h2
      exact ⟨t, h1, h2⟩) hb
  refine ⟨r, t, (linesOf r.out).flatMap routesIn, h1, ?_, ?_⟩
  · refine ⟨afterKeys (linesOf r.out), (afterKeys (linesOf r.out)).map (strtok shownSep), afterKeys_ok _, ?_, ?_⟩
    · generalize afterKeys (linesOf r.out) = vs
      induction vs with
      | nil => exact .nil
      | cons v vs ih => exact .cons (strtok_words _ _) ih
    · have : (linesOf r.out).flatMap routesIn = (((afterKeys (linesOf r.out)).map (strtok shownSep)).flatten).filter (fun w => decide (w ≠ b!"(none)")) := by
        generalize linesOf r.out = ls
        induction ls with
        | nil => rfl
        | cons l ls ih =>
          rw [List.flatMap_cons, ih]
          unfold routesIn afterKeys
          cases hd : l.dropWhile (fun c => decide (c ≠ 9)) with
          | nil => rw [List.filterMap_cons_none (by rw [hd])]; rfl
          | cons c s => rw [List.filterMap_cons_some (by rw [hd])]; simp [blankSeps_eq]
      rw [this]
      exact collected_filter _ (fun w => by simp) _
  · rw [linesOf_eq] at h2
    rw [List.map_flatMap]
    exact h2

end

end WG.Android
