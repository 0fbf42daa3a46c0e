import Verif.Proof.AndroidDel
import Verif.Props.AndroidUsers
/-!
C86: taking an interface down on Android removes the interface, its rules and its network, and nothing else.
-/
namespace WG.Android
open WG.Spec WG.Spec.Android WG.Spec.Quick
open WG.Quick (words_unique)

theorem words_cons {sep : UInt8 → Bool} {c : UInt8} {t : CStr} {ws : List CStr} (h : sep c = true) (hw : Words sep t ws) : Words sep (c :: t) ws := by
  cases hw with
  | nil hg => exact .nil (by simpa [h] using hg)
  | cons hg h1 h2 h3 h4 =>
    rename_i g w rest ws
    have := Words.cons (sep := sep) (g := c :: g) (by simpa [h] using hg) h1 h2 h3 h4
    simpa using this

theorem strtokAux_words (sep : UInt8 → Bool) (s cur : CStr) (hcur : ∀ c ∈ cur, sep c = false) : Words sep (cur ++ s) (strtokAux sep cur s) := by
  induction s generalizing cur with
  | nil =>
    simp only [List.append_nil, strtokAux]
    by_cases e : cur = []
    · rw [if_pos e, e]; exact .nil (by simp)
    · rw [if_neg e]
      have := Words.cons (sep := sep) (g := []) (w := cur) (rest := []) (ws := []) (by simp) e hcur (by simp) (.nil (by simp))
      simpa using this
  | cons c t ih =>
    simp only [strtokAux]
    by_cases h : sep c = true
    · rw [if_pos h]
      have hr := words_cons h (ih [] (by simp))
      by_cases e : cur = []
      · rw [if_pos e, e]; exact hr
      · rw [if_neg e]
        have := Words.cons (sep := sep) (g := []) (w := cur) (rest := c :: t) (by simp) e hcur (by simp [h]) hr
        simpa using this
    · rw [if_neg h]
      have := ih (cur ++ [c]) (by
        intro d hd
        rw [List.mem_append, List.mem_singleton] at hd
        rcases hd with hd | rfl
        · exact hcur d hd
        · exact Bool.eq_false_iff.2 h)
      simpa using this

theorem strtok_words (sep : UInt8 → Bool) (s : CStr) : Words sep s (strtok sep s) := by simpa [strtok] using strtokAux_words sep s [] (by simp)

theorem blankSeps_eq : blankSeps = shownSep := by
  funext c; revert c; apply forall_u8; decide +kernel

theorem shown_iff {out : List UInt8} {name : CStr} : name ∈ strtok blankSeps ((((getlines out).map cstr).head?).getD []) ↔ ShownInterface name out := by
  rw [lines_eq, blankSeps_eq]
  unfold ShownInterface
  cases hl : fileLines out with
  | nil => simp [strtok, strtokAux]
  | cons l rest =>
    simp only [List.map_cons, List.head?_cons, Option.getD_some, List.cons.injEq]
    constructor
    · intro h; exact ⟨l, rest, _, ⟨rfl, rfl⟩, strtok_words _ _, h⟩
    · rintro ⟨l', rest', ws, ⟨rfl, rfl⟩, h1, h2⟩
      rw [words_unique (strtok_words shownSep (beforeNul l)) h1]; exact h2

theorem cmdsOf_eq {strict : Bool} {t : List Ev} {l : List Call} (h : Did strict t l) : cmdsOf t = l.filterMap fun c => cmdOf (c, {}) := by
  rw [← h.1, List.filterMap_map]
  unfold cmdsOf
  congr 1
  funext ev
  rcases ev with ⟨c, r⟩
  cases c <;> rfl

theorem filterMap_all {α β : Type} {f : α → Option β} {g : α → β} {l : List α} (h : ∀ x ∈ l, f x = some (g x)) : l.filterMap f = l.map g := by
  induction l with
  | nil => rfl
  | cons x l ih => rw [List.filterMap_cons_some (h x (by simp)), ih fun y hy => h y (by simp [hy]), List.map_cons]

theorem removal_cmds {strict : Bool} {t : List Ev} {iface : CStr} {r4 r6 : List CStr} {net : Option Nat} (h : Did strict t (removalCalls iface r4 r6 net)) :
    cmdsOf t = removal iface r4 r6 net := by
  rw [cmdsOf_eq h]
  unfold removalCalls removal
  simp only [List.filterMap_append, List.filterMap_cons, cmdOf, List.filterMap_nil]
  cases net <;> simp

theorem broadcast_did {e : Env} {h h' : List Ev} {u : Unit} (hb : broadcast e h = (.ok u, h')) : ∃ t, h' = h ++ t ∧ Did true t ((news e.caller).map Call.system) := by
  unfold broadcast at hb
  obtain ⟨env, hh, he, hb⟩ := bind_ok hb
  obtain ⟨rfl, rfl⟩ : e = env ∧ h = hh := by simpa [getEnv] using he
  unfold news
  by_cases hc : e.caller = some b!"com.wireguard.android"
  · rw [if_pos hc] at hb ⊢
    obtain ⟨_, hb⟩ := pure_ok hb
    exact ⟨[], by simp [hb], .nil⟩
  · rw [if_neg hc] at hb ⊢
    exact cmd_did hb

/-- What a command did: it ran and exited with 0, its output could be read, `ndc` reported no error. -/
def Succeeded (hist : List Ev) : Prop := ∀ ev ∈ hist, Went true ev

theorem bind_exit {α β : Type} {m : Sh α} {f : α → Sh β} {e : Env} {h h' : List Ev} {n : Nat} (hb : m.bind f e h = (.exit n, h')) :
    m e h = (.exit n, h') ∨ ∃ a h1, m e h = (.ok a, h1) ∧ f a e h1 = (.exit n, h') := by
  simp only [Sh.bind] at hb
  rcases hr : m e h with ⟨o, h1⟩
  rw [hr] at hb
  cases o with
  | ok a => exact .inr ⟨a, h1, rfl, hb⟩
  | exit m =>
    simp only [Prod.mk.injEq, Out.exit.injEq] at hb
    obtain ⟨rfl, rfl⟩ := hb
    exact .inl rfl
  | _ => simp at hb

theorem bind_zero {α β : Type} {m : Sh α} {f : α → Sh β} {e : Env} {h h' : List Ev} (hm : NonZero e m) (hb : m.bind f e h = (.exit 0, h')) :
    ∃ a h1, m e h = (.ok a, h1) ∧ f a e h1 = (.exit 0, h') := by
  rcases bind_exit hb with h1 | h1
  · exact absurd (by rw [h1]) (hm h)
  · exact h1

/-- `cmd_ret` called once runs its command. -/
theorem firstLine_hist (e : Env) (s : CStr) (h : List Ev) : (firstLine s e h).2 = h ++ [(.read s, e.reply h (.read s))] := by
  unfold firstLine popen
  simp only [Sh.bind, call]
  by_cases hk : (e.reply h (.read s)).killed
  · rw [if_pos hk]
  · rw [if_neg hk]
    dsimp only
    by_cases hf : (e.reply h (.read s)).failed ≠ 0
    · rw [if_pos hf]; rfl
    · rw [if_neg hf]
      simp only [Sh.pure]
      cases (getlines (e.reply h (.read s)).out).map cstr with
      | nil =>
        simp only [Sh.bind, atEof]
        by_cases hr : (e.reply h (.read s)).readErr ≠ 0
        · rw [if_pos hr]; rfl
        · rw [if_neg hr]; rfl
      | cons l ls => rfl

/-- The history grows. -/
def Grows {α : Type} (e : Env) (m : Sh α) : Prop := Safe e (fun _ => True) (fun _ => True) m

theorem Grows.delIf {e : Env} {x : Bool} {iface : CStr} : Grows e (delIf x iface) := by
  have hc : ∀ x s, Grows e (cmd x s) := fun x s => Safe.cmd fun _ => trivial
  have hd : ∀ items t, Grows e (dropRules x items t) := fun items t =>
    Safe.forLines (K := fun _ _ => True) (fun _ _ => trivial) (fun _ _ => trivial) fun r _ l _ => by
      cases ruleArgs items l with
      | none => exact Safe.pure trivial
      | some a => exact hc _ _
  unfold Android.delIf
  cases itemsOf { byte := some 32 } iface with
  | none => exact Safe.exit
  | some items =>
    refine Safe.bind (hc _ _) fun _ _ => Safe.bind (hd _ _) fun _ _ => Safe.bind (hd _ _) fun _ _ => Safe.bind (Q := fun _ => True) ?_ fun n _ => ?_
    · refine Safe.bind (Q := fun _ => True) (Safe.mono (Safe.popen (K := fun _ _ => True) (fun _ _ => trivial) fun _ _ => trivial) (fun _ h => h) fun _ _ => trivial) fun r _ => ?_
      cases ((getlines r.out).map cstr).findSome? (ruleNetid items) with
      | none => exact Safe.bind Safe.atEof fun _ _ => Safe.pure trivial
      | some n => exact Safe.pure trivial
    · cases n with
      | none => exact Safe.pure trivial
      | some n => exact Safe.cndc fun _ => trivial

theorem Grows.broadcast {e : Env} : Grows e broadcast := by
  refine Safe.bind (Q := fun _ => True) (Safe.getEnv trivial) fun e' _ => ?_
  by_cases h : e'.caller = some b!"com.wireguard.android"
  · rw [if_pos h]; exact Safe.pure trivial
  · rw [if_neg h]; exact Safe.cmd fun _ => trivial

theorem NonZero.broadcast {e : Env} : NonZero e broadcast := .withEnv (.ite (fun _ => .pure) fun _ => .cmd)

section
variable {e : Env} {iface : CStr} {hist : List Ev}

/-- When `down` ends with 0, `wg show interfaces` listed the interface, and exactly these commands were run, all with success: the interface is
deleted, then each rule with its comment that `iptables-save` and `ip6tables-save` showed, then the network that `ip rule show` showed, and the
application is told. -/
theorem c86_down (hn : PlainName iface) (hr : cmdDown iface e [] = (.exit 0, hist)) :
    ∃ o o4 o6 os r4 r6 net, (Call.read b!"wg show interfaces", o) ∈ hist ∧ ShownInterface iface o.out ∧
      (Call.read b!"iptables-save", o4) ∈ hist ∧ OwnRules iface o4.out r4 ∧ (Call.read b!"ip6tables-save", o6) ∈ hist ∧ OwnRules iface o6.out r6 ∧
      (Call.read b!"ip rule show", os) ∈ hist ∧ (NoLonger iface os.out → NetworkShown iface os.out net) ∧
      cmdsOf hist = b!"wg show interfaces" :: removal iface r4 r6 (net.map (min · (2 ^ 64 - 1))) ++ news e.caller ∧ Succeeded hist := by
  unfold cmdDown at hr
  obtain ⟨l, h1, hl, hr⟩ := bind_zero .firstLine hr
  obtain ⟨o, e1, d1, hh, _⟩ := firstLine_did (strict := true) (by decide) hl
  by_cases hm : iface ∈ strtok blankSeps (l.getD [])
  · rw [if_pos hm] at hr
    obtain ⟨_, h2, hd, hr⟩ := bind_zero .delIf hr
    obtain ⟨_, h3, hb, hr⟩ := bind_zero .broadcast hr
    obtain ⟨t, o4, o6, os, r4, r6, net, e2, m4, m6, ms, k4, k6, kn, d2⟩ := delIf_did hn hd
    obtain ⟨t3, e3, d3⟩ := broadcast_did hb
    obtain rfl : h3 = hist := by simpa [exitWith] using hr
    subst e3 e2 e1
    refine ⟨o, o4, o6, os, r4, r6, net, by simp, ?_, by simp [m4], k4, by simp [m6], k6, by simp [ms], kn, ?_, ?_⟩
    · rw [← shown_iff, hh]; exact hm
    · have h3 : cmdsOf t3 = news e.caller := by
        rw [cmdsOf_eq d3, List.filterMap_map, filterMap_all (f := (fun c => cmdOf (c, {})) ∘ Call.system) (g := id) (fun x _ => rfl), List.map_id]
      have h2 := removal_cmds d2
      have : cmdsOf ([] ++ [(Call.read b!"wg show interfaces", o)] ++ t ++ t3) = b!"wg show interfaces" :: cmdsOf t ++ cmdsOf t3 := by
        simp [cmdsOf, List.filterMap_append, cmdOf]
      rw [this, h2, h3]
    · intro ev hev
      exact ((d1.append d2).append d3).2 ev (by simpa using hev)
  · rw [if_neg hm] at hr; simp [exitWith] at hr

/-- If the interface is not listed, nothing but the question is run, and the program ends with an error. -/
theorem c86_not_wg {n : Nat} (hr : cmdDown iface e [] = (.exit n, hist)) (hno : ∀ o, (Call.read b!"wg show interfaces", o) ∈ hist → ¬ ShownInterface iface o.out) :
    n ≠ 0 ∧ cmdsOf hist = [b!"wg show interfaces"] := by
  unfold cmdDown at hr
  rcases bind_exit hr with hl | ⟨l, h1, hl, hr⟩
  · have hh := firstLine_hist e b!"wg show interfaces" []
    rw [hl] at hh
    dsimp only at hh
    refine ⟨fun h => (NonZero.firstLine (e := e) (s := b!"wg show interfaces")) [] (by rw [hl, h]), by rw [hh]; rfl⟩
  · obtain ⟨o, e1, d1, hh, _⟩ := firstLine_did (strict := true) (by decide) hl
    by_cases hm : iface ∈ strtok blankSeps (l.getD [])
    · exfalso
      rw [if_pos hm] at hr
      have hg : Grows e ((delIf false iface).bind fun _ => broadcast.bind fun _ => exitWith (α := Unit) 0) :=
        Safe.bind Grows.delIf fun _ _ => Safe.bind Grows.broadcast fun _ _ => Safe.exit
      obtain ⟨t, ht, _⟩ := hg h1
      rw [hr] at ht
      dsimp only at ht
      refine hno o (by rw [ht, e1]; simp) ?_
      rw [← shown_iff, hh]; exact hm
    · rw [if_neg hm] at hr
      obtain ⟨rfl, rfl⟩ : 124 = n ∧ h1 = hist := by simpa [exitWith] using hr
      rw [e1]
      exact ⟨by decide, rfl⟩
end

/-! ### Examples and defects -/

/-- A system with the interface `wg0`, whose network is 0x1388, with a rule of `wg0` and one of `wg00`. -/
def shows (names : CStr) (save rules : List UInt8) (h : List Ev) : Call → Reply
  | .read s => if s = b!"wg show interfaces" then { out := names } else if s = b!"iptables-save" then { out := save } else if s = b!"ip rule show" then { out := rules }
    else fine h (.read s)
  | c => fine h c

def downEnv (names : CStr) (save rules : List UInt8) : Env := { reply := shows names save rules }

def tables : List UInt8 := b!"*filter\n:INPUT ACCEPT [0:0]\n-A INPUT -p udp -m udp --dport 51820 -m comment --comment \"wireguard rule wg0\" -j ACCEPT\n-A OUTPUT -m comment --comment \"wireguard rule wg00\" -j ACCEPT\nCOMMIT\n"

/-- The hypotheses are met. -/
example : (cmdDown b!"wg0" (downEnv b!"wg00 wg0\n" tables b!"13000: from all fwmark 0xc1388/0xcffff lookup wg0 \n") []).1 = .exit 0 ∧
    cmdsOf (cmdDown b!"wg0" (downEnv b!"wg00 wg0\n" tables b!"13000: from all fwmark 0xc1388/0xcffff lookup wg0 \n") []).2 =
      [b!"wg show interfaces", b!"ip link del wg0", b!"iptables-save",
       b!"iptables -D INPUT -p udp -m udp --dport 51820 -m comment --comment \"wireguard rule wg0\" -j ACCEPT", b!"ip6tables-save", b!"ip rule show",
       b!"ndc network destroy 5000", b!"am broadcast -a com.wireguard.android.action.REFRESH_TUNNEL_STATES com.wireguard.android"] := by decide +kernel

example : PlainName b!"wg0" := ⟨⟨by decide, by decide, by decide +kernel⟩, by decide, by decide⟩

example : (cmdDown b!"wg1" (downEnv b!"wg00 wg0\n" tables []) []).1 = .exit 124 ∧
    cmdsOf (cmdDown b!"wg1" (downEnv b!"wg00 wg0\n" tables []) []).2 = [b!"wg show interfaces"] := by decide +kernel

/-- `lookup wg1` is found in a rule of `wg10`: if that comes first, the network of the other interface is destroyed, and that of `wg1` stays. -/
theorem c86_counterexample_longer :
    let e := downEnv b!"wg1 wg10\n" [] b!"13000: from all fwmark 0xc1770/0xcffff lookup wg10 \n13000: from all fwmark 0xc1388/0xcffff lookup wg1 \n"
    (cmdDown b!"wg1" e []).1 = .exit 0 ∧ b!"ndc network destroy 6000" ∈ cmdsOf (cmdDown b!"wg1" e []).2 ∧ b!"ndc network destroy 5000" ∉ cmdsOf (cmdDown b!"wg1" e []).2 := by
  decide +kernel

/-- `.` in a name stands for any byte: the rules of another interface are deleted. -/
theorem c86_counterexample_dot :
    let e := downEnv b!"a.b a-b\n" b!"-A OUTPUT -m comment --comment \"wireguard rule a-b\" -j ACCEPT\n" []
    (cmdDown b!"a.b" e []).1 = .exit 0 ∧ b!"iptables -D OUTPUT -m comment --comment \"wireguard rule a-b\" -j ACCEPT" ∈ cmdsOf (cmdDown b!"a.b" e []).2 := by
  decide +kernel

/-- `+` in a name stands for a repetition: the rules of the interface stay, with success. -/
theorem c86_counterexample_plus :
    let e := downEnv b!"wg+\n" b!"-A OUTPUT -m comment --comment \"wireguard rule wg+\" -j ACCEPT\n" []
    (cmdDown b!"wg+" e []).1 = .exit 0 ∧
      cmdsOf (cmdDown b!"wg+" e []).2 = b!"wg show interfaces" :: removal b!"wg+" [] [] none ++ news none := by
  decide +kernel

/-- `++` in a name is no regular expression: the interface cannot be taken down. -/
theorem c86_counterexample_refused (e : Env) (h : List Ev) : delIf false b!"wg++" e h = (.exit 53, h) := rfl

end WG.Android
