import Verif.Proof.AndroidDns
/-!
C87: bringing an interface up on Android is complete, or undone.
-/
namespace WG.Android
open WG.Spec WG.Spec.Android WG.Spec.Quick
open WG.Quick (mtuIn mtuIn_iff)

theorem setUsers_did {netid : Nat} {ex inc : Option CStr} {e : Env} {h h' : List Ev} {u : Unit} (hb : setUsers netid ex inc e h = (.ok u, h')) :
    ∃ t, h' = h ++ t ∧ (∀ ev ∈ t, ∃ s, ev.1 = ndc (b!"network users add " ++ decimal netid ++ b!" " ++ s)) ∧ ∀ ev ∈ t, Went true ev := by
  unfold setUsers at hb
  by_cases hx : ex.isSome ∧ inc.isSome
  · rw [if_pos hx] at hb; exact (exit_ok hb).elim
  rw [if_neg hx] at hb
  obtain ⟨env, hh, he, hb⟩ := bind_ok hb
  obtain ⟨rfl, rfl⟩ : e = env ∧ h = hh := by simpa [getEnv] using he
  generalize getUidList e.packages e.residue e.sort _ = g at hb
  cases g with
  | exit n => exact (exit_ok hb).elim
  | ub => simp [ubHere] at hb
  | ok uids =>
    rw [showDec_eq] at hb
    obtain ⟨t, h1, h2⟩ := forEach_did (strict := true) (g := fun l => [ndc (b!"network users add " ++ decimal netid ++ b!" " ++ joined l)]) (fun l h h' u hl => cndc_did hl) hb
    rw [flatMap_one] at h2
    refine ⟨t, h1, fun ev hev => ?_, h2.2⟩
    have : ev.1 ∈ t.map Prod.fst := List.mem_map_of_mem hev
    rw [h2.1] at this
    obtain ⟨l, _, hl⟩ := List.mem_map.1 this
    exact ⟨_, hl.symm⟩

theorem pickNetid_range : ∀ {fuel : Nat} {random : Nat → Nat} {n : Nat}, pickNetid fuel random = some n → 4096 ≤ n ∧ n < 65536
  | 0, _, _, h => by cases h
  | fuel + 1, random, n, h => by
    simp only [pickNetid] at h
    by_cases hc : random 0 &&& 0xfffe < 4096
    · rw [if_pos hc] at h; exact pickNetid_range h
    · rw [if_neg hc] at h
      injection h with h
      have : random 0 &&& 0xfffe ≤ 0xfffe := Nat.and_le_right
      omega

/-! ### The history grows -/

section
variable {α β : Type} {e : Env}
theorem Grows.pure {a : α} : Grows e (Sh.pure a) := Safe.pure trivial
theorem Grows.exit {n : Nat} : Grows e (exitWith n : Sh α) := Safe.exit
theorem Grows.bind {m : Sh α} {f : α → Sh β} (hm : Grows e m) (hf : ∀ a, Grows e (f a)) : Grows e (m.bind f) := Safe.bind hm fun a _ => hf a
theorem Grows.call {c : Call} : Grows e (call c) := Safe.call' fun _ => trivial
theorem Grows.cmd {x : Bool} {s : CStr} : Grows e (cmd x s) := Safe.cmd fun _ => trivial
theorem Grows.popen {s : CStr} : Grows e (popen s) := Safe.mono (Safe.popen (K := fun _ _ => True) (fun _ _ => trivial) fun _ _ => trivial) (fun _ h => h) fun _ _ => trivial
theorem Grows.atEof {r : Reply} : Grows e (atEof r) := Safe.atEof
theorem Grows.cndc {s : CStr} : Grows e (cndc s) := Safe.cndc fun _ => trivial
theorem Grows.firstLine {s : CStr} : Grows e (firstLine s) :=
  Safe.mono (Safe.firstLine (K := fun _ _ => True) (fun _ _ => trivial) fun _ _ => trivial) (fun _ h => h) fun _ _ => trivial
theorem Grows.forEach {γ : Type} {f : γ → Sh Unit} (hf : ∀ x, Grows e (f x)) (xs : List γ) : Grows e (forEach f xs) := Safe.forEach fun x _ => hf x
theorem Grows.forLines {s : CStr} {f : CStr → Sh Unit} (hf : ∀ x, Grows e (f x)) : Grows e (forLines s f) :=
  Safe.forLines (K := fun _ _ => True) (fun _ _ => trivial) (fun _ _ => trivial) fun _ _ l _ => hf l
theorem Grows.ite {p : Prop} [Decidable p] {a b : Sh α} (ha : Grows e a) (hb : Grows e b) : Grows e (if p then a else b) := by
  by_cases h : p
  · rw [if_pos h]; exact ha
  · rw [if_neg h]; exact hb
theorem Grows.withEnv {f : Env → Sh β} (hf : Grows e (f e)) : Grows e (getEnv.bind f) := hf

theorem Grows.routeMtu {x : CStr} : Grows e (routeMtu x) := by
  refine .bind .firstLine fun l => ?_
  split
  · exact .pure
  · split
    · exact .pure
    · split
      · exact .pure
      · refine .bind .firstLine fun l => ?_
        split
        · exact .pure
        · split <;> exact .pure

theorem Grows.mtuLoop {r : Reply} : ∀ (ls : List CStr) (m : Int), Grows e (mtuLoop r m ls)
  | [], m => .bind .atEof fun _ => .pure
  | l :: ls, m => by
    simp only [Android.mtuLoop]
    split
    · exact Grows.mtuLoop ls m
    · exact .bind .routeMtu fun _ => Grows.mtuLoop ls _

theorem Grows.upBody {c : Conf} : Grows e (upBody c) := by
  refine .bind .cmd fun _ => ?_
  split
  · exact Safe.segv
  refine .bind (.bind .call fun r => .ite .exit ?_) fun _ => .bind (.bind .cmd fun _ => .bind .firstLine fun _ => .bind .cmd fun _ => .pure) fun port => .bind ?_ fun netid => ?_
  · split
    · exact .pure
    · exact .exit
    · exact .exit
  · refine .withEnv ?_
    split
    · exact Safe.running
    refine .bind .cmd fun _ => .bind .cmd fun _ => .bind .cmd fun _ => .bind (.ite ?_ .pure) fun _ => .bind .cmd fun _ => .bind .cndc fun _ =>
      .bind .cndc fun _ => .pure
    exact .bind .cmd fun _ => .bind (.bind .popen fun _ => .bind .atEof fun _ => .pure) fun _ => .cmd
  split
  · exact Safe.segv
  refine .bind (.forEach (fun a => ?_) _) fun _ => ?_
  · exact .ite (.bind .cndc fun _ => .cmd) .cndc
  split
  · exact Safe.segv
  refine .bind ?_ fun _ => .bind (.forLines fun l => .forEach (fun a => .cndc) _) fun _ => .bind ?_ fun _ => .bind ?_ fun _ => .broadcast
  · refine .ite .pure (.ite ?_ .pure)
    split
    · exact Safe.ub
    · have hb : ∀ c, Grows e (binderCall c) := fun c => .bind .call fun _ => .ite .pure .exit
      exact .bind .call fun _ => .ite (.bind (hb _) fun _ => hb _) .cndc
  · exact .ite .cndc (.bind .routeMtu fun _ => .bind .popen fun _ => .bind (.mtuLoop _ _) fun _ => .cndc)
  · refine .ite .exit (.withEnv ?_)
    split
    · exact .exit
    · exact Safe.ub
    · exact .forEach (fun _ => .cndc) _
end

/-! ### Failure -/

/-- A command whose output could not be had, or an error of the network daemon. -/
def Trouble (ev : Ev) : Prop := ev.2.failed ≠ 0 ∨ ev.2.readErr ≠ 0 ∨ ∃ s, ev.1 = ndc s ∧ ¬ NdcFine ev.2

/-- `m` ends with `exit` only after trouble. -/
def Exits {α : Type} (e : Env) (m : Sh α) : Prop := ∀ h, ∃ t, (m e h).2 = h ++ t ∧ ∀ n, (m e h).1 = .exit n → ∃ ev ∈ t, Trouble ev

section
variable {α β : Type} {e : Env}

theorem Exits.pure {a : α} : Exits e (Sh.pure a) := fun _ => ⟨[], by simp [Sh.pure]⟩

theorem Exits.bind {m : Sh α} {f : α → Sh β} (hm : Exits e m) (hf : ∀ a, Exits e (f a)) : Exits e (m.bind f) := by
  intro h
  obtain ⟨t, h1, h2⟩ := hm h
  simp only [Sh.bind]
  rcases hr : m e h with ⟨o, h'⟩
  rw [hr] at h1 h2
  dsimp only at h1 h2
  subst h1
  cases o with
  | ok a =>
    obtain ⟨t2, g1, g2⟩ := hf a (h ++ t)
    refine ⟨t ++ t2, by simp [g1], fun n hn => ?_⟩
    obtain ⟨ev, g3, g4⟩ := g2 n hn
    exact ⟨ev, by simp [g3], g4⟩
  | exit n => exact ⟨t, rfl, fun m hm => h2 n rfl⟩
  | killed => exact ⟨t, rfl, by simp⟩
  | ub => exact ⟨t, rfl, by simp⟩
  | running => exact ⟨t, rfl, by simp⟩

theorem Exits.cmd {s : CStr} : Exits e (cmd true s) := by
  intro h
  simp only [Android.cmd, Sh.bind, call]
  by_cases hk : (e.reply h (.system s)).killed
  · rw [if_pos hk]; exact ⟨_, rfl, by simp⟩
  · rw [if_neg hk]
    dsimp only
    rw [if_neg (by simp)]
    exact ⟨_, rfl, by simp [Sh.pure]⟩

/-- A command that is read, and then `f` with its reply, and an error while reading. -/
theorem Exits.popen {s : CStr} {f : Reply → Sh β} (hf : ∀ r h, ∃ t, (f r e h).2 = h ++ t ∧ ∀ n, (f r e h).1 = .exit n → r.readErr ≠ 0 ∨ (∃ s', s = b!"ndc " ++ s' ∧ ¬ NdcFine r) ∨ ∃ ev ∈ t, Trouble ev) :
    Exits e ((popen s).bind f) := by
  intro h
  simp only [Android.popen, Sh.bind, call]
  by_cases hk : (e.reply h (.read s)).killed
  · rw [if_pos hk]; exact ⟨_, rfl, by simp⟩
  · rw [if_neg hk]
    dsimp only
    by_cases hx : (e.reply h (.read s)).failed ≠ 0
    · rw [if_pos hx]
      exact ⟨_, rfl, fun n _ => ⟨_, List.mem_singleton_self _, .inl hx⟩⟩
    · rw [if_neg hx]
      simp only [Sh.pure]
      obtain ⟨t, h1, h2⟩ := hf (e.reply h (.read s)) (h ++ [(.read s, e.reply h (.read s))])
      refine ⟨(.read s, e.reply h (.read s)) :: t, by rw [h1]; simp, fun n hn => ?_⟩
      rcases h2 n hn with h3 | ⟨s', rfl, h3⟩ | ⟨ev, h3, h4⟩
      · exact ⟨_, List.mem_cons_self, .inr (.inl h3)⟩
      · exact ⟨_, List.mem_cons_self, .inr (.inr ⟨s', rfl, h3⟩)⟩
      · exact ⟨ev, List.mem_cons_of_mem _ h3, h4⟩

theorem atEof_exit (r : Reply) (h : List Ev) : (atEof r e h).2 = h ∧ ∀ n, (atEof r e h).1 = .exit n → r.readErr ≠ 0 := by
  unfold atEof
  by_cases hr : r.readErr ≠ 0
  · rw [if_pos hr]; exact ⟨rfl, fun _ _ => hr⟩
  · rw [if_neg hr]; exact ⟨rfl, by simp [Sh.pure]⟩

theorem Exits.forEach {γ : Type} {f : γ → Sh Unit} (hf : ∀ x, Exits e (f x)) : ∀ xs, Exits e (forEach f xs)
  | [] => .pure
  | x :: xs => .bind (hf x) fun _ => Exits.forEach hf xs

theorem Exits.forLines {s : CStr} {f : CStr → Sh Unit} (hf : ∀ x, Exits e (f x)) : Exits e (forLines s f) := by
  refine Exits.popen fun r h => ?_
  obtain ⟨t, h1, h2⟩ := Exits.forEach hf ((getlines r.out).map cstr) h
  simp only [Sh.bind]
  rcases hr : Android.forEach f ((getlines r.out).map cstr) e h with ⟨o, h'⟩
  rw [hr] at h1 h2
  dsimp only at h1 h2
  cases o with
  | ok a =>
    obtain ⟨g1, g2⟩ := atEof_exit (e := e) r h'
    exact ⟨t, by dsimp only; rw [g1, h1], fun n hn => .inl (g2 n hn)⟩
  | exit n => exact ⟨t, h1, fun m hm => .inr (.inr (h2 n rfl))⟩
  | killed => exact ⟨t, h1, by simp⟩
  | ub => exact ⟨t, h1, by simp⟩
  | running => exact ⟨t, h1, by simp⟩

theorem Exits.cndc {s : CStr} : Exits e (cndc s) := by
  have hc : Android.cndc s = (Android.popen (b!"ndc " ++ s)).bind fun r => (match (getlines r.out).map cstr with
      | [] => (atEof r).bind fun _ => Sh.pure none
      | l :: _ => Sh.pure (some l)).bind fun l => match l with
        | none => exitWith 38
        | some l => if 400 ≤ atoi l ∧ atoi l < 600 then exitWith 64 else Sh.pure () := by
    funext e h
    simp only [Android.cndc, firstLine, Sh.bind]
    rcases Android.popen (b!"ndc " ++ s) e h with ⟨o, h'⟩
    cases o <;> rfl
  rw [hc]
  refine Exits.popen fun r h => ?_
  cases hl : (getlines r.out).map cstr with
  | nil =>
    have hno : ¬ NdcFine r := by rintro ⟨l, h1, _⟩; rw [hl] at h1; cases h1
    simp only [Sh.bind, atEof]
    by_cases hr : r.readErr ≠ 0
    · rw [if_pos hr]; exact ⟨[], by simp [exitWith], fun n _ => .inl hr⟩
    · rw [if_neg hr]; exact ⟨[], by simp [exitWith, Sh.pure], fun n _ => .inr (.inl ⟨s, rfl, hno⟩)⟩
  | cons l ls =>
    simp only [Sh.bind, Sh.pure]
    by_cases hx : 400 ≤ atoi l ∧ atoi l < 600
    · rw [if_pos hx]
      refine ⟨[], by simp [exitWith], fun n _ => .inr (.inl ⟨s, rfl, ?_⟩)⟩
      rintro ⟨l', h1, h2⟩
      rw [hl] at h1
      cases h1
      exact h2 hx
    · rw [if_neg hx]; exact ⟨[], by simp [Sh.pure], by simp [Sh.pure]⟩

theorem undo_exits {items : List Item} {iface : CStr} : Exits e ((cmd true (b!"ip link del " ++ iface)).bind fun _ => (dropRules true items b!"iptables").bind fun _ =>
    (dropRules true items b!"ip6tables").bind fun _ => (findNetid items).bind fun n => match n with
      | none => Sh.pure ()
      | some hex => cndc (b!"network destroy " ++ showDec (strtoul (2 ^ 64 - 1) 16 hex).1)) := by
  have hd : ∀ t, Exits e (dropRules true items t) := fun t => .forLines fun l => by
    cases ruleArgs items l with
    | none => exact .pure
    | some a => exact .cmd
  refine .bind .cmd fun _ => .bind (hd _) fun _ => .bind (hd _) fun _ => .bind (.popen fun r h => ?_) fun n => ?_
  · cases ((getlines r.out).map cstr).findSome? (ruleNetid items) with
    | some n => exact ⟨[], by simp [Sh.pure]⟩
    | none =>
      simp only [Sh.bind, atEof]
      by_cases hr : r.readErr ≠ 0
      · rw [if_pos hr]; exact ⟨[], by simp [exitWith], fun n _ => .inl hr⟩
      · rw [if_neg hr]; exact ⟨[], by simp [Sh.pure]⟩
  · cases n with
    | none => exact .pure
    | some hex => exact .cndc
end

section
variable {e : Env} {c : Conf} {hist : List Ev}

/-- When `up` ends with 0, the interface did not exist, and it was brought up with the configuration completely, each step with success. -/
theorem c87_up (hp : e.packages ≠ .error 0) (hu : UsualMtus e) (hr : cmdUp c e [] = (.exit 0, hist)) :
    ∃ config addrs dnses netid users, c.config = some config ∧ c.addrs = some addrs ∧ c.dnses = some dnses ∧ 4096 ≤ netid ∧ netid < 65536 ∧
      BroughtUp c.iface config addrs dnses c.mtu e.sdk e.caller netid users hist ∧ Succeeded hist := by
  obtain ⟨h1, b0, hb⟩ := cmdUp_zero hp hr
  obtain ⟨p⟩ := upBody_ok hb
  obtain ⟨r0, e0, d0, l0, _⟩ := firstLine_did (strict := true) (by rw [List.append_assoc]; exact ip_not_ndc (b!"link show dev " ++ (c.iface ++ b!" 2>/dev/null"))) b0
  obtain ⟨ta, e1, d1⟩ := cmd_did p.add
  obtain ⟨tb, e2, d2⟩ := setConfig_did p.set
  obtain ⟨tc, rp, e3, m3, p3, d3⟩ := listenPort_did p.listen
  obtain ⟨td, tr, te, e4, n4, p4, w4, d4, d4'⟩ := upIf_did p.up
  obtain ⟨tf, e5, d5⟩ := setAddr_did p.addr
  obtain ⟨tg, e6, p6, w6⟩ := setDnses_did p.dns
  obtain ⟨ra, th, routes, e7, p7, d7⟩ := setRoutes_did p.routes
  obtain ⟨ti, e8, p8, w8⟩ := setMtu_did hu p.mtu
  obtain ⟨tj, e9, p9, w9⟩ := setUsers_did p.users
  obtain ⟨tk, e10, d10⟩ := broadcast_did p.news
  have hnet := pickNetid_range n4
  have h1' := ((d1.append d2).append d3).append d4
  have h2' := d4'.append d5
  refine ⟨p.config, p.addrs, p.dnses, p.netid, tj, p.hconfig, p.haddrs, p.hdnses, hnet.1, hnet.2, ⟨r0, rp, ra, p.port, ta ++ tb ++ tc ++ td, tr, te ++ tf,
    (strtok listSeps p.addrs).filter unquoted, ((strtok listSeps p.addrs).filter unquoted).map (addrCalls c.iface), tg, th, routes, ti, tk, ?_, ?_, List.mem_append_left _ (List.mem_append_right _ m3), p3, ?_, p4,
    entries_ok _, ?_, ?_, p6, p7, ?_, p8, p9, d10.1⟩, ?_⟩
  · rw [e10, e9, e8, e7, e6, e5, e4, e3, e2, e1, e0]; simp
  · rw [linesOf_eq] at l0
    cases hl : linesOf r0.out with
    | nil => rfl
    | cons a b => rw [hl] at l0; cases l0
  · rw [h1'.1]; simp [ruleComment]
  · generalize (strtok listSeps p.addrs).filter unquoted = es
    induction es with
    | nil => exact .nil
    | cons a es ih => exact .cons (addsAddr_ok _ _) ih
  · rw [h2'.1, List.flatMap_def]
  · exact (List.cons.inj d7.1).2
  · intro ev hev
    rw [e10, e9, e8, e7, e6, e5, e4, e3, e2, e1, e0] at hev
    simp only [List.mem_append, List.not_mem_nil, false_or] at hev
    rcases hev with ((((((((((((h | h) | h) | h) | h) | h) | h) | h) | h) | h) | h) | h) | h)
    · exact d0.2 ev h
    · exact d1.2 ev h
    · exact d2.2 ev h
    · exact d3.2 ev h
    · exact d4.2 ev h
    · exact w4 ev h
    · exact d4'.2 ev h
    · exact d5.2 ev h
    · exact w6 ev h
    · exact d7.2 ev h
    · exact w8 ev h
    · exact w9 ev h
    · exact d10.2 ev h

/-- When `up` ends with an error, either only the question whether the interface exists was run, or everything was undone: the interface deleted, its
rules too, and the network destroyed. It is undone in part only if the outputs of the commands for that could not be read or the network daemon
reported an error then, and in any case the interface is deleted first. -/
theorem c87_failed {n : Nat} (hn : PlainName c.iface) (h0 : n ≠ 0) (hr : cmdUp c e [] = (.exit n, hist)) :
    cmdsOf hist = [b!"ip link show dev " ++ c.iface ++ b!" 2>/dev/null"] ∨
    ∃ r0 t1 t2, hist = (Call.read (b!"ip link show dev " ++ c.iface ++ b!" 2>/dev/null"), r0) :: t1 ++ t2 ∧ linesOf r0.out = [] ∧
      (cmdsOf t2).head? = some (b!"ip link del " ++ c.iface) ∧
      ((∃ o4 o6 os r4 r6 net, (Call.read b!"iptables-save", o4) ∈ t2 ∧ OwnRules c.iface o4.out r4 ∧ (Call.read b!"ip6tables-save", o6) ∈ t2 ∧ OwnRules c.iface o6.out r6 ∧
        (Call.read b!"ip rule show", os) ∈ t2 ∧ (NoLonger c.iface os.out → NetworkShown c.iface os.out net) ∧
        cmdsOf t2 = removal c.iface r4 r6 (net.map (min · (2 ^ 64 - 1)))) ∨
       ∃ ev ∈ t2, Trouble ev) := by
  unfold cmdUp at hr
  rcases bind_exit hr with hl | ⟨l, h1, hl, hr⟩
  · left
    have hh := firstLine_hist e (b!"ip link show dev " ++ c.iface ++ b!" 2>/dev/null") []
    rw [hl] at hh
    dsimp only at hh
    rw [hh]; rfl
  · obtain ⟨r0, e0, d0, l0, _⟩ := firstLine_did (strict := true) (by rw [List.append_assoc]; exact ip_not_ndc (b!"link show dev " ++ (c.iface ++ b!" 2>/dev/null"))) hl
    cases l with
    | some x =>
      left
      obtain ⟨_, rfl⟩ : 17 = n ∧ h1 = hist := by simpa [exitWith] using hr
      rw [e0]; rfl
    | none =>
      right
      have hlines : linesOf r0.out = [] := by
        rw [linesOf_eq] at l0
        cases hl : linesOf r0.out with
        | nil => rfl
        | cons a b => rw [hl] at l0; cases l0
      dsimp only at hr
      obtain ⟨t1, g1, _⟩ := Grows.upBody (e := e) (c := c) h1
      rcases hu : upBody c e h1 with ⟨o, h2⟩
      rw [hu] at hr g1
      dsimp only at g1
      cases o with
      | ok u => exact absurd (by simpa using hr : 0 = n ∧ h2 = hist).1.symm h0
      | exit m =>
        dsimp only at hr
        unfold undo at hr
        have hi : itemsOf { byte := some 32 } c.iface = some (lit 32 :: c.iface.map lit) := itemsOf_plain c.iface _ hn.2.1 hn.2.2
        have hfirst : ∀ h, ∃ r t, (delIf true c.iface e h).2 = h ++ (.system (b!"ip link del " ++ c.iface), r) :: t := by
          intro h
          have : ∀ (f : Unit → Sh Unit), (∀ u, Grows e (f u)) → ∃ r t, ((cmd true (b!"ip link del " ++ c.iface)).bind f e h).2 = h ++ (.system (b!"ip link del " ++ c.iface), r) :: t := by
            intro f hf
            simp only [Sh.bind, cmd, call]
            by_cases hk : (e.reply h (.system (b!"ip link del " ++ c.iface))).killed
            · rw [if_pos hk]; exact ⟨_, [], rfl⟩
            · rw [if_neg hk]
              dsimp only
              rw [if_neg (by simp)]
              simp only [Sh.pure]
              obtain ⟨t, ht, _⟩ := hf () (h ++ [(.system (b!"ip link del " ++ c.iface), e.reply h (.system (b!"ip link del " ++ c.iface)))])
              exact ⟨e.reply h (.system (b!"ip link del " ++ c.iface)), t, by rw [ht]; simp⟩
          unfold delIf
          rw [hi]
          dsimp only
          refine this _ fun _ => ?_
          have hd : ∀ items t, Grows e (dropRules true items t) := fun items t => .forLines fun l => by
            cases ruleArgs items l with
            | none => exact .pure
            | some a => exact .cmd
          refine .bind (hd _ _) fun _ => .bind (hd _ _) fun _ => .bind (.bind .popen fun r => ?_) fun n => ?_
          · cases ((getlines r.out).map cstr).findSome? (ruleNetid (lit 32 :: c.iface.map lit)) with
            | none => exact .bind .atEof fun _ => .pure
            | some n => exact .pure
          · cases n with
            | none => exact .pure
            | some n => exact .cndc
        obtain ⟨rd, td, hd⟩ := hfirst h2
        rcases bind_exit hr with hx | ⟨u, h3, hx, hr⟩
        · rw [hx] at hd
          dsimp only at hd
          refine ⟨r0, t1, (.system (b!"ip link del " ++ c.iface), rd) :: td, by rw [hd, g1, e0]; simp, hlines, rfl, .inr ?_⟩
          have hex : Exits e (delIf true c.iface) := by
            unfold delIf
            rw [hi]
            exact undo_exits
          replace hex := hex h2
          rw [hx] at hex
          obtain ⟨t, k1, k2⟩ := hex
          dsimp only at k1
          rw [hd] at k1
          have := List.append_cancel_left k1
          rw [this]
          exact k2 n rfl
        · obtain ⟨t, o4, o6, os, r4, r6, net, e2, m4, m6, ms, k4, k6, kn, d2⟩ := delIf_did hn hx
          obtain ⟨rfl, rfl⟩ : m = n ∧ h3 = hist := by simpa [exitWith] using hr
          have hc := removal_cmds d2
          refine ⟨r0, t1, t, by rw [e2, g1, e0]; simp, hlines, by rw [hc]; rfl, .inl ⟨o4, o6, os, r4, r6, net, m4, k4, m6, k6, ms, kn, hc⟩⟩
      | _ => simp at hr
end

/-! ### It ends -/

/-- `m` ends normally or with `exit`. -/
def Finishes {α : Type} (e : Env) (m : Sh α) : Prop := ∀ h, (∃ a, (m e h).1 = .ok a) ∨ ∃ n, (m e h).1 = .exit n

section
variable {α β : Type} {e : Env} (hk : ∀ h c, (e.reply h c).killed = false)

theorem Finishes.pure {a : α} : Finishes e (Sh.pure a) := fun _ => .inl ⟨a, rfl⟩
theorem Finishes.exit {n : Nat} : Finishes e (exitWith n : Sh α) := fun _ => .inr ⟨n, rfl⟩

theorem Finishes.bind {m : Sh α} {f : α → Sh β} (hm : Finishes e m) (hf : ∀ a, Finishes e (f a)) : Finishes e (m.bind f) := by
  intro h
  simp only [Sh.bind]
  have := hm h
  rcases hr : m e h with ⟨o, h'⟩
  rw [hr] at this
  cases o with
  | ok a => exact hf a h'
  | exit n => exact .inr ⟨n, rfl⟩
  | _ => simp at this

theorem Finishes.withEnv {f : Env → Sh β} (hf : Finishes e (f e)) : Finishes e (getEnv.bind f) := hf

theorem Finishes.ite {p : Prop} [Decidable p] {a b : Sh α} (ha : p → Finishes e a) (hb : ¬ p → Finishes e b) : Finishes e (if p then a else b) := by
  by_cases h : p
  · rw [if_pos h]; exact ha h
  · rw [if_neg h]; exact hb h

include hk

theorem Finishes.call {c : Call} : Finishes e (call c) := by
  intro h
  simp only [Android.call]
  rw [if_neg (by rw [hk]; simp)]
  exact .inl ⟨_, rfl⟩

theorem Finishes.cmd {x : Bool} {s : CStr} : Finishes e (cmd x s) := .bind (.call hk) fun _ => .ite (fun _ => .exit) fun _ => .pure
theorem Finishes.popen {s : CStr} : Finishes e (popen s) := .bind (.call hk) fun _ => .ite (fun _ => .exit) fun _ => .pure
omit hk in
theorem Finishes.atEof {r : Reply} : Finishes e (atEof r) := .ite (fun _ => .exit) fun _ => .pure

theorem Finishes.firstLine {s : CStr} : Finishes e (firstLine s) := by
  refine .bind (.popen hk) fun r => ?_
  split
  · exact .bind .atEof fun _ => .pure
  · exact .pure

omit hk in
theorem Finishes.forEach {γ : Type} {f : γ → Sh Unit} (hf : ∀ x, Finishes e (f x)) : ∀ xs, Finishes e (Android.forEach f xs)
  | [] => .pure
  | x :: xs => .bind (hf x) fun _ => Finishes.forEach hf xs

theorem Finishes.forLines {s : CStr} {f : CStr → Sh Unit} (hf : ∀ x, Finishes e (f x)) : Finishes e (forLines s f) :=
  .bind (.popen hk) fun _ => .bind (.forEach hf _) fun _ => .atEof

theorem Finishes.cndc {s : CStr} : Finishes e (cndc s) := by
  refine .bind (.firstLine hk) fun l => ?_
  split
  · exact .exit
  · exact .ite (fun _ => .exit) fun _ => .pure

theorem Finishes.delIf {x : Bool} {iface : CStr} : Finishes e (delIf x iface) := by
  unfold Android.delIf
  split
  · exact .exit
  · rename_i items _
    have hd : ∀ t, Finishes e (dropRules x items t) := fun t => .forLines hk fun l => by
      split
      · exact .pure
      · exact .cmd hk
    refine .bind (.cmd hk) fun _ => .bind (hd _) fun _ => .bind (hd _) fun _ => .bind (.bind (.popen hk) fun r => ?_) fun n => ?_
    · split
      · exact .pure
      · exact .bind .atEof fun _ => .pure
    · split
      · exact .pure
      · exact .cndc hk

theorem Finishes.routeMtu {x : CStr} : Finishes e (routeMtu x) := by
  refine .bind (.firstLine hk) fun l => ?_
  split
  · exact .pure
  · split
    · exact .pure
    · split
      · exact .pure
      · refine .bind (.firstLine hk) fun l => ?_
        split
        · exact .pure
        · split <;> exact .pure

theorem Finishes.mtuLoop {r : Reply} : ∀ (ls : List CStr) (m : Int), Finishes e (mtuLoop r m ls)
  | [], m => .bind .atEof fun _ => .pure
  | l :: ls, m => by
    simp only [Android.mtuLoop]
    split
    · exact Finishes.mtuLoop ls m
    · exact .bind (.routeMtu hk) fun _ => Finishes.mtuLoop ls _
end

theorem pickNetid_some : ∀ {fuel : Nat} {random : Nat → Nat}, (∃ i < fuel, 4096 ≤ random i &&& 0xfffe) → pickNetid fuel random ≠ none
  | 0, _, ⟨_, h, _⟩ => absurd h (by omega)
  | fuel + 1, random, ⟨i, hi, h⟩ => by
    simp only [pickNetid]
    by_cases hc : random 0 &&& 0xfffe < 4096
    · rw [if_pos hc]
      refine pickNetid_some ?_
      cases i with
      | zero => omega
      | succ i => exact ⟨i, by omega, h⟩
    · rw [if_neg hc]; simp

/-- The list of applications and the package list can be read: the list is not empty, what follows it in memory does not matter, and the package list is
well-formed or could not be opened. -/
def Readable (e : Env) (sel : CStr) : Prop :=
  sel ≠ [] ∧ (0 : UInt8) ∉ sel ∧ Harmless sel e.residue ∧ Sorts e.sort ∧ ((∃ n, e.packages = .error n) ∨ ∃ content apps, e.packages = .ok content ∧ PackageList content apps)

section
variable {e : Env} {c : Conf}

theorem uids_defined {sel : CStr} (h : Readable e sel) : getUidList e.packages e.residue e.sort (some sel) ≠ .ub := by
  obtain ⟨hne, h0, hh, hs, ⟨n, hp⟩ | ⟨content, apps, hp, hl⟩⟩ := h
  · rw [hp]
    rcases sel with _ | ⟨a, t⟩
    · exact absurd rfl hne
    · simp [getUidList, uidCap]
  · obtain ⟨l, g1, _⟩ := getUidList_ok (residue := e.residue) (sort := e.sort) hl hs hne h0 (by rcases hh with h | h; exacts [.inl h, .inr (.inr h)])
    rw [hp, g1]; simp

/-- If no signal kills the program, the configuration was read to its end, its lists of applications can be read and a random number large enough comes at
last, then `up` ends, with 0 or an error; `c87_up` and `c87_failed` say what it did. -/
theorem c87_ends (hk : ∀ h call, (e.reply h call).killed = false) (hc : c.config ≠ none) (ha : c.addrs ≠ none) (hd : c.dnses ≠ none)
    (hr : ∃ i < e.patience, 4096 ≤ e.random i &&& 0xfffe) (hx : ∀ sel, c.excluded = some sel ∨ c.included = some sel → Readable e sel) :
    ∃ n, (cmdUp c e []).1 = .exit n := by
  have hbody : Finishes e (upBody c) := by
    unfold upBody
    obtain ⟨config, hconfig⟩ := Option.ne_none_iff_exists'.1 hc
    obtain ⟨addrs, haddrs⟩ := Option.ne_none_iff_exists'.1 ha
    obtain ⟨dnses, hdnses⟩ := Option.ne_none_iff_exists'.1 hd
    rw [hconfig, haddrs, hdnses]
    refine .bind (.cmd hk) fun _ => .bind (.bind (.call hk) fun r => .ite (fun _ => .exit) fun _ => ?_) fun _ =>
      .bind (.bind (.cmd hk) fun _ => .bind (.firstLine hk) fun _ => .bind (.cmd hk) fun _ => .pure) fun port => .bind ?_ fun netid =>
      .bind (.forEach (fun a => .ite (fun _ => .bind (.cndc hk) fun _ => .cmd hk) fun _ => .cndc hk) _) fun _ => .bind ?_ fun _ =>
      .bind (.forLines hk fun l => .forEach (fun a => .cndc hk) _) fun _ => .bind ?_ fun _ => .bind ?_ fun _ => ?_
    · split
      · exact .pure
      · exact .exit
      · exact .exit
    · refine .withEnv ?_
      obtain ⟨netid, hn⟩ := Option.ne_none_iff_exists'.1 (pickNetid_some hr)
      rw [hn]
      refine .bind (.cmd hk) fun _ => .bind (.cmd hk) fun _ => .bind (.cmd hk) fun _ => .bind (.ite (fun _ => ?_) fun _ => .pure) fun _ => .bind (.cmd hk) fun _ =>
        .bind (.cndc hk) fun _ => .bind (.cndc hk) fun _ => .pure
      exact .bind (.cmd hk) fun _ => .bind (.bind (.popen hk) fun _ => .bind .atEof fun _ => .pure) fun _ => .cmd hk
    · refine .ite (fun _ => .pure) fun _ => .ite (fun hany => ?_) fun _ => .pure
      have hne : dnses ≠ [] := by
        rintro rfl
        simp [strtok, strtokAux] at hany
      obtain ⟨d, hd', _⟩ := dnsLoop_entries dnses hne
      rw [hd']
      have hb : ∀ c, Finishes e (binderCall c) := fun c => .bind (.call hk) fun _ => .ite (fun _ => .pure) fun _ => .exit
      exact .bind (.call hk) fun _ => .ite (fun _ => .bind (hb _) fun _ => hb _) fun _ => .cndc hk
    · exact .ite (fun _ => .cndc hk) fun _ => .bind (.routeMtu hk) fun _ => .bind (.popen hk) fun _ => .bind (.mtuLoop hk _ _) fun _ => .cndc hk
    · refine .ite (fun _ => .exit) fun hboth => .withEnv ?_
      dsimp only
      have hdef : getUidList e.packages e.residue e.sort (if (c.excluded.isSome || !c.included.isSome) = true then c.excluded else c.included) ≠ .ub := by
        split
        · cases hs : c.excluded with
          | none => simp [getUidList]
          | some sel => exact uids_defined (hx sel (.inl hs))
        · cases hs : c.included with
          | none => simp [getUidList]
          | some sel => exact uids_defined (hx sel (.inr hs))
      generalize getUidList e.packages e.residue e.sort _ = g at hdef ⊢
      cases g with
      | exit n => exact .exit
      | ub => exact absurd rfl hdef
      | ok uids => exact .forEach (fun _ => .cndc hk) _
    · exact .withEnv (.ite (fun _ => .pure) fun _ => .cmd hk)
  have hup : ∀ h, ∃ n, ((fun e h => match upBody c e h with
    | (.exit n, h) => undo c.iface n e h
    | (.ok _, h) => (.exit 0, h)
    | r => r : Sh Unit) e h).1 = .exit n := by
    intro h
    dsimp only
    have := hbody h
    rcases hr : upBody c e h with ⟨o, h'⟩
    rw [hr] at this
    cases o with
    | ok a => exact ⟨0, rfl⟩
    | exit n =>
      simp only [undo, Sh.bind]
      have := Finishes.delIf (x := true) (iface := c.iface) hk h'
      rcases hr2 : delIf true c.iface e h' with ⟨o, h2⟩
      rw [hr2] at this
      cases o with
      | ok a => exact ⟨n, rfl⟩
      | exit n => exact ⟨n, rfl⟩
      | _ => simp at this
    | _ => simp at this
  unfold cmdUp
  simp only [Sh.bind]
  have := Finishes.firstLine hk (s := b!"ip link show dev " ++ c.iface ++ b!" 2>/dev/null") []
  rcases hr0 : firstLine (b!"ip link show dev " ++ c.iface ++ b!" 2>/dev/null") e [] with ⟨o, h'⟩
  rw [hr0] at this
  cases o with
  | ok l =>
    cases l with
    | none => exact hup h'
    | some l => exact ⟨17, rfl⟩
  | exit n => exact ⟨n, rfl⟩
  | _ => simp at this
end

/-- Endpoints are ignored: `wg show IFACE endpoints` prints a key and a tab before each endpoint, and no such line is taken for one. Without a
configured MTU that of the default route alone, or 1500, less 80 is set, whatever the MTUs of the routes to the endpoints are. -/
theorem c87_counterexample_endpoints {iface : CStr} {t : List Ev} (hm : MtuSet iface 0 t)
    (hw : ∀ r, (Call.read (b!"wg show " ++ iface ++ b!" endpoints"), r) ∈ t → ∀ l ∈ linesOf r.out, 9 ∈ l) :
    ∃ dflt td r last, RouteMtu b!"default" dflt td ∧ t = td ++ [(.read (b!"wg show " ++ iface ++ b!" endpoints"), r), last] ∧
      last.1 = ndc (b!"interface setmtu " ++ iface ++ b!" " ++ decimalInt ((dflt.getD 1500 : Nat) - 80)) := by
  obtain ⟨dflt, td, r, ms, te, m, last, h1, h2, h3, h4, h5⟩ := hm.2 rfl
  have hno : ∀ l : CStr, 9 ∈ l → ∀ h, ¬ EndpointHost l h := by
    rintro l hl h ⟨o, cl, port, rfl, ho, hcl, _, hh, _, hport⟩
    simp only [List.mem_append] at hl
    rcases hl with (((hl | hl) | hl) | hl) | hl
    · rcases ho with rfl | rfl <;> simp at hl
    · exact absurd (hh _ hl) (by decide)
    · rcases hcl with rfl | rfl <;> simp at hl
    · simp at hl
    · exact absurd (hport _ hl) (by decide)
  have hall := hw r (by rw [h4]; simp)
  obtain ⟨rfl, rfl⟩ : ms = [] ∧ te = [] := by
    clear h3 h4 h5
    generalize linesOf r.out = ls at h2 hall
    induction h2 with
    | nil => exact ⟨rfl, rfl⟩
    | skip _ _ ih => exact ih fun l hl => hall l (List.mem_cons_of_mem _ hl)
    | look he _ _ _ => exact absurd he (hno _ (hall _ List.mem_cons_self) _)
  obtain rfl : m = dflt.getD 1500 := by
    obtain ⟨h | ⟨h, _⟩, _⟩ := h3
    · exact h
    · cases h
  exact ⟨dflt, td, r, last, h1, by rw [h4]; simp, h5⟩

/-! ### Examples and defects -/

/-- As `fine`; the command `bad` fails, `dies` is killed and takes the program with it; `wg` shows a port, peers with endpoints and allowed IPs,
`ip` a default route over `wlan0` with an MTU of 1400. -/
def upShows (bad dies : List UInt8) (h : List Ev) : Call → Reply
  | .read s =>
    if s = bad then { out := b!"400 0 failed\n" } else if s = dies then { killed := true }
    else if s = b!"wg show wg0 listen-port" then { out := b!"51820\n" }
    else if s = b!"wg show wg0 endpoints" then { out := b!"k1=\t192.0.2.1:51820\nk2=\t(none)\n" }
    else if s = b!"wg show wg0 allowed-ips" then { out := b!"k1=\t10.0.0.0/24 fd00::/64\nk2=\t(none)\n" }
    else if s = b!"ip -o route show default" then { out := b!"default via 192.168.1.1 dev wlan0 \n" }
    else if s = b!"ip -o link show dev wlan0" then { out := b!"3: wlan0: <UP> mtu 1400 qdisc mq\n" }
    else fine h (.read s)
  | .system s => if s = bad then { status := .exited 2 } else if s = dies then { killed := true } else {}
  | c => fine h c

def upEnv (bad dies : List UInt8) : Env := { reply := upShows bad dies, random := fun i => 4000 + 1000 * i, patience := 3 }

def upConf : Conf :=
  { iface := b!"wg0", config := some b!"[Interface]\n", addrs := some b!"10.0.0.2/24,fd00::2/64", dnses := some b!"1.1.1.1, home.lan", mtu := 0 }

/-- The hypotheses are met, and this is what is run. -/
example : (cmdUp upConf (upEnv [] []) []).1 = .exit 0 ∧ cmdsOf (cmdUp upConf (upEnv [] []) []).2 =
    [b!"ip link show dev wg0 2>/dev/null", b!"ip link add wg0 type wireguard", b!"wg setconf wg0 /proc/self/fd/0", b!"ip link set up dev wg0", b!"wg show wg0 listen-port",
     b!"ip link set down dev wg0", b!"wg set wg0 fwmark 0x20000", b!"iptables -I OUTPUT 1 -m mark --mark 0x20000 -j ACCEPT -m comment --comment \"wireguard rule wg0\"",
     b!"ip6tables -I OUTPUT 1 -m mark --mark 0x20000 -j ACCEPT -m comment --comment \"wireguard rule wg0\"",
     b!"iptables -I INPUT 1 -p udp --dport 51820 -j ACCEPT -m comment --comment \"wireguard rule wg0\"", b!"wg show wg0 endpoints",
     b!"ip6tables -I INPUT 1 -p udp --dport 51820 -j DROP -m comment --comment \"wireguard rule wg0\"", b!"ip link set up dev wg0",
     b!"ndc network create 5000 vpn 1 1", b!"ndc network interface add 5000 wg0", b!"ndc interface setcfg wg0 '10.0.0.2' 24", b!"ndc interface ipv6 wg0 enable",
     b!"ip -6 addr add 'fd00::2/64' dev wg0", b!"ndc resolver setnetdns 5000 ''home.lan' ' '1.1.1.1' ", b!"wg show wg0 allowed-ips", b!"ndc network route add 5000 wg0 10.0.0.0/24",
     b!"ndc network route add 5000 wg0 fd00::/64", b!"ip -o route show default", b!"ip -o link show dev wlan0", b!"wg show wg0 endpoints", b!"ndc interface setmtu wg0 1320",
     b!"ndc network users add 5000 0-99999", b!"am broadcast -a com.wireguard.android.action.REFRESH_TUNNEL_STATES com.wireguard.android"] := by decide +kernel

theorem upEnv_usual (bad dies : List UInt8) : UsualMtus (upEnv bad dies) := by
  have key : ∀ out : List UInt8, (linesOf out).all (fun l => match mtuIn l with
      | none => true
      | some m => decide (digitsVal 10 m < 2 ^ 31)) = true → ∀ l n, l ∈ linesOf out → MtuIn l n → n < 2 ^ 31 := by
    intro out ho l n hl hn
    have := List.all_eq_true.1 ho l hl
    rw [← mtuIn_iff] at hn
    cases hm : mtuIn l with
    | none => rw [hm] at hn; cases hn
    | some m =>
      rw [hm] at hn this
      obtain rfl : digitsVal 10 m = n := by simpa using hn
      simpa using this
  intro h s l n
  simp only [upEnv, upShows]
  split
  · exact key _ (by decide +kernel) l n
  split
  · exact key _ (by decide +kernel) l n
  split
  · exact key _ (by decide +kernel) l n
  split
  · exact key _ (by decide +kernel) l n
  split
  · exact key _ (by decide +kernel) l n
  split
  · exact key _ (by decide +kernel) l n
  split
  · exact key _ (by decide +kernel) l n
  simp only [fine]
  split
  · exact key _ (by decide +kernel) l n
  · exact key _ (by decide +kernel) l n

/-- A command fails late: everything is undone, and the status is that of the failure. -/
example : (cmdUp upConf (upEnv b!"ndc interface setmtu wg0 1320" []) []).1 = .exit 64 ∧
    (cmdsOf (cmdUp upConf (upEnv b!"ndc interface setmtu wg0 1320" []) []).2).drop 26 =
      [b!"ip link del wg0", b!"iptables-save", b!"ip6tables-save", b!"ip rule show"] := by decide +kernel

/-- The interface exists: nothing is done. -/
example : let e : Env := { upEnv [] [] with reply := fun h c => if c = .read b!"ip link show dev wg0 2>/dev/null" then { out := b!"5: wg0: <UP>\n" } else upShows [] [] h c }
    (cmdUp upConf e []).1 = .exit 17 ∧ cmdsOf (cmdUp upConf e []).2 = [b!"ip link show dev wg0 2>/dev/null"] := by decide +kernel

/-- The hypotheses of `c87_ends` are met. -/
example : ∃ n, (cmdUp (exConf (some b!"com.b") none) (exEnv twoApps [0]) []).1 = .exit n := by
  refine c87_ends (e := exEnv twoApps [0]) (fun h c => ?_) (by decide) (by decide) (by decide) ⟨0, by decide, by decide⟩ fun sel hs => ?_
  · cases c with
    | read s => simp only [exEnv, fine]; split <;> rfl
    | _ => rfl
  · rcases hs with hs | hs
    · cases hs
      exact ⟨by decide, by decide, .inl rfl, isort_sorts, .inr ⟨_, _, rfl, twoApps_list⟩⟩
    · cases hs

/-- A signal is not handled: nothing is undone, and the interface stays. -/
theorem c87_counterexample_signal : (cmdUp upConf (upEnv [] b!"ip link set down dev wg0") []).1 = .killed ∧
    cmdsOf (cmdUp upConf (upEnv [] b!"ip link set down dev wg0") []).2 =
      [b!"ip link show dev wg0 2>/dev/null", b!"ip link add wg0 type wireguard", b!"wg setconf wg0 /proc/self/fd/0", b!"ip link set up dev wg0", b!"wg show wg0 listen-port",
       b!"ip link set down dev wg0"] := by decide +kernel

/-- When the configuration was not read to its end (`c84_counterexample_long_line`), the program crashes after it made the interface, and nothing is
undone. -/
theorem c87_counterexample_long_line : (cmdUp { upConf with addrs := none } (upEnv [] []) []).1 = .killed ∧
    b!"ip link add wg0 type wireguard" ∈ cmdsOf (cmdUp { upConf with addrs := none } (upEnv [] []) []).2 ∧
    b!"ip link del wg0" ∉ cmdsOf (cmdUp { upConf with addrs := none } (upEnv [] []) []).2 := by decide +kernel

/-- With `++` in the name nothing can be undone. -/
theorem c87_counterexample_plus : let c := { upConf with iface := b!"wg++" }
    (cmdUp c (upEnv b!"ip link set up dev wg++" []) []).1 = .exit 53 ∧ cmdsOf (cmdUp c (upEnv b!"ip link set up dev wg++" []) []).2 =
      [b!"ip link show dev wg++ 2>/dev/null", b!"ip link add wg++ type wireguard", b!"wg setconf wg++ /proc/self/fd/0", b!"ip link set up dev wg++"] := by decide +kernel

end WG.Android
