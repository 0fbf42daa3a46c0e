import Verif.Proof.AndroidUsers
/-!
`up` of wg-quick for Android: success, failure, and the parts of a successful run.
-/
namespace WG.Android
open WG.Spec WG.Spec.Android WG.Spec.Quick

/-- `m` never ends with `exit(0)`. -/
def NonZero {α : Type} (e : Env) (m : Sh α) : Prop := ∀ h, (m e h).1 ≠ .exit 0

section
variable {α β : Type} {e : Env}

theorem NonZero.pure {a : α} : NonZero e (Sh.pure a) := fun _ => by simp [Sh.pure]
theorem NonZero.exit {n : Nat} (hn : n ≠ 0) : NonZero e (exitWith n : Sh α) := fun _ => by simp [exitWith, hn]
theorem NonZero.ub : NonZero e (ubHere : Sh α) := fun _ => by simp [ubHere]
theorem NonZero.segv : NonZero e (segv : Sh α) := fun _ => by simp [Android.segv]
theorem NonZero.running : NonZero e (fun _ h => (Out.running, h) : Sh α) := fun _ => by simp
theorem NonZero.getEnv : NonZero e getEnv := fun _ => by simp [Android.getEnv]

theorem NonZero.bind {m : Sh α} {f : α → Sh β} (hm : NonZero e m) (hf : ∀ a, NonZero e (f a)) : NonZero e (m.bind f) := by
  intro h
  simp only [Sh.bind]
  have := hm h
  rcases hr : m e h with ⟨o, h'⟩
  rw [hr] at this
  cases o with
  | ok a => exact hf a h'
  | exit n => simpa using this
  | _ => simp

/-- As `NonZero.bind`, when the continuation depends on the environment. -/
theorem NonZero.withEnv {f : Env → Sh β} (hf : NonZero e (f e)) : NonZero e (Android.getEnv.bind f) := hf

theorem NonZero.call {c : Call} : NonZero e (call c) := by
  intro h; simp only [Android.call]; split <;> simp

theorem NonZero.ite {p : Prop} [Decidable p] {a b : Sh α} (ha : p → NonZero e a) (hb : ¬ p → NonZero e b) : NonZero e (if p then a else b) := by
  by_cases h : p
  · rw [if_pos h]; exact ha h
  · rw [if_neg h]; exact hb h

theorem NonZero.cmd {x : Bool} {s : CStr} : NonZero e (cmd x s) :=
  NonZero.bind .call fun _ => .ite (fun h => .exit h.1) fun _ => .pure

theorem NonZero.popen {s : CStr} : NonZero e (popen s) := NonZero.bind .call fun _ => .ite (fun h => .exit h) fun _ => .pure

theorem NonZero.atEof {r : Reply} : NonZero e (atEof r) := .ite (fun h => .exit h) fun _ => .pure

theorem NonZero.firstLine {s : CStr} : NonZero e (firstLine s) := by
  refine NonZero.bind .popen fun r => ?_
  split
  · exact .bind .atEof fun _ => .pure
  · exact .pure

theorem NonZero.forEach {γ : Type} {f : γ → Sh Unit} (hf : ∀ x, NonZero e (f x)) : ∀ xs, NonZero e (Android.forEach f xs)
  | [] => .pure
  | x :: xs => .bind (hf x) fun _ => NonZero.forEach hf xs

theorem NonZero.forLines {s : CStr} {f : CStr → Sh Unit} (hf : ∀ x, NonZero e (f x)) : NonZero e (forLines s f) :=
  .bind .popen fun _ => .bind (.forEach hf _) fun _ => .atEof

theorem NonZero.cndc {s : CStr} : NonZero e (cndc s) := by
  refine NonZero.bind .firstLine fun l => ?_
  split
  · exact .exit (by decide)
  · exact .ite (fun _ => .exit (by decide)) fun _ => .pure

theorem NonZero.delIf {x : Bool} {iface : CStr} : NonZero e (delIf x iface) := by
  unfold Android.delIf
  split
  · exact .exit (by decide)
  · rename_i items _
    have hd : ∀ t, NonZero e (dropRules x items t) := fun t => .forLines fun l => by
      split
      · exact .pure
      · exact .cmd
    refine .bind .cmd fun _ => .bind (hd _) fun _ => .bind (hd _) fun _ => .bind ?_ fun n => ?_
    · refine .bind .popen fun r => ?_
      split
      · exact .pure
      · exact .bind .atEof fun _ => .pure
    · split
      · exact .pure
      · exact .cndc

theorem NonZero.setConfig {iface config : CStr} : NonZero e (setConfig iface config) := by
  refine .bind .call fun r => .ite (fun h => .exit h) fun _ => ?_
  split
  · exact .pure
  · rename_i n h _; exact .exit fun h0 => h (by rw [h0] at *)
  · exact .exit (by decide)

theorem NonZero.routeMtu {x : CStr} : NonZero e (routeMtu x) := by
  refine .bind .firstLine fun l => ?_
  split
  · exact .pure
  · split
    · exact .pure
    · split
      · exact .pure
      · refine .bind .firstLine fun l => ?_
        split
        · exact .pure
        · split <;> exact .pure

theorem NonZero.mtuLoop {r : Reply} : ∀ (ls : List CStr) (m : Int), NonZero e (mtuLoop r m ls)
  | [], m => .bind .atEof fun _ => .pure
  | l :: ls, m => by
    simp only [Android.mtuLoop]
    split
    · exact NonZero.mtuLoop ls m
    · exact .bind .routeMtu fun _ => NonZero.mtuLoop ls _

theorem NonZero.upBody {c : Conf} (hp : e.packages ≠ .error 0) : NonZero e (upBody c) := by
  refine .bind .cmd fun _ => ?_
  split
  · exact .segv
  refine .bind .setConfig fun _ => .bind (.bind .cmd fun _ => .bind .firstLine fun _ => .bind .cmd fun _ => .pure) fun port => .bind ?_ fun netid => ?_
  · refine .withEnv ?_
    split
    · exact .running
    refine .bind .cmd fun _ => .bind .cmd fun _ => .bind .cmd fun _ => .bind (.ite (fun _ => ?_) fun _ => .pure) fun _ => .bind .cmd fun _ => .bind .cndc fun _ =>
      .bind .cndc fun _ => .pure
    exact .bind .cmd fun _ => .bind (.bind .popen fun _ => .bind .atEof fun _ => .pure) fun _ => .cmd
  split
  · exact .segv
  refine .bind (.forEach (fun a => ?_) _) fun _ => ?_
  · exact .ite (fun _ => .bind .cndc fun _ => .cmd) fun _ => .cndc
  split
  · exact .segv
  refine .bind ?_ fun _ => .bind (.forLines fun l => .forEach (fun a => .cndc) _) fun _ => .bind ?_ fun _ => .bind ?_ fun _ => .withEnv (.ite (fun _ => .pure) fun _ => .cmd)
  · refine .ite (fun _ => .pure) fun _ => .ite (fun _ => ?_) fun _ => .pure
    split
    · exact .ub
    · have hb : ∀ c, NonZero e (binderCall c) := fun c => .bind .call fun _ => .ite (fun _ => .pure) fun _ => .exit (by decide)
      exact .bind .call fun _ => .ite (fun _ => .bind (hb _) fun _ => hb _) fun _ => .cndc
  · exact .ite (fun _ => .cndc) fun _ => .bind .routeMtu fun _ => .bind .popen fun _ => .bind (.mtuLoop _ _) fun _ => .cndc
  · refine .ite (fun _ => .exit (by decide)) fun _ => .withEnv ?_
    split
    · rename_i n hn
      refine .exit fun h0 => ?_
      subst h0
      unfold getUidList at hn
      split at hn
      · simp at hn
      · split at hn
        · simp at hn
        · split at hn
          · rename_i n' hpk; simp at hn; subst hn; exact hp hpk
          · split at hn
            · split at hn
              · simp at hn
              · dsimp only at hn; split at hn <;> simp at hn
            · simp at hn
    · exact .ub
    · exact .forEach (fun _ => .cndc) _
end

/-- `up` ends with 0 only if the interface was not there and everything succeeded. -/
theorem cmdUp_zero {c : Conf} {e : Env} {h h' : List Ev} (hp : e.packages ≠ .error 0) (hr : cmdUp c e h = (.exit 0, h')) :
    ∃ h1, firstLine (b!"ip link show dev " ++ c.iface ++ b!" 2>/dev/null") e h = (.ok none, h1) ∧ upBody c e h1 = (.ok (), h') := by
  simp only [cmdUp, Sh.bind] at hr
  have hf := (NonZero.firstLine (e := e) (s := b!"ip link show dev " ++ c.iface ++ b!" 2>/dev/null")) h
  rcases hl : firstLine (b!"ip link show dev " ++ c.iface ++ b!" 2>/dev/null") e h with ⟨o, h1⟩
  rw [hl] at hr hf
  cases o with
  | ok l =>
    rcases l with _ | l
    · dsimp only at hr
      have hb := (NonZero.upBody (c := c) hp) h1
      rcases hu : upBody c e h1 with ⟨o, h2⟩
      rw [hu] at hr hb
      cases o with
      | ok u =>
        simp only [Prod.mk.injEq, true_and] at hr
        subst hr
        exact ⟨h1, rfl, hu⟩
      | exit n =>
        dsimp only at hr hb
        have hn : n ≠ 0 := fun h => hb (by rw [h])
        have := (NonZero.bind (NonZero.delIf (e := e) (x := true) (iface := c.iface)) fun _ => NonZero.exit (α := Unit) hn) h2
        rw [show undo c.iface n e h2 = ((delIf true c.iface).bind fun _ => exitWith n) e h2 from rfl] at hr
        rw [hr] at this
        exact absurd rfl this
      | _ => simp at hr
    · simp [exitWith] at hr
  | exit n => simp at hr hf; exact absurd hr.1 hf
  | _ => simp at hr

/-- The parts of a run of `up` that succeeded. -/
structure UpParts (c : Conf) (e : Env) (h0 h' : List Ev) where
  config : CStr
  addrs : CStr
  dnses : CStr
  port : Nat
  netid : Nat
  h1 : List Ev
  h2 : List Ev
  h3 : List Ev
  h4 : List Ev
  h5 : List Ev
  h6 : List Ev
  h7 : List Ev
  h8 : List Ev
  h9 : List Ev
  hconfig : c.config = some config
  haddrs : c.addrs = some addrs
  hdnses : c.dnses = some dnses
  add : addIf c.iface e h0 = (.ok (), h1)
  set : setConfig c.iface config e h1 = (.ok (), h2)
  listen : listenPort c.iface e h2 = (.ok port, h3)
  up : upIf c.iface port e h3 = (.ok netid, h4)
  addr : setAddr c.iface addrs e h4 = (.ok (), h5)
  dns : setDnses netid dnses e h5 = (.ok (), h6)
  routes : setRoutes c.iface netid e h6 = (.ok (), h7)
  mtu : setMtu c.iface c.mtu e h7 = (.ok (), h8)
  users : setUsers netid c.excluded c.included e h8 = (.ok (), h9)
  news : broadcast e h9 = (.ok (), h')

theorem upBody_ok {c : Conf} {e : Env} {h0 h' : List Ev} (hr : upBody c e h0 = (.ok (), h')) : Nonempty (UpParts c e h0 h') := by
  obtain ⟨_, h1, e1, hr⟩ := bind_ok hr
  rcases hc : c.config with _ | config
  · rw [hc] at hr; simp [segv] at hr
  rw [hc] at hr
  obtain ⟨_, h2, e2, hr⟩ := bind_ok hr
  obtain ⟨port, h3, e3, hr⟩ := bind_ok hr
  obtain ⟨netid, h4, e4, hr⟩ := bind_ok hr
  rcases ha : c.addrs with _ | addrs
  · rw [ha] at hr; simp [segv] at hr
  rw [ha] at hr
  obtain ⟨_, h5, e5, hr⟩ := bind_ok hr
  rcases hd : c.dnses with _ | dnses
  · rw [hd] at hr; simp [segv] at hr
  rw [hd] at hr
  obtain ⟨_, h6, e6, hr⟩ := bind_ok hr
  obtain ⟨_, h7, e7, hr⟩ := bind_ok hr
  obtain ⟨_, h8, e8, hr⟩ := bind_ok hr
  obtain ⟨_, h9, e9, hr⟩ := bind_ok hr
  exact ⟨⟨config, addrs, dnses, port, netid, h1, h2, h3, h4, h5, h6, h7, h8, h9, hc, ha, hd, e1, e2, e3, e4, e5, e6, e7, e8, e9, hr⟩⟩

/-- The commands in a history. -/
def cmdOf : Ev → Option CStr
  | (.system s, _) => some s
  | (.read s, _) => some s
  | (.write s _, _) => some s
  | _ => none

def cmdsOf (hist : List Ev) : List CStr := hist.filterMap cmdOf

/-- The commands of `up_if`. -/
def upCalls (iface : CStr) (port netid sdk : Nat) (block : Bool) : List Call :=
  [.system (b!"wg set " ++ iface ++ b!" fwmark 0x20000"),
   .system (b!"iptables -I OUTPUT 1 -m mark --mark 0x20000 -j ACCEPT" ++ ruleComment iface),
   .system (b!"ip6tables -I OUTPUT 1 -m mark --mark 0x20000 -j ACCEPT" ++ ruleComment iface)] ++
  (if port ≠ 0 then
    [.system (b!"iptables -I INPUT 1 -p udp --dport " ++ showDec port ++ b!" -j ACCEPT" ++ ruleComment iface),
     .read (b!"wg show " ++ iface ++ b!" endpoints"),
     .system (b!"ip6tables -I INPUT 1 -p udp --dport " ++ showDec port ++ b!" -j " ++ (if block then b!"DROP" else b!"ACCEPT") ++ ruleComment iface)]
   else []) ++
  [.system (b!"ip link set up dev " ++ iface),
   .read (b!"ndc network create " ++ showDec netid ++ (if sdk < 31 then b!" vpn 1 1" else b!" vpn 1")),
   .read (b!"ndc network interface add " ++ showDec netid ++ b!" " ++ iface)]

theorem cmd_adds {x : Bool} {s : CStr} {u : Unit} {e : Env} {h h' : List Ev} (hb : cmd x s e h = (.ok u, h')) : ∃ r, h' = h ++ [(.system s, r)] := ⟨_, (cmd_ok hb).1⟩
theorem cndc_adds {s : CStr} {u : Unit} {e : Env} {h h' : List Ev} (hb : cndc s e h = (.ok u, h')) : ∃ r, h' = h ++ [(.read (b!"ndc " ++ s), r)] := ⟨_, (cndc_ok hb).1⟩

theorem upIf_ok {iface : CStr} {port netid : Nat} {e : Env} {h h' : List Ev} (hup : upIf iface port e h = (.ok netid, h')) :
    ∃ block, pickNetid e.patience e.random = some netid ∧ ∃ t, h' = h ++ t ∧ t.map Prod.fst = upCalls iface port netid e.sdk block ∧
      (port ≠ 0 → ∃ r, (Call.read (b!"wg show " ++ iface ++ b!" endpoints"), r) ∈ t ∧
        block = (let acc := ((getlines r.out).map cstr).foldl endpointSeen (false, true); !acc.1 && !acc.2)) := by
  unfold upIf at hup
  obtain ⟨env, hh, he, hup⟩ := bind_ok hup
  obtain ⟨rfl, rfl⟩ : e = env ∧ h = hh := by simpa [getEnv] using he
  rcases hn : pickNetid e.patience e.random with _ | n
  · rw [hn] at hup; simp at hup
  rw [hn] at hup
  dsimp only at hup
  obtain ⟨_, k1, f1, hup⟩ := bind_ok hup
  obtain ⟨_, k2, f2, hup⟩ := bind_ok hup
  obtain ⟨_, k3, f3, hup⟩ := bind_ok hup
  obtain ⟨_, k4, f4, hup⟩ := bind_ok hup
  obtain ⟨_, k5, f5, hup⟩ := bind_ok hup
  obtain ⟨_, k6, f6, hup⟩ := bind_ok hup
  obtain ⟨_, k7, f7, hup⟩ := bind_ok hup
  obtain ⟨f8, f9⟩ := pure_ok hup
  subst f8
  obtain ⟨_, g1⟩ := cmd_adds f1
  obtain ⟨_, g2⟩ := cmd_adds f2
  obtain ⟨_, g3⟩ := cmd_adds f3
  obtain ⟨_, g5⟩ := cmd_adds f5
  obtain ⟨_, g6⟩ := cndc_adds f6
  obtain ⟨_, g7⟩ := cndc_adds f7
  by_cases hp : port ≠ 0
  · rw [if_pos hp] at f4
    obtain ⟨_, j1, i1, f4⟩ := bind_ok f4
    obtain ⟨block, j2, i2, f4⟩ := bind_ok f4
    obtain ⟨r, j3, i3, i4⟩ := bind_ok i2
    obtain ⟨_, j4, i5, i6⟩ := bind_ok i4
    obtain ⟨i7, i8⟩ := pure_ok i6
    obtain ⟨_, d1⟩ := cmd_adds i1
    obtain ⟨_, d2, _⟩ := popen_ok i3
    have d3 : j3 = j4 := by
      unfold atEof at i5
      split at i5
      · exact (exit_ok i5).elim
      · exact (pure_ok i5).2
    obtain ⟨_, d4⟩ := cmd_adds f4
    subst g1 g2 g3 d1 d2 d3 i8 d4 g5 g6 g7 f9
    refine ⟨block, rfl, _, by simp only [List.append_assoc]; rfl, ?_, fun _ => ⟨r, by simp, i7.symm⟩⟩
    simp [upCalls, hp]
  · rw [if_neg hp] at f4
    obtain ⟨_, d1⟩ := pure_ok f4
    subst g1 g2 g3 d1 g5 g6 g7 f9
    refine ⟨false, rfl, _, by simp only [List.append_assoc]; rfl, ?_, fun h => absurd h hp⟩
    simp [upCalls, hp]

end WG.Android
