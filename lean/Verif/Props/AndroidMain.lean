import Verif.Props.AndroidShell
/-!
C89: wg-quick for Android from the command line and the configuration file to what is run.
-/
namespace WG.Android
open WG.Spec WG.Spec.Android WG.Spec.Quick
open WG.Props (c84_accepted c84_settings)

/-- What is run in the end. -/
def histOf : Ran → List Ev
  | .ran _ h => h
  | _ => []

/-- The status that the program itself ends with, if it does. -/
def statusOf : Ran → Option Nat
  | .usage n => some n
  | .refused n => some n
  | .ran (.exit n) _ => some n
  | _ => none

theorem refused_ne {files : Files} {arg : CStr} {n : Nat} (hf : ∀ p, files p ≠ .error 0) (h : parseOptions files arg = .refused n) : n ≠ 0 := by
  rintro rfl
  have hs : ∀ (l : List CStr) (k : Nat), (l = [] → k ≠ 0) → searchLoop files arg k l ≠ .error 0 := by
    intro l
    induction l with
    | nil => intro k hk h; simp [searchLoop] at h; exact hk rfl h
    | cons d l ih =>
      intro k _ h
      simp only [searchLoop] at h
      split at h
      · cases h
      · rename_i e' he
        exact ih e' (fun _ h0 => hf _ (by rw [he, h0])) h
  have ho : openConf files arg ≠ .error 0 := by
    unfold openConf
    split
    · exact hs _ _ (by intro h; exact absurd h (by decide))
    · split
      · simp
      · rename_i e' he
        intro h
        injection h with h
        exact hf arg (by rw [he, h])
  unfold parseOptions at h
  split at h
  · rename_i e' he
    injection h with h
    exact ho (by rw [he, h])
  · split at h
    · injection h with h; omega
    · cases h

/-- `up` asks first whether the interface exists. -/
theorem cmdUp_first (c : Conf) (e : Env) : (cmdUp c e []).2 ≠ [] := by
  have hf := firstLine_hist e (b!"ip link show dev " ++ c.iface ++ b!" 2>/dev/null") []
  unfold cmdUp
  simp only [Sh.bind]
  rcases hr : firstLine (b!"ip link show dev " ++ c.iface ++ b!" 2>/dev/null") e [] with ⟨o, h'⟩
  rw [hr] at hf
  dsimp only at hf
  subst hf
  cases o with
  | ok l =>
    dsimp only
    cases l with
    | some x => simp [exitWith]
    | none =>
      dsimp only
      rcases hu : upBody c e _ with ⟨o, h2⟩
      obtain ⟨t, ht, _⟩ := Grows.upBody (e := e) (c := c) ([] ++ [(Call.read (b!"ip link show dev " ++ c.iface ++ b!" 2>/dev/null"), e.reply [] (.read (b!"ip link show dev " ++ c.iface ++ b!" 2>/dev/null")))])
      rw [hu] at ht
      dsimp only at ht
      subst ht
      cases o with
      | ok a => simp
      | exit n =>
        dsimp only
        have hg : Grows e (undo c.iface n) := .bind Grows.delIf fun _ => .exit
        obtain ⟨t', ht', _⟩ := hg ([] ++ [(Call.read (b!"ip link show dev " ++ c.iface ++ b!" 2>/dev/null"), e.reply [] (.read (b!"ip link show dev " ++ c.iface ++ b!" 2>/dev/null")))] ++ t)
        rw [ht']; simp
      | _ => simp
  | _ => simp

theorem cmdDown_first (iface : CStr) (e : Env) : (cmdDown iface e []).2 ≠ [] := by
  have hf := firstLine_hist e b!"wg show interfaces" []
  unfold cmdDown
  simp only [Sh.bind]
  rcases hr : firstLine b!"wg show interfaces" e [] with ⟨o, h'⟩
  rw [hr] at hf
  dsimp only at hf
  subst hf
  cases o with
  | ok l =>
    dsimp only
    split
    · have hg : Grows e ((delIf false iface).bind fun _ => broadcast.bind fun _ => (exitWith 0 : Sh Unit)) := .bind Grows.delIf fun _ => .bind Grows.broadcast fun _ => .exit
      obtain ⟨t', ht', _⟩ := hg ([] ++ [(Call.read b!"wg show interfaces", e.reply [] (.read b!"wg show interfaces"))])
      rw [ht']; simp
    · simp [exitWith]
  | _ => simp

section
variable {env : Env} {files : Files} {argv : List CStr} {root : Bool}

/-- A command is run only by root, with the arguments `up NAME` or `down NAME` where a file can be read for NAME and an interface name made of its path. -/
theorem c89_nothing (h : histOf (main env root files argv) ≠ []) :
    root = true ∧ ∃ prog op name path content iface, argv = [prog, op, name] ∧ (op = b!"up" ∨ op = b!"down") ∧ FileOf (Opens files) name path content ∧ NameFrom path iface := by
  unfold main at h
  split at h
  · split at h <;> exact absurd rfl h
  · rename_i prog a name
    split at h
    · rename_i ha
      split at h
      · rename_i hroot
        split at h
        · exact absurd rfl h
        · rename_i c hc
          obtain ⟨path, content, h1, h2⟩ := c84_accepted c hc
          exact ⟨hroot, prog, a, name, path, content, c.iface, rfl, ha, h1, h2⟩
      · exact absurd rfl h
    · exact absurd rfl h
  · exact absurd rfl h

/-- The program ends with 0 only for a request for help, or for root after `up` or `down` have run. -/
theorem c89_zero (hf : ∀ p, files p ≠ .error 0) (h : statusOf (main env root files argv) = some 0) :
    (∃ prog a, argv = [prog, a] ∧ a ∈ [b!"help", b!"--help", b!"-h"] ∧ histOf (main env root files argv) = []) ∨
    root = true ∧ ∃ prog op name, argv = [prog, op, name] ∧ (op = b!"up" ∨ op = b!"down") ∧ histOf (main env root files argv) ≠ [] := by
  unfold main at h ⊢
  split at h
  · rename_i prog a
    by_cases ha : a = b!"help" ∨ a = b!"--help" ∨ a = b!"-h"
    · left
      refine ⟨prog, a, rfl, by simpa using ha, ?_⟩
      rw [if_pos ha]; rfl
    · rw [if_neg ha] at h; simp [statusOf] at h
  · rename_i prog a name
    by_cases ha : a = b!"up" ∨ a = b!"down"
    · cases root with
      | false => rw [if_pos ha] at h; simp [statusOf] at h
      | true =>
        right
        refine ⟨rfl, prog, a, name, rfl, ha, ?_⟩
        dsimp only
        rw [if_pos ha] at h ⊢
        rw [if_pos rfl] at h ⊢
        cases hn : parseOptions files name with
        | refused n =>
          rw [hn] at h
          simp only [statusOf, Option.some.injEq] at h
          exact absurd h (refused_ne hf hn)
        | conf c =>
          dsimp only [histOf]
          split
          · exact cmdUp_first c env
          · exact cmdDown_first c.iface env
    · rw [if_neg ha] at h; simp [statusOf] at h
  · simp [statusOf] at h

/-- From the file to the commands: when `up NAME` ends with 0, the interface is brought up with exactly what the file says. -/
theorem c89_up {prog name path content : CStr} {hist : List Ev} (hp : env.packages ≠ .error 0) (hu : UsualMtus env)
    (hr : main env root files [prog, b!"up", name] = .ran (.exit 0) hist) (hf : FileOf (Opens files) name path content)
    (hlen : ∀ l ∈ fileLines content, (beforeNul l).length ≤ 65536) (kept : List CStr) (sets : List (CStr × CStr)) (hs : WG.Spec.Android.Says ((fileLines content).map beforeNul) kept sets) :
    ∃ iface mtu netid users, NameFrom path iface ∧ (valuesOf b!"mtu" sets = [] → mtu = 0) ∧
      (∀ v n, (valuesOf b!"mtu" sets).getLast? = some v → IsDecimal v n → n < 2 ^ 31 → mtu = n) ∧ 4096 ≤ netid ∧ netid < 65536 ∧
      BroughtUp iface kept.flatten ((listOf b!"address" sets).getD []) ((listOf b!"dns" sets).getD []) mtu env.sdk env.caller netid users hist ∧ Succeeded hist := by
  cases root with
  | false => simp [main] at hr
  | true =>
    simp only [main, true_or, if_true] at hr
    cases hc : parseOptions files name with
    | refused n => rw [hc] at hr; cases hr
    | conf c =>
      rw [hc] at hr
      simp only [Ran.ran.injEq] at hr
      have hup : cmdUp c env [] = (.exit 0, hist) := Prod.ext hr.1 hr.2
      obtain ⟨config, addrs, dnses, netid, users, h1, h2, h3, h4, h5, h6, h7⟩ := c87_up hp hu hup
      obtain ⟨g1, g2, g3, _, _, g6, g7⟩ := c84_settings c hc path content hf hlen kept sets hs
      obtain ⟨path', content', f1, f2⟩ := c84_accepted c hc
      have e := ((openConf_iff _ _ _ _).2 f1).symm.trans ((openConf_iff _ _ _ _).2 hf)
      cases e
      rw [h1] at g1; rw [h2] at g2; rw [h3] at g3
      cases g1; cases g2; cases g3
      exact ⟨c.iface, c.mtu, netid, users, f2, g6, g7, h4, h5, h6, h7⟩

/-- When `up NAME` fails after the file was read, nothing has been done or everything is undone, as `c87_failed` says of the interface of the file. -/
theorem c89_failed {prog name path content : CStr} {hist : List Ev} {n : Nat} (h0 : n ≠ 0) (hr : main env root files [prog, b!"up", name] = .ran (.exit n) hist)
    (hf : FileOf (Opens files) name path content) : ∃ iface, NameFrom path iface ∧ (PlainName iface →
      cmdsOf hist = [b!"ip link show dev " ++ iface ++ b!" 2>/dev/null"] ∨
      ∃ t1 t2, hist = t1 ++ t2 ∧ (cmdsOf t2).head? = some (b!"ip link del " ++ iface) ∧ ((∃ r4 r6 net, cmdsOf t2 = removal iface r4 r6 net) ∨ ∃ ev ∈ t2, Trouble ev)) := by
  cases root with
  | false => simp [main] at hr
  | true =>
    simp only [main, true_or, if_true] at hr
    cases hc : parseOptions files name with
    | refused n => rw [hc] at hr; cases hr
    | conf c =>
      rw [hc] at hr
      simp only [Ran.ran.injEq] at hr
      have hup : cmdUp c env [] = (.exit n, hist) := Prod.ext hr.1 hr.2
      obtain ⟨path', content', f1, f2⟩ := c84_accepted c hc
      have e := ((openConf_iff _ _ _ _).2 f1).symm.trans ((openConf_iff _ _ _ _).2 hf)
      cases e
      refine ⟨c.iface, f2, fun hn => ?_⟩
      rcases c87_failed hn h0 hup with h | ⟨r0, t1, t2, h1, _, h3, h4⟩
      · exact .inl h
      · refine .inr ⟨_ :: t1, t2, h1, h3, ?_⟩
        rcases h4 with ⟨_, _, _, r4, r6, net, _, _, _, _, _, _, h5⟩ | h5
        · exact .inl ⟨r4, r6, _, h5⟩
        · exact .inr h5
end

/-! ### Examples -/

example : statusOf (main (upEnv [] []) true (dnsFile b!"1.1.1.1, home.lan") [b!"wg-quick", b!"up", b!"wg0"]) = some 0 ∧
    main (upEnv [] []) false (dnsFile b!"1.1.1.1") [b!"wg-quick", b!"up", b!"wg0"] = .exec [b!"su", b!"-p", b!"-c", b!"wg-quick", b!"up", b!"wg0"] ∧
    statusOf (main (upEnv [] []) true (dnsFile b!"1.1.1.1") [b!"wg-quick", b!"up", b!"wg1"]) = some 2 ∧
    statusOf (main (upEnv [] []) true (dnsFile b!"1.1.1.1") [b!"wg-quick", b!"up"]) = some 1 ∧
    statusOf (main (upEnv [] []) true (dnsFile b!"1.1.1.1") [b!"wg-quick", b!"--help"]) = some 0 ∧
    statusOf (main (upEnv b!"ip link add wg0 type wireguard" []) true (dnsFile b!"1.1.1.1") [b!"wg-quick", b!"up", b!"wg0"]) = some 2 :=
  ⟨by decide +kernel, rfl, by decide +kernel, by decide +kernel, by decide +kernel, by decide +kernel⟩

end WG.Android
