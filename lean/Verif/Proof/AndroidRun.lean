import Verif.Model.Android
/-!
How the parts of wg-quick for Android run.
-/
namespace WG.Android

/-- `m` adds only events with `P` to the history, and if it ends normally, `Q` holds of the result. -/
def Safe {α : Type} (e : Env) (P : Ev → Prop) (Q : α → Prop) (m : Sh α) : Prop :=
  ∀ h, ∃ t, (m e h).2 = h ++ t ∧ (∀ ev ∈ t, P ev) ∧ ∀ a, (m e h).1 = .ok a → Q a

section
variable {α β : Type} {e : Env} {P : Ev → Prop} {Q : α → Prop} {R : β → Prop}

theorem Safe.pure {a : α} (h : Q a) : Safe e P Q (Sh.pure a) := fun _ => ⟨[], by simp [Sh.pure, h]⟩

theorem Safe.exit {n : Nat} : Safe e P Q (exitWith n) := fun _ => ⟨[], by simp [exitWith]⟩

theorem Safe.ub : Safe e P Q (ubHere (α := α)) := fun _ => ⟨[], by simp [ubHere]⟩

theorem Safe.segv : Safe e P Q (segv (α := α)) := fun _ => ⟨[], by simp [Android.segv]⟩

theorem Safe.running : Safe e P Q (fun _ h => (Out.running, h) : Sh α) := fun _ => ⟨[], by simp⟩

theorem Safe.bind {m : Sh α} {f : α → Sh β} (hm : Safe e P Q m) (hf : ∀ a, Q a → Safe e P R (f a)) : Safe e P R (m.bind f) := by
  intro h
  obtain ⟨t, ht, hP, hQ⟩ := hm h
  simp only [Sh.bind]
  rcases hr : m e h with ⟨o, h'⟩
  rw [hr] at ht hQ
  dsimp only at ht hQ
  subst ht
  cases o with
  | ok a =>
    obtain ⟨t2, h1, h2, h3⟩ := hf a (hQ a rfl) (h ++ t)
    refine ⟨t ++ t2, by simp [h1], ?_, h3⟩
    intro ev hev
    rcases List.mem_append.1 hev with h | h
    · exact hP ev h
    · exact h2 ev h
  | exit n => exact ⟨t, rfl, hP, by simp⟩
  | killed => exact ⟨t, rfl, hP, by simp⟩
  | ub => exact ⟨t, rfl, hP, by simp⟩
  | running => exact ⟨t, rfl, hP, by simp⟩

theorem Safe.mono {m : Sh α} {P' : Ev → Prop} {Q' : α → Prop} (hm : Safe e P Q m) (hP : ∀ ev, P ev → P' ev) (hQ : ∀ a, Q a → Q' a) : Safe e P' Q' m := by
  intro h
  obtain ⟨t, h1, h2, h3⟩ := hm h
  exact ⟨t, h1, fun ev he => hP ev (h2 ev he), fun a ha => hQ a (h3 a ha)⟩

theorem Safe.getEnv {Q : Env → Prop} (h : Q e) : Safe e P Q getEnv := fun _ => ⟨[], by simp [Android.getEnv, h]⟩

theorem Safe.forEach {γ : Type} {f : γ → Sh Unit} : ∀ {xs : List γ}, (∀ x ∈ xs, Safe e P (fun _ => True) (f x)) → Safe e P (fun _ => True) (Android.forEach f xs)
  | [], _ => Safe.pure trivial
  | x :: xs, h => Safe.bind (h x (by simp)) fun _ _ => Safe.forEach (xs := xs) fun y hy => h y (by simp [hy])

/-- The replies that can come satisfy `K`. -/
theorem Safe.call {K : Call → Reply → Prop} (hK : ∀ h c, K c (e.reply h c)) {c : Call} (hP : ∀ r, K c r → P (c, r)) : Safe e P (fun r => K c r) (Android.call c) := by
  intro h
  simp only [Android.call]
  by_cases hk : (e.reply h c).killed
  · rw [if_pos hk]
    exact ⟨_, rfl, by simpa using hP _ (hK h c), by simp⟩
  · rw [if_neg hk]
    refine ⟨_, rfl, by simpa using hP _ (hK h c), ?_⟩
    intro a ha
    injection ha with ha
    subst ha
    exact hK h c

theorem Safe.call' {c : Call} (hP : ∀ r, P (c, r)) : Safe e P (fun _ => True) (Android.call c) :=
  Safe.mono (Safe.call (K := fun _ _ => True) (fun _ _ => trivial) fun r _ => hP r) (fun _ h => h) fun _ _ => trivial

variable {K : Call → Reply → Prop} (hK : ∀ h c, K c (e.reply h c))
include hK

theorem Safe.popen {s : CStr} (hP : ∀ r, K (.read s) r → P (.read s, r)) : Safe e P (fun r => K (.read s) r) (popen s) := by
  apply Safe.bind (Safe.call hK hP)
  intro r hr
  by_cases h : r.failed ≠ 0
  · rw [if_pos h]; exact Safe.exit
  · rw [if_neg h]; exact Safe.pure hr

theorem Safe.firstLine {s : CStr} (hP : ∀ r, K (.read s) r → P (.read s, r)) :
    Safe e P (fun l => ∀ x, l = some x → ∃ r, K (.read s) r ∧ ((getlines r.out).map cstr).head? = some x) (firstLine s) := by
  apply Safe.bind (Safe.popen hK hP)
  intro r hr
  rcases hl : (getlines r.out).map cstr with _ | ⟨l, ls⟩
  · dsimp only
    apply Safe.bind (Q := fun _ => True)
    · unfold atEof; split
      · exact Safe.exit
      · exact Safe.pure trivial
    · intro _ _; exact Safe.pure (by simp)
  · dsimp only
    refine Safe.pure fun x hx => ⟨r, hr, ?_⟩
    rw [hl]; simpa using hx

theorem Safe.forLines {s : CStr} {f : CStr → Sh Unit} (hP : ∀ r, K (.read s) r → P (.read s, r))
    (hf : ∀ r, K (.read s) r → ∀ l ∈ (getlines r.out).map cstr, Safe e P (fun _ => True) (f l)) : Safe e P (fun _ => True) (forLines s f) := by
  apply Safe.bind (Safe.popen hK hP)
  intro r hr
  apply Safe.bind (Safe.forEach (hf r hr))
  intro _ _
  unfold atEof; split
  · exact Safe.exit
  · exact Safe.pure trivial

omit hK in
theorem Safe.atEof {r : Reply} : Safe e P (fun _ => True) (atEof r) := by
  unfold Android.atEof; split
  · exact Safe.exit
  · exact Safe.pure trivial

omit hK in
theorem Safe.cmd {x : Bool} {s : CStr} (hP : ∀ r, P (.system s, r)) : Safe e P (fun _ => True) (cmd x s) := by
  apply Safe.bind (Safe.call' hP)
  intro r _
  split
  · exact Safe.exit
  · exact Safe.pure trivial

omit hK in
theorem Safe.cndc {s : CStr} (hP : ∀ r, P (.read (b!"ndc " ++ s), r)) : Safe e P (fun _ => True) (cndc s) := by
  apply Safe.bind (Safe.firstLine (K := fun _ _ => True) (fun _ _ => trivial) fun r _ => hP r)
  intro l _
  rcases l with _ | l
  · exact Safe.exit
  · dsimp only; split
    · exact Safe.exit
    · exact Safe.pure trivial
end

/-! ### Successful parts -/

section
variable {α β : Type} {e : Env} {h h' : List Ev}

theorem bind_ok {m : Sh α} {f : α → Sh β} {b : β} (hb : m.bind f e h = (.ok b, h')) : ∃ a h1, m e h = (.ok a, h1) ∧ f a e h1 = (.ok b, h') := by
  simp only [Sh.bind] at hb
  rcases hr : m e h with ⟨o, h1⟩
  rw [hr] at hb
  cases o with
  | ok a => exact ⟨a, h1, rfl, hb⟩
  | _ => simp at hb

theorem pure_ok {a b : α} (hb : Sh.pure a e h = (.ok b, h')) : a = b ∧ h = h' := by
  simp only [Sh.pure, Prod.mk.injEq, Out.ok.injEq] at hb; exact hb

theorem exit_ok {n : Nat} {b : α} (hb : exitWith n e h = (.ok b, h')) : False := by simp [exitWith] at hb

theorem call_ok {c : Call} {r : Reply} (hb : call c e h = (.ok r, h')) : r = e.reply h c ∧ h' = h ++ [(c, r)] ∧ r.killed = false := by
  simp only [call] at hb
  by_cases hk : (e.reply h c).killed
  · rw [if_pos hk] at hb; simp at hb
  · rw [if_neg hk] at hb
    simp only [Prod.mk.injEq, Out.ok.injEq] at hb
    obtain ⟨h1, h2⟩ := hb
    subst h1; subst h2
    exact ⟨rfl, rfl, by simpa using hk⟩

theorem popen_ok {s : CStr} {r : Reply} (hb : popen s e h = (.ok r, h')) : r = e.reply h (.read s) ∧ h' = h ++ [(.read s, r)] ∧ r.failed = 0 := by
  obtain ⟨a, h1, h2, h3⟩ := bind_ok hb
  obtain ⟨h4, h5, _⟩ := call_ok h2
  by_cases hf : a.failed ≠ 0
  · rw [if_pos hf] at h3; exact (exit_ok h3).elim
  · rw [if_neg hf] at h3
    obtain ⟨h6, h7⟩ := pure_ok h3
    subst h6; subst h7
    exact ⟨h4, h5, Classical.not_not.1 hf⟩

theorem firstLine_ok {s : CStr} {l : Option CStr} (hb : firstLine s e h = (.ok l, h')) :
    ∃ r, r = e.reply h (.read s) ∧ h' = h ++ [(.read s, r)] ∧ r.failed = 0 ∧ ((getlines r.out).map cstr).head? = l ∧ (l = none → r.readErr = 0) := by
  obtain ⟨r, h1, h2, h3⟩ := bind_ok hb
  obtain ⟨h4, h5, h6⟩ := popen_ok h2
  rcases hl : (getlines r.out).map cstr with _ | ⟨x, xs⟩
  · rw [hl] at h3
    dsimp only at h3
    obtain ⟨u, h7, h8, h9⟩ := bind_ok h3
    obtain ⟨h10, h11⟩ := pure_ok h9
    unfold atEof at h8
    by_cases hr : r.readErr ≠ 0
    · rw [if_pos hr] at h8; exact (exit_ok h8).elim
    · rw [if_neg hr] at h8
      obtain ⟨_, h12⟩ := pure_ok h8
      subst h12; subst h11; subst h10
      exact ⟨r, h4, h5, h6, by rw [hl]; rfl, fun _ => Classical.not_not.1 hr⟩
  · rw [hl] at h3
    dsimp only at h3
    obtain ⟨h10, h11⟩ := pure_ok h3
    subst h11; subst h10
    exact ⟨r, h4, h5, h6, by rw [hl]; rfl, by simp⟩

theorem cmd_ok {x : Bool} {s : CStr} {u : Unit} (hb : cmd x s e h = (.ok u, h')) :
    h' = h ++ [(.system s, e.reply h (.system s))] ∧ (x = false → (e.reply h (.system s)).status = .exited 0) := by
  obtain ⟨r, h1, h2, h3⟩ := bind_ok hb
  obtain ⟨h4, h5, _⟩ := call_ok h2
  subst h4
  by_cases hc : (e.reply h (.system s)).status.ret ≠ 0 ∧ x = false
  · rw [if_pos hc] at h3; exact (exit_ok h3).elim
  · rw [if_neg hc] at h3
    obtain ⟨_, h6⟩ := pure_ok h3
    subst h6
    refine ⟨h5, fun hx => ?_⟩
    have := Classical.not_not.1 (fun hh => hc ⟨hh, hx⟩)
    revert this
    cases hs : (e.reply h (.system s)).status <;> simp [Wait.ret]

/-- `ndc` answered, and not with an error. -/
def NdcFine (r : Reply) : Prop := ∃ l, ((getlines r.out).map cstr).head? = some l ∧ ¬ (400 ≤ atoi l ∧ atoi l < 600)

theorem cndc_ok {s : CStr} {u : Unit} (hb : cndc s e h = (.ok u, h')) :
    h' = h ++ [(.read (b!"ndc " ++ s), e.reply h (.read (b!"ndc " ++ s)))] ∧ NdcFine (e.reply h (.read (b!"ndc " ++ s))) := by
  obtain ⟨l, h1, h2, h3⟩ := bind_ok hb
  obtain ⟨r, h4, h5, h6, h7, h8⟩ := firstLine_ok h2
  rcases l with _ | l
  · exact (exit_ok h3).elim
  · dsimp only at h3
    by_cases hc : 400 ≤ atoi l ∧ atoi l < 600
    · rw [if_pos hc] at h3; exact (exit_ok h3).elim
    · rw [if_neg hc] at h3
      obtain ⟨_, h9⟩ := pure_ok h3
      subst h9; subst h4
      exact ⟨h5, l, h7, hc⟩

theorem forEach_ok {γ : Type} {f : γ → Sh Unit} {g : γ → List Call} (hf : ∀ x e h h' u, f x e h = (.ok u, h') → ∃ t, h' = h ++ t ∧ t.map Prod.fst = g x) :
    ∀ {xs : List γ} {h h' : List Ev} {u : Unit}, forEach f xs e h = (.ok u, h') → ∃ t, h' = h ++ t ∧ t.map Prod.fst = xs.flatMap g
  | [], h, h', u, hb => by obtain ⟨_, h1⟩ := pure_ok hb; exact ⟨[], by simp [h1]⟩
  | x :: xs, h, h', u, hb => by
    obtain ⟨a, h1, h2, h3⟩ := bind_ok hb
    obtain ⟨t, h4, h5⟩ := hf x e h h1 a h2
    obtain ⟨t2, h6, h7⟩ := forEach_ok hf h3
    exact ⟨t ++ t2, by simp [h6, h4], by simp [h5, h7]⟩

theorem flatMap_one {γ δ : Type} (f : γ → δ) (xs : List γ) : xs.flatMap (fun x => [f x]) = xs.map f := by
  induction xs with
  | nil => rfl
  | cons x xs ih => simp only [List.flatMap_cons, ih, List.map_cons, List.singleton_append]

theorem forEach_cndc {γ : Type} {f : γ → CStr} {xs : List γ} {u : Unit} (hb : forEach (fun x => cndc (f x)) xs e h = (.ok u, h')) :
    ∃ t, h' = h ++ t ∧ t.map Prod.fst = xs.map fun x => Call.read (b!"ndc " ++ f x) := by
  obtain ⟨t, h1, h2⟩ := forEach_ok (g := fun x => [Call.read (b!"ndc " ++ f x)]) (fun x e h h' u hx => ⟨_, (cndc_ok hx).1, by simp⟩) hb
  exact ⟨t, h1, by rw [h2]; exact flatMap_one _ xs⟩
end

end WG.Android
