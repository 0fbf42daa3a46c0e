import Verif.Proof.BsdSave
/-! How `save` and `down` end on the BSDs. -/
namespace WG.Bsd
open WG.Quick (Call Reply Ev World Out calm chomp readLoopLines hasInfix hasInfix_iff chomp_eq)
open WG.Spec WG.Spec.Quick WG.Spec.Bsd

variable {α β : Type} {c : Cfg}

/-! ### Traps -/

theorem cleanIf_try {w : World} {s s' : St} {o : Out Unit} (h : cleanIf c (calm w) s = (o, s')) :
    ∃ l, TempTry c s.tmp l ∧ s' = plus s l ∧ ((∃ u, o = .ok u) ∨ ∃ n, n ≠ 0 ∧ o = .exit n) := by
  unfold TempTry TempRemoved TempLeft
  unfold cleanIf at h
  by_cases hp : c.plat = .freebsd
  · simp only [if_pos hp] at h ⊢
    unfold cleanTemp at h
    rw [get_bind] at h
    by_cases ht : s.tmp = []
    · rw [if_pos ht] at h
      simp only [exitWith, Prod.mk.injEq] at h
      exact ⟨[], .inr ⟨hp, .inl ⟨ht, rfl⟩⟩, by rw [plus_nil]; exact h.2.symm, .inr ⟨1, by simp, h.1.symm⟩⟩
    · rw [if_neg ht, run_eq] at h
      simp only [calm, Bool.false_eq_true, if_false, true_and, Prod.mk.injEq] at h
      by_cases hs : (w s.hist (act [b!"rm", b!"-rf", s.tmp])).status = 0
      · rw [if_neg (by simpa using hs)] at h
        exact ⟨_, .inl ⟨ht, _, ⟨rfl, hs⟩, rfl⟩, h.2.symm, .inl ⟨_, h.1.symm⟩⟩
      · rw [if_pos hs] at h
        exact ⟨_, .inr ⟨hp, .inr ⟨{ status := (w s.hist (act [b!"rm", b!"-rf", s.tmp])).status, out := (w s.hist (act [b!"rm", b!"-rf", s.tmp])).out }, hs, rfl⟩⟩, h.2.symm, .inr ⟨_, hs, h.1.symm⟩⟩
  · simp only [if_neg hp] at h ⊢
    simp only [Sh.pure, Prod.mk.injEq] at h
    exact ⟨[], .inl rfl, by rw [plus_nil]; exact h.2.symm, .inl ⟨_, h.1.symm⟩⟩

theorem trapSave_try {w : World} {s s' : St} {o : Out Unit} (h : trapBody c .save (calm w) s = (o, s')) :
    ∃ l, FileTry c s.tmp l ∧ s' = plus s l ∧ ((∃ u, o = .ok u) ∨ ∃ n, n ≠ 0 ∧ o = .exit n) := by
  unfold trapBody at h
  rcases bind_inv h with ⟨_, s1, h1, h⟩ | ⟨o1, h1, h2⟩
  · obtain ⟨e, he, rfl⟩ := run_did h1
    obtain ⟨l, h3, rfl, h4⟩ := cleanIf_try h
    obtain ⟨k, r⟩ := e
    obtain ⟨he1, he2⟩ := he
    simp only at he1 he2
    subst he1
    exact ⟨_, ⟨r, l, rfl, by rw [if_pos he2]; exact h3⟩, plus_plus .., h4⟩
  · obtain ⟨h3, ⟨rfl, _⟩ | ⟨_, h4⟩ | ⟨h4, _, _, h5⟩⟩ := run_inv h1
    · exact absurd rfl (stopped_not_ok h2 _)
    · cases h4
    · subst h4
      refine ⟨_, ⟨_, [], rfl, by rw [if_neg h5]⟩, h3, .inr ⟨_, h5, ?_⟩⟩
      cases o <;> first | exact h2.elim | (rw [h2])

/-- What the trap in effect does. -/
def tryOf (c : Cfg) (t : Trap) (dir : CStr) : List Ev → Prop := if t = .save then FileTry c dir else TempTry c dir

theorem tempTry_nil (hp : c.plat ≠ .freebsd) (dir : CStr) : TempTry c dir [] := by
  unfold TempTry TempRemoved
  left; rw [if_neg hp]

theorem trap_try {w : World} {s s' : St} {o : Out Unit} {t : Trap} (ht : t = .save ∨ t = restTrap c) (h : trapBody c t (calm w) s = (o, s')) :
    ∃ l, tryOf c t s.tmp l ∧ s' = plus s l ∧ ((∃ u, o = .ok u) ∨ ∃ n, n ≠ 0 ∧ o = .exit n) := by
  unfold tryOf
  rcases ht with rfl | rfl
  · rw [if_pos rfl]; exact trapSave_try h
  · have hs : restTrap c ≠ .save := by unfold restTrap; split <;> simp
    rw [if_neg hs]
    have : trapBody c (restTrap c) = cleanIf c := by
      unfold restTrap cleanIf
      split <;> rfl
    rw [this] at h
    exact cleanIf_try h

theorem trap_cases {t : Trap} (ht : t = .save ∨ t = restTrap c) : (t = .none ∧ c.plat ≠ .freebsd) ∨ t ≠ .none := by
  rcases ht with rfl | rfl
  · exact .inr (by simp)
  · unfold restTrap
    split
    · exact .inr (by simp)
    · exact .inl ⟨rfl, by assumption⟩

theorem trapStatus_none {t : Trap} (ht : t = .save ∨ t = restTrap c) : trapStatus t = none := by
  rcases ht with rfl | rfl
  · rfl
  · unfold restTrap; split <;> rfl

theorem exitTrap_try {w : World} {s s' : St} {e : End} {k : Nat} (ht : s.trap = .save ∨ s.trap = restTrap c) (h : exitTrap (trapBody c) trapStatus k w s = (e, s')) :
    ∃ l m, tryOf c s.trap s.tmp l ∧ s' = plus s l ∧ e = .exit m ∧ (k ≠ 0 → m ≠ 0) := by
  unfold exitTrap at h
  rcases trap_cases ht with ⟨h1, h2⟩ | h1
  · rw [h1] at h ⊢
    simp only [Prod.mk.injEq] at h
    refine ⟨[], k, ?_, by rw [plus_nil]; exact h.2.symm, h.1.symm, id⟩
    unfold tryOf
    rw [if_neg (by simp)]
    exact tempTry_nil h2 _
  · rcases h2 : trapBody c s.trap (calm w) s with ⟨o, s2⟩
    obtain ⟨l, h3, h4, h5⟩ := trap_try ht h2
    have hn := trapStatus_none ht
    rcases hst : s.trap with - | - | - | - | - <;> rw [hst] at h h2 hn h1 <;> first | exact absurd rfl h1 | skip
    all_goals
      dsimp only at h
      rw [h2] at h
      rw [hst] at h3
      rcases h5 with ⟨u, rfl⟩ | ⟨n, hn', rfl⟩
      · simp only [hn, Option.getD_none, Prod.mk.injEq] at h
        exact ⟨l, k, h3, by rw [← h.2, h4], h.1.symm, id⟩
      · simp only [Prod.mk.injEq] at h
        exact ⟨l, n, h3, by rw [← h.2, h4], h.1.symm, fun _ => hn'⟩

/-- The end after a stop. -/
theorem finish_stops {w : World} {s s' : St} {o : Out Unit} {e : End} {l : List Ev} (ht : s.trap = .save ∨ s.trap = restTrap c) (ho : Halt o l)
    (h : finish (trapBody c) trapStatus w (o, s) = (e, s')) : ∃ last, Stops (tryOf c s.trap s.tmp) e l last ∧ s'.hist = s.hist ++ last := by
  rcases ho with ⟨n, hn, rfl⟩ | ⟨⟨n, rfl⟩, hl⟩
  · obtain ⟨l1, m, h1, h2, h3, h4⟩ := exitTrap_try ht h
    exact ⟨l1, .inl ⟨⟨m, h4 hn, h3⟩, h1⟩, by rw [h2]; rfl⟩
  · dsimp only [finish] at h
    rcases trap_cases ht with ⟨h1, h2⟩ | h1
    · rw [h1] at h
      simp only [Prod.mk.injEq] at h
      have hnil : tryOf c s.trap s.tmp [] := by
        rw [h1]; unfold tryOf; rw [if_neg (by simp)]; exact tempTry_nil h2 _
      exact ⟨[], .inr ⟨hl, .inl h.1.symm, [], [], rfl, hnil, hnil⟩, by rw [← h.2]; simp⟩
    · rcases h2 : trapBody c s.trap (calm w) s with ⟨o, s2⟩
      obtain ⟨l1, h3, h4, h5⟩ := trap_try ht h2
      have hk : ∃ k, exitTrap (trapBody c) trapStatus k w s2 = (e, s') := by
        rcases hst : s.trap with - | - | - | - | - <;> rw [hst] at h h2 h1 <;> first | exact absurd rfl h1 | skip
        all_goals
          dsimp only at h
          rw [h2] at h
          rcases h5 with ⟨u, rfl⟩ | ⟨n, hn', rfl⟩
          · exact ⟨_, h⟩
          · exact ⟨_, h⟩
      obtain ⟨k, hk⟩ := hk
      have ht2 : s2.trap = s.trap := by rw [h4]; rfl
      have htmp : s2.tmp = s.tmp := by rw [h4]; rfl
      obtain ⟨l2, m, g1, g2, g3, _⟩ := exitTrap_try (by rw [ht2]; exact ht) hk
      rw [ht2, htmp] at g1
      refine ⟨l1 ++ l2, .inr ⟨hl, .inr ⟨m, g3⟩, l1, l2, rfl, h3, g1⟩, ?_⟩
      rw [g2, h4, plus_plus]; rfl

theorem finish_temp {w : World} {s s' : St} {o : Out Unit} {e : End} {l : List Ev} (ht : s.trap = restTrap c) (ho : Halt o l)
    (h : finish (trapBody c) trapStatus w (o, s) = (e, s')) : ∃ last, Stops (TempTry c s.tmp) e l last ∧ s'.hist = s.hist ++ last := by
  have := finish_stops (.inr ht) ho h
  have hs : restTrap c ≠ .save := by unfold restTrap; split <;> simp
  unfold tryOf at this
  rw [ht, if_neg hs] at this
  exact this

theorem finish_file {w : World} {s s' : St} {o : Out Unit} {e : End} {l : List Ev} (ht : s.trap = .save) (ho : Halt o l)
    (h : finish (trapBody c) trapStatus w (o, s) = (e, s')) : ∃ last, Stops (FileTry c s.tmp) e l last ∧ s'.hist = s.hist ++ last := by
  have := finish_stops (.inl ht) ho h
  unfold tryOf at this
  rw [ht, if_pos rfl] at this
  exact this

/-! ### The check -/

theorem listedAs_iff (name out : CStr) : hasInfix (b!" " ++ name ++ b!" ") (b!" " ++ chomp out ++ b!" ") = true ↔ ListedAs name out := by
  rw [hasInfix_iff, chomp_eq]; rfl

theorem realOpenbsd_asks : Asks (realOpenbsd c) := by
  refine asks_bind fun r => ?_
  cases findReal c.iface [] (rawLines r.out) with
  | some n => exact asks_modify _ fun w s => ⟨true, s, rfl⟩
  | none => exact asks_pure _

theorem realDarwin_asks : Asks (realDarwin c false) := by
  refine asks_run (asks_bind fun t => asks_ite (fun _ => asks_pure _) fun _ => asks_bind fun n => ?_)
  rw [if_neg (by simp)]
  refine asks_ite (fun _ => asks_pure _) fun _ => asks_bind fun t => asks_ite (fun _ => asks_pure _) fun _ => asks_bind fun a => asks_bind fun b => ?_
  dsimp only
  exact asks_ite (fun _ => asks_pure _) fun _ => asks_modify _ fun w s => ⟨true, s, rfl⟩

/-- Interrupted while questions were asked. -/
def Interrupted (o : Out α) (l : List Ev) : Prop := (∃ n, o = .signal n) ∧ (∀ v ∈ l, ∃ q, v.1 = .query q) ∧ ∃ v ∈ l, v.2.sig = true

theorem checkIface_ends {w : World} {s s' : St} {o : Out Unit} (hs : c.plat = .freebsd → s.real = c.iface) (h : checkIface c w s = (o, s')) :
    (∃ real l, o = .ok () ∧ FoundStep c real l ∧ s' = { plus s l with real := real }) ∨
    (∃ real l, o = .exit 1 ∧ MissingStep c l ∧ s' = { plus s l with real := real }) ∨
    (∃ l, s'.hist = s.hist ++ l ∧ s'.trap = s.trap ∧ s'.tmp = s.tmp ∧ Interrupted o l) := by
  unfold checkIface at h
  unfold FoundStep MissingStep
  cases hp : c.plat with
  | freebsd =>
    rw [hp] at h
    dsimp only at h ⊢
    have hreal := hs hp
    rcases bind_inv h with ⟨r, s1, h1, h⟩ | ⟨o1, h1, h2⟩
    swap
    · obtain ⟨r, e, hr, _⟩ := call_stop h1 h2
      refine .inr (.inr ⟨_, by rw [e]; rfl, by rw [e]; rfl, by rw [e]; rfl, ?_, by simp, _, List.mem_singleton_self _, hr⟩)
      obtain ⟨_, ⟨rfl, _⟩ | ⟨rfl, _⟩⟩ := call_inv h1
      · exact absurd rfl (stopped_not_ok h2 _)
      · cases o <;> first | exact h2.elim | exact ⟨_, rfl⟩
    obtain rfl := call_plus h1
    by_cases hl : hasInfix (b!" " ++ c.iface ++ b!" ") (b!" " ++ chomp r.out ++ b!" ") = true
    · rw [if_pos hl] at h
      simp only [Sh.pure, Prod.mk.injEq] at h
      refine .inl ⟨c.iface, _, h.1.symm, ⟨rfl, r, (listedAs_iff _ _).1 hl, rfl⟩, ?_⟩
      rw [← h.2, ← hreal]; rfl
    · rw [if_neg hl] at h
      simp only [exitWith, Prod.mk.injEq] at h
      refine .inr (.inl ⟨c.iface, _, h.1.symm, ⟨r, fun hh => hl ((listedAs_iff _ _).2 hh), rfl⟩, ?_⟩)
      rw [← h.2, ← hreal]; rfl
  | openbsd =>
    rw [hp] at h
    dsimp only at h ⊢
    rcases bind_inv h with ⟨b, s1, h1, h⟩ | ⟨o1, h1, h2⟩
    · obtain ⟨r, ⟨rfl, n, hd, rfl⟩ | ⟨rfl, hd, rfl⟩⟩ := realOpenbsd_ok h1
      · rw [if_pos rfl] at h
        simp only [Sh.pure, Prod.mk.injEq] at h
        exact .inl ⟨n, _, h.1.symm, ⟨r, _, fullLines _, hd, rfl⟩, h.2.symm⟩
      · rw [if_neg (by simp)] at h
        simp only [exitWith, Prod.mk.injEq] at h
        exact .inr (.inl ⟨s.real, _, h.1.symm, ⟨r, _, fullLines _, hd, rfl⟩, h.2.symm⟩)
    · rcases realOpenbsd_asks (c := c) w s with ⟨b, s2, h3⟩ | ⟨n, l, h3, hq, hv⟩
      · rw [h1] at h3; cases h3; exact absurd rfl (stopped_not_ok h2 _)
      · rw [h1] at h3
        simp only [Prod.mk.injEq] at h3
        obtain ⟨rfl, rfl⟩ := h3
        refine .inr (.inr ⟨l, rfl, rfl, rfl, ?_, hq, hv⟩)
        cases o <;> first | exact h2.elim | exact ⟨_, rfl⟩
  | darwin =>
    rw [hp] at h
    dsimp only at h ⊢
    rcases bind_inv h with ⟨b, s1, h1, h⟩ | ⟨o1, h1, h2⟩
    swap
    · rcases realDarwin_asks (c := c) w s with ⟨b, s2, h3⟩ | ⟨n, l, h3, hq, hv⟩
      · rw [h1] at h3; cases h3; exact absurd rfl (stopped_not_ok h2 _)
      · rw [h1] at h3
        simp only [Prod.mk.injEq] at h3
        obtain ⟨rfl, rfl⟩ := h3
        refine .inr (.inr ⟨l, rfl, rfl, rfl, ?_, hq, hv⟩)
        cases o <;> first | exact h2.elim | exact ⟨_, rfl⟩
    obtain ⟨l, ⟨rfl, n, hd, rfl⟩ | ⟨rfl, hd, rfl⟩⟩ := realDarwin_ok h1
    swap
    · rw [if_neg (by simp)] at h
      simp only [exitWith, Prod.mk.injEq] at h
      exact .inr (.inl ⟨s.real, _, h.1.symm, .inl hd, h.2.symm⟩)
    rw [if_pos rfl] at h
    rcases bind_inv h with ⟨r, s1, h1, h⟩ | ⟨o1, h1, h2⟩
    swap
    · obtain ⟨r, e, hr, _⟩ := call_stop h1 h2
      refine .inr (.inr ⟨l ++ [(.query [b!"wg", b!"show", b!"interfaces"], r)], by rw [e]; exact List.append_assoc s.hist l _, by rw [e]; rfl, by rw [e]; rfl, ?_, fun v hv => ?_, _, List.mem_append_right _ (List.mem_singleton_self _), hr⟩)
      · obtain ⟨_, ⟨rfl, _⟩ | ⟨rfl, _⟩⟩ := call_inv h1
        · exact absurd rfl (stopped_not_ok h2 _)
        · cases o <;> first | exact h2.elim | exact ⟨_, rfl⟩
      · rcases List.mem_append.1 hv with hv | hv
        · exact nameLookup_queries hd v hv
        · rw [List.mem_singleton.1 hv]; exact ⟨_, rfl⟩
    obtain rfl := call_plus h1
    rw [get_bind] at h
    have ep : plus { plus s l with real := n } [(.query [b!"wg", b!"show", b!"interfaces"], r)] =
        { plus s (l ++ [(.query [b!"wg", b!"show", b!"interfaces"], r)]) with real := n } := by unfold plus; simp
    rw [ep] at h
    by_cases hl : hasInfix (b!" " ++ n ++ b!" ") (b!" " ++ chomp r.out ++ b!" ") = true
    · rw [if_pos hl] at h
      simp only [Sh.pure, Prod.mk.injEq] at h
      exact .inl ⟨n, _, h.1.symm, ⟨l, r, hd, (listedAs_iff _ _).1 hl, rfl⟩, h.2.symm⟩
    · rw [if_neg hl] at h
      simp only [exitWith, Prod.mk.injEq] at h
      exact .inr (.inl ⟨n, _, h.1.symm, .inr ⟨l, r, n, hd, fun hh => hl ((listedAs_iff _ _).2 hh), rfl⟩, h.2.symm⟩)

/-! ### Up to the check -/

/-- The beginning that `save` and `down` have in common: refused, nothing, or the rest runs with the interface found. -/
theorem begin_ends {k : Sh Unit} {w : World} {e : End} {s : St} (h : script c ((checkIface c).bind fun _ => k) w = (e, s)) :
    Refused c e s.hist ∨ UpNothing c e s.hist ∨
    ∃ dir real lt lf s1 o s2, TempStep c dir lt ∧ FoundStep c real lf ∧ s1.hist = lt ++ lf ∧ s1.real = real ∧ s1.trap = restTrap c ∧ s1.haveDns = false ∧
      (TempTry c s1.tmp = TempTry c dir) ∧ (∀ k e l, Cleaned c s1.tmp k e l → Cleaned c dir k e l) ∧ k w s1 = (o, s2) ∧ finish (trapBody c) trapStatus w (o, s2) = (e, s) := by
  unfold script commands at h
  rcases hc : (((if c.plat = .freebsd then makeTemp else Sh.pure ()).bind fun _ => (setTrap (restTrap c)).bind fun _ => (checkIface c).bind fun _ => k) w (St.start c)) with ⟨o, s1⟩
  rw [hc] at h
  have tempQ : ∀ {dir : CStr} {l : List Ev}, TempStep c dir l → ∀ v ∈ l, (∃ q, v.1 = .query q) ∨ (c.plat = .freebsd ∧ (v.1 = cmd [b!"mktemp", b!"-d"] ∨ ∃ d, v.1 = cmd [b!"rm", b!"-rf", d])) := by
    intro dir l h2 v hv
    unfold TempStep at h2
    by_cases hp : c.plat = .freebsd
    · rw [if_pos hp] at h2
      obtain ⟨r, t, _, _, e⟩ := h2
      rw [e] at hv
      simp only [List.mem_cons, List.not_mem_nil, or_false] at hv
      rcases hv with rfl | rfl
      · exact .inr ⟨hp, .inl rfl⟩
      · exact .inl ⟨_, rfl⟩
    · rw [if_neg hp] at h2
      rw [h2] at hv; cases hv
  rcases bind_inv hc with ⟨_, s2, h1, hc⟩ | ⟨o1, h1, h2⟩
  swap
  · rcases temp_ends h1 with ⟨dir, l, _, _, rfl⟩ | ⟨hp, l, rfl, hq, ho⟩
    · exact absurd rfl (stopped_not_ok h2 _)
    · have htr : (plus (St.start c) l).trap = .none := rfl
      have hh : (plus (St.start c) l).hist = l := by unfold plus St.start; simp
      have ha : ∀ v ∈ l, (∃ q, v.1 = .query q) ∨ (c.plat = .freebsd ∧ (v.1 = cmd [b!"mktemp", b!"-d"] ∨ ∃ d, v.1 = cmd [b!"rm", b!"-rf", d])) :=
        fun v hv => (hq v hv).imp id fun x => ⟨hp, .inl x⟩
      rcases ho with rfl | ⟨⟨n, rfl⟩, hv⟩
      · cases o <;> first | exact h2.elim | skip
        obtain rfl : 1 = _ := h2
        simp only [finish, exitTrap, htr, Prod.mk.injEq] at h
        refine .inr (.inl ⟨?_, .inr ⟨1, by simp, h.1.symm⟩⟩)
        rw [← h.2, hh]; exact ha
      · cases o <;> first | exact h2.elim | skip
        simp only [finish, htr, Prod.mk.injEq] at h
        refine .inr (.inl ⟨?_, .inl ?_⟩)
        · rw [← h.2, hh]; exact ha
        · rw [← h.2, hh]; exact hv
  rcases temp_ends h1 with ⟨dir, lt, ht, rfl, _⟩ | ⟨_, _, _, _, ho⟩
  swap
  · rcases ho with ho | ⟨⟨_, ho⟩, _⟩ <;> cases ho
  rw [setTrap_bind] at hc
  generalize hs0 : ({ ({ plus (St.start c) lt with tmp := if c.plat = .freebsd then dir else (St.start c).tmp } : St) with trap := restTrap c } : St) = s0 at hc
  have e1 : s0.hist = lt := by rw [← hs0]; unfold plus St.start; simp
  have e2 : s0.trap = restTrap c := by rw [← hs0]
  have e3 : s0.haveDns = false := by rw [← hs0]; rfl
  have e4 : c.plat = .freebsd → s0.real = c.iface := by intro hp; rw [← hs0]; unfold plus St.start; simp [hp]
  have e5 : c.plat = .freebsd → s0.tmp = dir := by intro hp; rw [← hs0]; simp [hp]
  have tt : TempTry c s0.tmp = TempTry c dir := by
    by_cases hp : c.plat = .freebsd
    · rw [e5 hp]
    · funext l; unfold TempTry TempRemoved TempLeft; simp [hp]
  have tc : ∀ k e l, Cleaned c s0.tmp k e l → Cleaned c dir k e l := by
    by_cases hp : c.plat = .freebsd
    · rw [e5 hp]; exact fun _ _ _ h => h
    · intro k e l h; unfold Cleaned TempRemoved TempLeft at *; simpa [hp] using h
  rcases bind_inv hc with ⟨_, s3, h2, hc⟩ | ⟨o1, h2, h3⟩
  · rcases checkIface_ends e4 h2 with ⟨real, lf, _, hf, rfl⟩ | ⟨_, _, ho, _⟩ | ⟨_, _, _, _, ⟨_, ho⟩, _⟩
    · exact .inr (.inr ⟨dir, real, lt, lf, { plus s0 lf with real := real }, o, s1, ht, hf, by rw [← e1]; rfl, rfl, e2, e3, tt, tc, hc, h⟩)
    · cases ho
    · cases ho
  · rcases checkIface_ends e4 h2 with ⟨_, _, rfl, _⟩ | ⟨real, lm, rfl, hm, rfl⟩ | ⟨l, g1, g2, g3, ⟨n, rfl⟩, hq, hv⟩
    · exact absurd rfl (stopped_not_ok h3 _)
    · cases o <;> first | exact h3.elim | skip
      obtain rfl : 1 = _ := h3
      obtain ⟨l, h5, h6⟩ := exitTrap_rest (c := c) (s := { plus s0 lm with real := real }) e2 h
      refine .inl ⟨dir, lt, lm, l, ?_, ht, hm, tc _ _ _ h5⟩
      rw [h6, ← List.append_assoc, ← e1]; rfl
    · cases o <;> first | exact h3.elim | skip
      obtain ⟨last, hl, hs⟩ : ∃ last, (∀ v ∈ last, (c.plat = .freebsd ∧ ∃ d, v.1 = cmd [b!"rm", b!"-rf", d])) ∧ s.hist = s1.hist ++ last := by
        have tryActs : ∀ {d : CStr} {l : List Ev}, TempTry c d l → ∀ v ∈ l, c.plat = .freebsd ∧ ∃ d, v.1 = cmd [b!"rm", b!"-rf", d] := by
          intro d l hl v hv
          unfold TempTry TempRemoved TempLeft at hl
          rcases hl with hl | ⟨hp, ⟨_, rfl⟩ | ⟨r, _, rfl⟩⟩
          · by_cases hp : c.plat = .freebsd
            · rw [if_pos hp] at hl
              obtain ⟨_, ev, he, rfl⟩ := hl
              rw [List.mem_singleton.1 hv]
              exact ⟨hp, d, he.1⟩
            · rw [if_neg hp] at hl
              rw [hl] at hv; cases hv
          · cases hv
          · rw [List.mem_singleton.1 hv]; exact ⟨hp, d, rfl⟩
        rename_i n'
        have h' := h
        simp only [finish] at h'
        by_cases hp : c.plat = .freebsd
        · have htr : s1.trap = .clean := by rw [g2, e2]; unfold restTrap; rw [if_pos hp]
          rw [htr] at h'
          dsimp only at h'
          rcases h6 : trapBody c .clean (calm w) s1 with ⟨o2, s5⟩
          have hrt : Trap.clean = restTrap c := by unfold restTrap; rw [if_pos hp]
          obtain ⟨l1, p1, p2, p3⟩ := trap_try (t := .clean) (.inr hrt) h6
          unfold tryOf at p1
          rw [if_neg (by simp)] at p1
          rw [h6] at h'
          have hk : ∃ k, exitTrap (trapBody c) trapStatus k w s5 = (e, s) := by
            rcases p3 with ⟨u, rfl⟩ | ⟨m, hm, rfl⟩
            · exact ⟨_, h'⟩
            · exact ⟨_, h'⟩
          obtain ⟨k, hk⟩ := hk
          have ht5 : s5.trap = restTrap c := by rw [p2]; exact htr.trans hrt
          obtain ⟨l2, m, q1, q2, _, _⟩ := exitTrap_try (.inr ht5) hk
          have hns : s5.trap ≠ .save := by rw [ht5, ← hrt]; simp
          unfold tryOf at q1
          rw [if_neg hns] at q1
          refine ⟨l1 ++ l2, fun v hv => ?_, ?_⟩
          · rcases List.mem_append.1 hv with hv | hv
            · exact tryActs p1 v hv
            · exact tryActs q1 v hv
          · rw [q2, p2, plus_plus]; rfl
        · have htr : s1.trap = .none := by rw [g2, e2]; unfold restTrap; rw [if_neg hp]
          rw [htr] at h'
          simp only [Prod.mk.injEq] at h'
          exact ⟨[], by simp, by rw [← h'.2]; simp⟩
      refine .inr (.inl ⟨fun v hv => ?_, .inl ?_⟩)
      · rw [hs, g1, e1] at hv
        simp only [List.mem_append] at hv
        rcases hv with (hv | hv) | hv
        · exact tempQ ht v hv
        · exact .inl (hq v hv)
        · exact .inr ⟨(hl v hv).1, .inr (hl v hv).2⟩
      · obtain ⟨v, hv1, hv2⟩ := hv
        exact ⟨v, by rw [hs, g1]; simp [hv1], hv2⟩

end WG.Bsd
