import Verif.Proof.BsdShown
/-! What successful runs of the steps of `up` on the BSDs leave in the history. -/
namespace WG.Bsd
open WG.Quick (Call Reply Ev World Out calm chomp readLoopLines afterFirst hasInfix isDig mtuIn wordsAux suffixes isDig_eq hasInfix_iff chomp_eq
  mtuIn_iff mtuIn_none endedLines_iff blankWords endpointHost minus80 routesIn resolvText stripText)
open WG.Spec WG.Spec.Quick WG.Spec.Bsd

/-- The state after more events. -/
def plus (s : St) (l : List Ev) : St := { s with hist := s.hist ++ l }

theorem plus_plus (s : St) (a b : List Ev) : plus (plus s a) b = plus s (a ++ b) := by unfold plus; simp
theorem plus_nil (s : St) : plus s [] = s := by unfold plus; simp
theorem plus_hist (s : St) (a : List Ev) : (plus s a).hist = s.hist ++ a := rfl
theorem plus_real (s : St) (a : List Ev) : (plus s a).real = s.real := rfl

theorem call_plus {c : Call} {w : World} {s s' : St} {r : Reply} (h : call c w s = (.ok r, s')) : s' = plus s [(c, r)] := (call_ok h).2.2

theorem run_did {c : Call} {w : World} {s s' : St} {u : Unit} (h : run true c w s = (.ok u, s')) : ∃ e, Did c e ∧ s' = plus s [e] := by
  obtain ⟨_, h1, h2⟩ := run_ok h
  exact ⟨(c, w s.hist c), ⟨rfl, h1 rfl⟩, h2⟩

theorem run_any {e : Bool} {c : Call} {w : World} {s s' : St} {u : Unit} (h : run e c w s = (.ok u, s')) : ∃ r, s' = plus s [(c, r)] :=
  ⟨_, (run_ok h).2.2⟩

theorem forEach_all {γ : Type} {P : γ → List Ev → Prop} {f : γ → Sh Unit} {I : St → Prop} (hf : ∀ x w s s' u, I s → f x w s = (.ok u, s') → I s' ∧ ∃ l, s'.hist = s.hist ++ l ∧ P x l)
    (xs : List γ) {w : World} {s s' : St} {u : Unit} (hi : I s) (h : forEach f xs w s = (.ok u, s')) :
    I s' ∧ ∃ ls, List.Forall₂ P xs ls ∧ s'.hist = s.hist ++ ls.flatten := by
  induction xs generalizing s with
  | nil => obtain ⟨_, rfl⟩ := pure_inv h; exact ⟨hi, [], .nil, by simp⟩
  | cons x xs ih =>
    obtain ⟨_, s1, h1, h2⟩ := bind_ok h
    obtain ⟨hi1, l, e1, p1⟩ := hf x w s s1 _ hi h1
    obtain ⟨hi2, ls, p2, e2⟩ := ih hi1 h2
    exact ⟨hi2, l :: ls, .cons p1 p2, by rw [e2, e1]; simp⟩

theorem forEach_plus {γ : Type} {P : γ → List Ev → Prop} {f : γ → Sh Unit} {real : CStr} (hf : ∀ x w s s' u, s.real = real → f x w s = (.ok u, s') → ∃ l, s' = plus s l ∧ P x l)
    (xs : List γ) {w : World} {s s' : St} {u : Unit} (hr : s.real = real) (h : forEach f xs w s = (.ok u, s')) :
    ∃ ls, List.Forall₂ P xs ls ∧ s' = plus s ls.flatten := by
  induction xs generalizing s with
  | nil => obtain ⟨_, rfl⟩ := pure_inv h; exact ⟨[], .nil, (plus_nil _).symm⟩
  | cons x xs ih =>
    obtain ⟨_, s1, h1, h2⟩ := bind_ok h
    obtain ⟨l, rfl, p1⟩ := hf x w s s1 _ hr h1
    obtain ⟨ls, p2, e2⟩ := ih (s := plus s l) hr h2
    exact ⟨l :: ls, .cons p1 p2, by rw [e2, plus_plus]; rfl⟩

theorem single_all {γ : Type} {P : γ → Ev → Prop} {xs : List γ} {ls : List (List Ev)} (h : List.Forall₂ (fun x l => ∃ e, P x e ∧ l = [e]) xs ls) :
    List.Forall₂ P xs ls.flatten := by
  induction h with
  | nil => exact .nil
  | cons h _ ih => obtain ⟨e, h1, rfl⟩ := h; exact .cons h1 ih

/-! ### Temporary directory, existence, creation -/

theorem makeTemp_ok {w : World} {s s' : St} {u : Unit} (h : makeTemp w s = (.ok u, s')) :
    ∃ r t, t.status = 0 ∧ s' = { plus s [(cmd [b!"mktemp", b!"-d"], r), (.query [b!"test", b!"-d", chomp r.out], t)] with tmp := chomp r.out } := by
  obtain ⟨r, s1, h1, h⟩ := bind_ok h
  obtain ⟨t, s2, h2, h⟩ := bind_ok h
  obtain rfl := call_plus h1
  obtain rfl := call_plus h2
  by_cases ht : t.status = 0
  · rw [if_neg (by simpa using ht)] at h
    obtain rfl := modify_inv h
    exact ⟨r, t, ht, by rw [plus_plus]; rfl⟩
  · rw [if_pos ht] at h; exact (exitWith_ok h).elim

theorem realOpenbsd_ok {c : Cfg} {w : World} {s s' : St} {b : Bool} (h : realOpenbsd c w s = (.ok b, s')) :
    ∃ r, (b = true ∧ ∃ n, Described c.iface [] (rawLines r.out) n ∧ s' = { plus s [(.query [b!"ifconfig"], r)] with real := n }) ∨
      (b = false ∧ (∀ n, ¬ Described c.iface [] (rawLines r.out) n) ∧ s' = plus s [(.query [b!"ifconfig"], r)]) := by
  obtain ⟨r, s1, h1, h⟩ := bind_ok h
  obtain rfl := call_plus h1
  refine ⟨r, ?_⟩
  cases e : findReal c.iface [] (rawLines r.out) with
  | some n =>
    rw [e] at h
    obtain ⟨_, s2, h2, h⟩ := bind_ok h
    obtain rfl := modify_inv h2
    obtain ⟨rfl, rfl⟩ := pure_inv h
    exact .inl ⟨rfl, n, (findReal_iff ..).1 e, rfl⟩
  | none =>
    rw [e] at h
    obtain ⟨rfl, rfl⟩ := pure_inv h
    refine .inr ⟨rfl, fun n hn => ?_, rfl⟩
    rw [← findReal_iff, e] at hn
    cases hn

theorem realDarwin_ok {c : Cfg} {e : Bool} {w : World} {s s' : St} {b : Bool} (h : realDarwin c e w s = (.ok b, s')) :
    ∃ l, (b = true ∧ ∃ n, NameLookup c (some n) l ∧ s' = { plus s l with real := n }) ∨ (b = false ∧ NameLookup c none l ∧ s' = plus s l) := by
  obtain ⟨_, s1, h1, h⟩ := bind_ok h
  obtain ⟨i, rfl⟩ := run_any h1
  obtain ⟨t, s2, h2, h⟩ := bind_ok h
  obtain rfl := call_plus h2
  rw [plus_plus] at h
  by_cases ht : t.status = 0
  swap
  · rw [if_pos ht] at h
    obtain ⟨rfl, rfl⟩ := pure_inv h
    exact ⟨_, .inr ⟨rfl, ⟨i, t, [], rfl, .inl ⟨ht, rfl, rfl⟩⟩, rfl⟩⟩
  rw [if_neg (by simpa using ht)] at h
  obtain ⟨n, s3, h3, h⟩ := bind_ok h
  obtain rfl := call_plus h3
  rw [plus_plus] at h
  split at h
  · exact (exitWith_ok h).elim
  by_cases hn : chomp n.out = []
  · rw [if_pos hn] at h
    obtain ⟨rfl, rfl⟩ := pure_inv h
    exact ⟨_, .inr ⟨rfl, ⟨i, t, _, rfl, .inr ⟨ht, n, [], rfl, .inl ⟨by rw [← chomp_eq]; exact hn, rfl, rfl⟩⟩⟩, rfl⟩⟩
  rw [if_neg hn] at h
  obtain ⟨k, s4, h4, h⟩ := bind_ok h
  obtain rfl := call_plus h4
  rw [plus_plus] at h
  by_cases hk : k.status = 0
  swap
  · rw [if_pos hk] at h
    obtain ⟨rfl, rfl⟩ := pure_inv h
    exact ⟨_, .inr ⟨rfl, ⟨i, t, _, rfl, .inr ⟨ht, n, _, rfl, .inr ⟨by rw [← chomp_eq]; exact hn, k, [], by rw [← chomp_eq]; rfl, .inl ⟨hk, rfl, rfl⟩⟩⟩⟩, rfl⟩⟩
  rw [if_neg (by simpa using hk)] at h
  obtain ⟨a, s5, h5, h⟩ := bind_ok h
  obtain rfl := call_plus h5
  obtain ⟨b', s6, h6, h⟩ := bind_ok h
  obtain rfl := call_plus h6
  rw [plus_plus, plus_plus] at h
  dsimp only at h
  by_cases hd : mtimeOf a 200 - mtimeOf b' 100 ≥ 2 ∨ mtimeOf a 200 - mtimeOf b' 100 ≤ -2
  · rw [if_pos hd] at h
    obtain ⟨rfl, rfl⟩ := pure_inv h
    refine ⟨_, .inr ⟨rfl, ⟨i, t, _, rfl, .inr ⟨ht, n, _, rfl, .inr ⟨by rw [← chomp_eq]; exact hn, k, _, by rw [← chomp_eq]; rfl,
      .inr ⟨hk, a, b', _, _, by rw [← chomp_eq]; rfl, mtime a 200, mtime b' 100, ?_⟩⟩⟩⟩, rfl⟩⟩
    rw [if_neg (by omega)]
  · rw [if_neg hd] at h
    obtain ⟨_, s7, h7, h⟩ := bind_ok h
    obtain rfl := modify_inv h7
    obtain ⟨rfl, rfl⟩ := pure_inv h
    refine ⟨_, .inl ⟨rfl, chomp n.out, ⟨i, t, _, rfl, .inr ⟨ht, n, _, rfl, .inr ⟨by rw [← chomp_eq]; exact hn, k, _, by rw [← chomp_eq]; rfl,
      .inr ⟨hk, a, b', _, _, by rw [← chomp_eq]; rfl, mtime a 200, mtime b' 100, ?_⟩⟩⟩⟩, rfl⟩⟩
    rw [if_pos (by omega), chomp_eq]

theorem upCheck_ok {c : Cfg} {w : World} {s s' : St} {b : Bool} (h : upCheck c w s = (.ok b, s')) :
    ∃ l, (b = true → ExistsStep c l ∧ ∃ n, s' = { plus s l with real := n }) ∧ (b = false → CheckStep c l ∧ s' = plus s l) := by
  unfold upCheck at h
  unfold ExistsStep CheckStep
  cases hp : c.plat with
  | freebsd =>
    rw [hp] at h
    obtain ⟨r, s1, h1, h⟩ := bind_ok h
    obtain rfl := call_plus h1
    obtain ⟨rfl, rfl⟩ := pure_inv h
    refine ⟨_, fun hb => ⟨⟨r, ?_, rfl⟩, _, rfl⟩, fun hb => ⟨⟨r, ?_, rfl⟩, rfl⟩⟩
    · rw [← chomp_eq]; simpa using hb
    · rw [← chomp_eq]; simpa using hb
  | openbsd =>
    rw [hp] at h
    obtain ⟨r, ⟨rfl, n, hd, rfl⟩ | ⟨rfl, hd, rfl⟩⟩ := realOpenbsd_ok h
    · exact ⟨_, fun _ => ⟨⟨r, _, n, fullLines _, hd, rfl⟩, n, rfl⟩, nofun⟩
    · exact ⟨_, nofun, fun _ => ⟨⟨r, _, fullLines _, hd, rfl⟩, rfl⟩⟩
  | darwin =>
    rw [hp] at h
    obtain ⟨l, ⟨rfl, n, hd, rfl⟩ | ⟨rfl, hd, rfl⟩⟩ := realDarwin_ok h
    · exact ⟨l, fun _ => ⟨⟨n, hd⟩, n, rfl⟩, nofun⟩
    · exact ⟨l, nofun, fun _ => ⟨hd, rfl⟩⟩

theorem addIfOpenbsd_ok {c : Cfg} (n : Nat) {w : World} {s s' : St} {u : Unit} (h : addIfOpenbsd c n w s = (.ok u, s')) :
    ∃ real l, AddOpenbsd c real l ∧ s' = { plus s l with real := real } := by
  induction n generalizing s with
  | zero => exact (giveUp_ok h).elim
  | succ n ih =>
    unfold addIfOpenbsd at h
    obtain ⟨q, s1, h1, h⟩ := bind_ok h
    obtain rfl := call_plus h1
    dsimp only at h
    obtain ⟨r, s2, h2, h⟩ := bind_ok h
    obtain rfl := call_plus h2
    rw [plus_plus] at h
    by_cases hr : r.status = 0
    · rw [if_pos hr] at h
      obtain rfl := modify_inv h
      exact ⟨_, _, .done (freeName q.out) hr, rfl⟩
    · rw [if_neg hr] at h
      split at h
      · rename_i hf
        obtain ⟨real, l, h3, rfl⟩ := ih h
        refine ⟨real, _, .again (freeName q.out) hr ?_ h3, ?_⟩
        · rw [← chomp_eq]; exact (hasInfix_iff ..).1 hf
        · rw [plus_plus]; rfl
      · exact (exitWith_ok h).elim

theorem addIf_ok {c : Cfg} {w : World} {s s' : St} {u : Unit} (hs : c.plat = .freebsd → s.real = c.iface) (h : addIf c w s = (.ok u, s')) :
    ∃ l real, AddStep c real l ∧ s' = { plus s l with real := real } := by
  unfold addIf at h
  unfold AddStep
  cases hp : c.plat with
  | freebsd =>
    rw [hp] at h
    dsimp only at h ⊢
    have e : ∀ l, plus s l = { plus s l with real := c.iface } := fun l => by rw [← hs hp]; rfl
    unfold addIfFreebsd at h
    obtain ⟨r, s1, h1, h⟩ := bind_ok h
    obtain rfl := call_plus h1
    by_cases hr : r.status = 0
    · rw [if_pos hr] at h
      obtain ⟨_, rfl⟩ := pure_inv h
      exact ⟨_, _, ⟨rfl, r, [], rfl, .inl ⟨hr, rfl⟩⟩, e _⟩
    · rw [if_neg hr] at h
      split at h
      · rename_i hf
        obtain ⟨_, rfl⟩ := pure_inv h
        refine ⟨_, _, ⟨rfl, r, [], rfl, .inr (.inl ⟨hr, ?_, rfl⟩)⟩, e _⟩
        rw [← chomp_eq]; exact (hasInfix_iff ..).1 hf
      · rename_i hf
        obtain ⟨ev, hev, rfl⟩ := run_did h
        rw [plus_plus]
        refine ⟨_, _, ⟨rfl, r, _, rfl, .inr (.inr ⟨hr, ?_, ev, hev, rfl⟩)⟩, e _⟩
        rw [← chomp_eq, ← hasInfix_iff]; exact hf
  | openbsd =>
    rw [hp] at h
    obtain ⟨real, l, h1, h2⟩ := addIfOpenbsd_ok _ h
    exact ⟨l, real, h1, h2⟩
  | darwin =>
    rw [hp] at h
    obtain ⟨_, s1, h1, h⟩ := bind_ok h
    obtain ⟨d, hd, rfl⟩ := run_did h1
    obtain ⟨_, s2, h2, h⟩ := bind_ok h
    obtain ⟨v, hv, rfl⟩ := run_did h2
    obtain ⟨b, s3, h3, h⟩ := bind_ok h
    rw [plus_plus] at h3
    obtain ⟨l, ⟨rfl, n, h4, rfl⟩ | ⟨rfl, h4, rfl⟩⟩ := realDarwin_ok h3
    · rw [if_pos rfl] at h
      obtain ⟨_, rfl⟩ := pure_inv h
      refine ⟨_, n, ⟨d, v, l, rfl, hd, hv, h4⟩, ?_⟩
      rw [plus_plus]; rfl
    · rw [if_neg (by simp)] at h; exact (exitWith_ok h).elim

/-! ### Hooks, configuration, addresses -/

theorem hooks_ok {c : Cfg} {hooks : List CStr} {w : World} {s s' : St} {u : Unit} (h : executeHooks c hooks w s = (.ok u, s')) :
    ∃ l, HooksDone c s.real hooks l ∧ s' = plus s l := by
  unfold executeHooks at h
  obtain ⟨ls, h1, h2⟩ := forEach_plus (P := fun x l => ∃ e, (∃ t, HookFor c s.real x t ∧ Did (.hook t) e) ∧ l = [e]) (real := s.real) (by
    intro x w s1 s2 u hr h
    obtain ⟨e, he, h2⟩ := run_did (c := .hook (hookText c s1.real x)) h
    refine ⟨[e], h2, e, ⟨_, ?_, he⟩, rfl⟩
    rw [← hr]
    exact hookText_spec ..) hooks rfl h
  exact ⟨_, single_all h1, h2⟩

theorem setConfig_ok {c : Cfg} {w : World} {s s' : St} {u : Unit} (h : setConfig c w s = (.ok u, s')) : ∃ e, ConfStep c s.real e ∧ s' = plus s [e] := by
  obtain ⟨e, h1, h2⟩ := run_did (c := .act ([b!"wg", b!"setconf", s.real] ++ (if c.plat = .freebsd then [b!"/dev/stdin"] else [])) (stripText c.opts)) h
  exact ⟨e, h1, h2⟩

/-- What is remembered of the addresses on OpenBSD. -/
def pick (v6 : Bool) : CStr → List CStr → CStr
  | f, [] => f
  | f, a :: as => pick v6 (if isV6 a = v6 ∧ f = [] then beforeLastSlash a else f) as

theorem pick_done (v6 : Bool) {f : CStr} (hf : f ≠ []) (as : List CStr) : pick v6 f as = f := by
  induction as with
  | nil => rfl
  | cons a as ih => unfold pick; rw [if_neg (fun h => hf h.2), ih]

theorem isV6_iff (a : CStr) : isV6 a = true ↔ c!":" ∈ a := by unfold isV6; simp

theorem pick_spec (v6 : Bool) (as : List CStr) (h : pick v6 [] as ≠ []) :
    ∃ pre x post, as = pre ++ x :: post ∧ isV6 x = v6 ∧ (∀ y ∈ pre, isV6 y = v6 → AddrPart y []) ∧ AddrPart x (pick v6 [] as) := by
  have hpart : ∀ x, AddrPart x (beforeLastSlash x) := by
    intro x
    rcases beforeLastSlash_spec x with h | h
    · exact .inl h
    · exact .inr ⟨h.1, h.2⟩
  induction as with
  | nil => exact absurd rfl h
  | cons a as ih =>
    unfold pick at h ⊢
    by_cases ha : isV6 a = v6
    · rw [if_pos ⟨ha, rfl⟩] at h ⊢
      by_cases hb : beforeLastSlash a = []
      · rw [hb] at h ⊢
        obtain ⟨pre, x, post, rfl, h1, h2, h3⟩ := ih h
        refine ⟨a :: pre, x, post, rfl, h1, ?_, h3⟩
        intro y hy hv
        rcases List.mem_cons.1 hy with rfl | hy
        · have := hpart y; rw [hb] at this; exact this
        · exact h2 y hy hv
      · rw [pick_done _ hb]
        exact ⟨[], a, as, rfl, ha, by simp, hpart a⟩
    · rw [if_neg (fun h => ha h.1)] at h ⊢
      obtain ⟨pre, x, post, rfl, h1, h2, h3⟩ := ih h
      refine ⟨a :: pre, x, post, rfl, h1, ?_, h3⟩
      intro y hy hv
      rcases List.mem_cons.1 hy with rfl | hy
      · exact absurd hv ha
      · exact h2 y hy hv

theorem pick_first {o : WG.Quick.Opts} {r : CStr} (h : pick (isV6 r) [] o.addresses ≠ []) : FirstAddr o (c!":" ∈ r) (pick (isV6 r) [] o.addresses) := by
  obtain ⟨pre, x, post, h1, h2, h3, h4⟩ := pick_spec _ _ h
  have e : ∀ y, ((c!":" ∈ y) ↔ (c!":" ∈ r)) ↔ isV6 y = isV6 r := by
    intro y
    rw [← isV6_iff, ← isV6_iff r]
    cases isV6 y <;> cases isV6 r <;> simp
  exact ⟨pre, x, post, h1, (e x).2 h2, fun y hy hv => h3 y hy ((e y).1 hv), h4, h⟩

theorem takeWhile_before (a : CStr) : Before c!"/" a (a.takeWhile (· ≠ c!"/")) := (WG.Quick.before_iff ..).2 rfl

theorem addAddr_ok {c : Cfg} {a : CStr} {w : World} {s s' : St} {u : Unit} (h : addAddr c a w s = (.ok u, s')) :
    ∃ e f4 f6, AddrStep c s.real a e ∧ s' = { plus s [e] with first4 := f4, first6 := f6 } ∧
      (c.plat = .openbsd → f4 = pick false s.first4 [a] ∧ f6 = pick true s.first6 [a]) := by
  unfold addAddr at h
  rw [get_bind] at h
  unfold AddrStep
  cases hp : c.plat with
  | freebsd =>
    rw [hp] at h
    obtain ⟨e, he, rfl⟩ := run_did h
    refine ⟨e, s.first4, s.first6, ?_, rfl, by simp⟩
    by_cases hv : c!":" ∈ a
    · rw [if_pos hv]; rw [if_pos ((isV6_iff a).2 hv)] at he; exact he
    · rw [if_neg hv, if_neg (by simp)]; rw [if_neg (fun h => hv ((isV6_iff a).1 h))] at he; exact he
  | openbsd =>
    rw [hp] at h
    dsimp only at h
    rw [modify_bind] at h
    obtain ⟨e, he, rfl⟩ := run_did h
    by_cases hv : isV6 a = true
    · simp only [if_pos ((isV6_iff a).1 hv)]
      simp only [if_pos hv] at he ⊢
      refine ⟨e, s.first4, if s.first6 = [] then beforeLastSlash a else s.first6, he, rfl, fun _ => ?_⟩
      simp [pick, hv]
    · have hv' : c!":" ∉ a := fun h => hv ((isV6_iff a).2 h)
      simp only [if_neg hv', if_neg (show ¬ Plat.openbsd = Plat.darwin by simp)]
      simp only [if_neg hv] at he ⊢
      refine ⟨e, if s.first4 = [] then beforeLastSlash a else s.first4, s.first6, he, rfl, fun _ => ?_⟩
      simp [pick, hv]
  | darwin =>
    rw [hp] at h
    dsimp only at h
    by_cases hv : isV6 a = true
    · rw [if_pos hv] at h
      obtain ⟨e, he, rfl⟩ := run_did h
      simp only [if_pos ((isV6_iff a).1 hv)]
      exact ⟨e, s.first4, s.first6, he, rfl, by simp⟩
    · rw [if_neg hv] at h
      obtain ⟨e, he, rfl⟩ := run_did h
      have hv' : c!":" ∉ a := fun h => hv ((isV6_iff a).2 h)
      simp only [if_neg hv', if_true]
      exact ⟨e, s.first4, s.first6, ⟨_, takeWhile_before a, he⟩, rfl, by simp⟩

theorem addrs_ok {c : Cfg} (as : List CStr) {w : World} {s s' : St} {u : Unit} (h : forEach (addAddr c) as w s = (.ok u, s')) :
    ∃ l f4 f6, List.Forall₂ (AddrStep c s.real) as l ∧ s' = { plus s l with first4 := f4, first6 := f6 } ∧
      (c.plat = .openbsd → f4 = pick false s.first4 as ∧ f6 = pick true s.first6 as) := by
  induction as generalizing s with
  | nil =>
    obtain ⟨_, rfl⟩ := pure_inv h
    exact ⟨[], s'.first4, s'.first6, .nil, by rw [plus_nil], fun _ => ⟨rfl, rfl⟩⟩
  | cons a as ih =>
    obtain ⟨_, s1, h1, h2⟩ := bind_ok h
    obtain ⟨e, f4, f6, p1, rfl, p2⟩ := addAddr_ok h1
    obtain ⟨l, g4, g6, q1, rfl, q2⟩ := ih h2
    refine ⟨e :: l, g4, g6, .cons p1 q1, ?_, fun hp => ?_⟩
    · unfold plus; simp
    · obtain ⟨r1, r2⟩ := p2 hp
      obtain ⟨t1, t2⟩ := q2 hp
      dsimp only at t1 t2
      rw [t1, t2, r1, r2]
      exact ⟨rfl, rfl⟩

/-! ### MTU -/

theorem mtuFrom_ok {o : CStr} {m n : Nat} {w : World} {s s' : St} (h : mtuFrom o m w s = (.ok n, s')) :
    ∃ k l, ThroughMtu o k l ∧ n = max m (k.getD 0) ∧ s' = plus s l := by
  unfold mtuFrom at h
  cases e : ifaceIn o with
  | none =>
    rw [e] at h
    obtain ⟨rfl, rfl⟩ := pure_inv h
    exact ⟨none, [], .noIf ((ifaceIn_none o).1 e), by simp, (plus_nil _).symm⟩
  | some i =>
    rw [e] at h
    have hi := (ifaceIn_iff o i).1 e
    obtain ⟨r, s1, h1, h⟩ := bind_ok h
    obtain rfl := call_plus h1
    cases e2 : mtuIn (chomp r.out) with
    | none =>
      rw [e2] at h
      obtain ⟨rfl, rfl⟩ := pure_inv h
      exact ⟨none, _, .noMtu hi ((mtuIn_none _).1 e2), by simp, rfl⟩
    | some d =>
      rw [e2] at h
      obtain ⟨rfl, rfl⟩ := pure_inv h
      exact ⟨some _, _, .found hi ((mtuIn_iff _ _).1 (by rw [← chomp_eq, e2]; rfl)), rfl, rfl⟩

theorem mtuLoop_ok (ls : List CStr) {m n : Nat} {w : World} {s s' : St} (h : mtuLoop ls m w s = (.ok n, s')) :
    ∃ ms l, HostMtus (ls.filterMap fun x => endpointHost (afterFirst x)) ms l ∧ n = ms.foldl max m ∧ s' = plus s l := by
  induction ls generalizing m s with
  | nil =>
    obtain ⟨rfl, rfl⟩ := pure_inv h
    exact ⟨[], [], .nil, rfl, (plus_nil _).symm⟩
  | cons x ls ih =>
    unfold mtuLoop at h
    cases e : endpointHost (afterFirst x) with
    | none =>
      rw [e] at h
      rw [List.filterMap_cons_none (f := fun x => endpointHost (afterFirst x)) e]
      exact ih h
    | some host =>
      rw [e] at h
      rw [List.filterMap_cons_some (f := fun x => endpointHost (afterFirst x)) e]
      obtain ⟨r, s1, h1, h⟩ := bind_ok h
      obtain rfl := call_plus h1
      obtain ⟨k, s2, h2, h⟩ := bind_ok h
      obtain ⟨k', l1, h3, rfl, rfl⟩ := mtuFrom_ok h2
      obtain ⟨ms, l2, h4, rfl, rfl⟩ := ih h
      refine ⟨k'.toList ++ ms, _, .look (by rw [← chomp_eq]; exact h3) h4, ?_, ?_⟩
      · cases k' <;> simp
      · rw [plus_plus, plus_plus]
        have : famOf host = famFlag host := by
          unfold famOf famFlag
          by_cases hv : c!":" ∈ host
          · rw [if_pos hv, if_pos ((isV6_iff _).2 hv)]
          · rw [if_neg hv, if_neg (fun h => hv ((isV6_iff _).1 h))]
        rw [this]
        simp

theorem autoMtu_ok {real : CStr} {w : World} {s s' : St} {u : Unit} (h : autoMtu real w s = (.ok u, s')) :
    ∃ base l' e, BasePath real base l' ∧ Did (cmd [b!"ifconfig", real, b!"mtu", diffText base 80]) e ∧ s' = plus s (l' ++ [e]) := by
  unfold autoMtu at h
  obtain ⟨r, s1, h1, h⟩ := bind_ok h
  obtain rfl := call_plus h1
  obtain ⟨m, s2, h2, h⟩ := bind_ok h
  obtain ⟨ms, l1, h3, rfl, rfl⟩ := mtuLoop_ok _ h2
  obtain ⟨n, s3, h4, h⟩ := bind_ok h
  obtain ⟨e, he, rfl⟩ := run_did h
  obtain ⟨k1, k2, k3⟩ := WG.Quick.foldl_max_spec ms 0
  unfold mtuDefault at h4
  have hosts : HostsShown r.out (hostsIn r.out) := hostsShown r.out
  by_cases h0 : ms.foldl max 0 = 0
  · rw [if_pos h0] at h4
    obtain ⟨d, s4, h5, h6⟩ := bind_ok h4
    obtain rfl := call_plus h5
    unfold mtuFrom at h6
    rw [firstLine_none] at h6
    obtain ⟨rfl, rfl⟩ := pure_inv h6
    refine ⟨1500, _, e, ⟨r, _, ms, l1, _, rfl, hosts, h3, .inr ⟨fun m hm => ?_, rfl, d, rfl⟩⟩, he, ?_⟩
    · have := k2 m hm; omega
    · simp only [plus_plus]
      simp [endpointsOf]
  · rw [if_neg h0] at h4
    obtain ⟨rfl, rfl⟩ := pure_inv h4
    rw [if_neg h0] at he
    refine ⟨_, _, e, ⟨r, _, ms, l1, [], rfl, hosts, h3, .inl ⟨h0, ?_, k2, rfl⟩⟩, he, ?_⟩
    · rcases k3 with k3 | k3
      · exact absurd k3 h0
      · exact k3
    · simp only [plus_plus]
      simp [endpointsOf]

theorem autoMtuDarwin_ok {real : CStr} {w : World} {s s' : St} {u : Unit} (h : autoMtuDarwin real w s = (.ok u, s')) :
    ∃ l, MtuDarwin real l ∧ s' = plus s l := by
  unfold autoMtuDarwin at h
  obtain ⟨r, s1, h1, h⟩ := bind_ok h
  obtain rfl := call_plus h1
  obtain ⟨m, s2, h2, h⟩ := bind_ok h
  have key : ∃ l1 base, s2 = plus s ((netstatOf .v4, r) :: l1) ∧ (if m = 0 then 1500 else (m : Int)) = base ∧
      ((defaultIf r.out = [] ∧ l1 = [] ∧ base = (1500 : Int)) ∨
       (defaultIf r.out ≠ [] ∧ ∃ q n, l1 = [(.query [b!"ifconfig", defaultIf r.out], q)] ∧ MtuOr q.out 0 n ∧ base = if n = 0 then 1500 else n)) := by
    by_cases hd : defaultIf r.out = []
    · rw [if_pos hd] at h2
      obtain ⟨rfl, rfl⟩ := pure_inv h2
      exact ⟨[], 1500, rfl, rfl, .inl ⟨hd, rfl, rfl⟩⟩
    · rw [if_neg hd] at h2
      obtain ⟨q, s3, h3, h4⟩ := bind_ok h2
      obtain rfl := call_plus h3
      obtain ⟨rfl, rfl⟩ := pure_inv h4
      refine ⟨_, _, plus_plus .., rfl, .inr ⟨hd, q, _, rfl, mtuOr q.out 0, ?_⟩⟩
      split <;> split <;> first | rfl | omega
  obtain ⟨l1, base, rfl, hb, hk⟩ := key
  dsimp only at h
  rw [hb] at h
  obtain ⟨o, s3, h3, h⟩ := bind_ok h
  obtain rfl := call_plus h3
  have hcur := mtuOr' o.out
  generalize ((mtuIn (chomp o.out)).map fun d => (digitsVal 10 d : Int)).getD (-1) = cur at *
  by_cases hc : base - 80 = cur
  · rw [if_pos hc] at h
    obtain ⟨_, rfl⟩ := pure_inv h
    refine ⟨_, ⟨r, _, l1, base, o, cur, [], rfl, defaultIf_spec r.out, hk, hcur, ?_⟩, ?_⟩
    · rw [if_pos hc]
    · rw [plus_plus]; rfl
  · rw [if_neg hc] at h
    obtain ⟨e, he, rfl⟩ := run_did h
    refine ⟨_, ⟨r, _, l1, base, o, cur, [e], rfl, defaultIf_spec r.out, hk, hcur, ?_⟩, ?_⟩
    · rw [if_neg hc]; exact ⟨e, he, rfl⟩
    · simp only [plus_plus]; simp

theorem setMtu_ok {c : Cfg} {w : World} {s s' : St} {u : Unit} (h : setMtu c w s = (.ok u, s')) : ∃ l, MtuSet c s.real l ∧ s' = plus s l := by
  unfold setMtu at h
  rw [get_bind] at h
  unfold MtuSet
  by_cases hm : c.opts.mtu ≠ []
  · rw [if_pos hm] at h
    simp only [if_pos hm]
    obtain ⟨e, he, rfl⟩ := run_did h
    exact ⟨_, ⟨e, he, rfl⟩, rfl⟩
  · rw [if_neg hm] at h
    simp only [if_neg hm]
    by_cases hp : c.plat = .darwin
    · rw [if_pos hp] at h
      simp only [if_pos hp]
      exact autoMtuDarwin_ok h
    · rw [if_neg hp] at h
      simp only [if_neg hp]
      obtain ⟨base, l', e, h1, h2, h3⟩ := autoMtu_ok h
      exact ⟨_, ⟨base, l', e, h1, h2, rfl⟩, h3⟩

/-! ### DNS -/

theorem upDnsEarly_ok {c : Cfg} {w : World} {s s' : St} {u : Unit} (h : upDnsEarly c w s = (.ok u, s')) :
    ∃ l b, DnsSet c s.real l ∧ s' = { plus s l with haveDns := b } := by
  unfold upDnsEarly at h
  unfold DnsSet
  by_cases hd : c.opts.dns = []
  · have : s' = s := by
      cases hp : c.plat <;> rw [hp] at h <;> dsimp only at h
      · unfold setDnsFreebsd at h; rw [if_pos hd] at h; exact (pure_inv h).2
      · unfold setDnsOpenbsd at h; rw [if_pos hd] at h; exact (pure_inv h).2
      · exact (pure_inv h).2
    subst this
    exact ⟨[], s'.haveDns, by rw [if_pos hd], by rw [plus_nil]⟩
  · simp only [if_neg hd]
    cases hp : c.plat with
    | freebsd =>
      rw [hp] at h
      dsimp only at h
      unfold setDnsFreebsd at h
      rw [if_neg hd] at h
      obtain ⟨_, s1, h1, h⟩ := bind_ok h
      obtain ⟨e, he, rfl⟩ := run_did h1
      obtain rfl := modify_inv h
      exact ⟨[e], true, ⟨e, by rw [← WG.Quick.resolvText_eq]; exact he, rfl⟩, rfl⟩
    | openbsd =>
      rw [hp] at h
      dsimp only at h
      unfold setDnsOpenbsd at h
      rw [if_neg hd] at h
      obtain ⟨v, s1, h1, h⟩ := bind_ok h
      obtain rfl := call_plus h1
      obtain ⟨b, s2, h2, h⟩ := bind_ok h
      have key : ∃ l1, ResolverRuns b l1 ∧ s2 = plus s l1 := by
        by_cases hv : v.status = 0
        · rw [if_pos hv] at h2
          obtain ⟨rfl, rfl⟩ := pure_inv h2
          exact ⟨_, .inl ⟨v, hv, rfl, rfl⟩, rfl⟩
        · rw [if_neg hv] at h2
          obtain ⟨r, s3, h3, h4⟩ := bind_ok h2
          obtain rfl := call_plus h3
          obtain ⟨rfl, rfl⟩ := pure_inv h4
          exact ⟨_, .inr ⟨v, r, hv, rfl, rfl⟩, plus_plus ..⟩
      obtain ⟨l1, hl1, rfl⟩ := key
      cases b with
      | false =>
        rw [if_neg (by simp)] at h
        obtain ⟨_, rfl⟩ := pure_inv h
        exact ⟨l1, s.haveDns, ⟨false, l1, [], hl1, by simp, by simp⟩, rfl⟩
      | true =>
        rw [if_pos rfl] at h
        obtain ⟨_, s3, h3, h⟩ := bind_ok h
        obtain ⟨cp, hcp, rfl⟩ := run_did h3
        obtain ⟨_, s4, h4, h⟩ := bind_ok h
        have key2 : ∃ ls, (if c.opts.dnsSearch = [] then ls = []
            else ∃ e, Did (.act [b!"write", b!"/etc/resolv.conf"] (b!"search " ++ List.intercalate b!" " c.opts.dnsSearch ++ b!"\n")) e ∧ ls = [e]) ∧
            s4 = plus (plus (plus s l1) [cp]) ls := by
          by_cases hs : c.opts.dnsSearch = []
          · rw [if_pos hs] at h4
            obtain ⟨_, rfl⟩ := pure_inv h4
            exact ⟨[], by rw [if_pos hs], (plus_nil _).symm⟩
          · rw [if_neg hs] at h4
            obtain ⟨e, he, rfl⟩ := run_did h4
            exact ⟨[e], by rw [if_neg hs, ← WG.Quick.joinSpace_eq]; exact ⟨e, he, rfl⟩, rfl⟩
        obtain ⟨ls, hls, rfl⟩ := key2
        rw [get_bind] at h
        obtain ⟨ns, hns, rfl⟩ := run_did h
        refine ⟨l1 ++ (cp :: (ls ++ [ns])), s.haveDns, ⟨true, l1, _, hl1, rfl, ?_⟩, ?_⟩
        · rw [if_pos rfl]
          exact ⟨cp, ls, ns, hcp, hls, hns, rfl⟩
        · simp only [plus_plus]; unfold plus; simp
    | darwin =>
      rw [hp] at h
      obtain ⟨_, rfl⟩ := pure_inv h
      exact ⟨[], s'.haveDns, rfl, by rw [plus_nil]⟩

end WG.Bsd
