import Verif.Proof.BsdDns
import Verif.Proof.BsdMtu
import Verif.Spec.BsdService
/-! The DNS settings of one service on macOS, while and after the script runs. -/
namespace WG.Bsd
open WG.Quick (Call Reply Ev World Out calm chomp readLoopLines wordsAux endedLines_iff blankWords words_unique endpointHost afterFirst routesIn chomp_eq)
open WG.Spec WG.Spec.Quick WG.Spec.Bsd

variable {α β : Type}

/-! ### Listings and values -/

theorem servicesShown_eq {out : List UInt8} {found : List CStr} (h : ServicesShown out found) : found = ((readLoopLines out).drop 1).map svcName := by
  obtain ⟨lines, h1, h2⟩ := h
  rw [endedLines_iff] at h1
  subst h1
  generalize (readLoopLines out).drop 1 = ls at h2
  induction h2 with
  | nil => rfl
  | @cons l x _ _ a _ ih =>
    rw [List.map_cons, ← ih]
    congr 1
    unfold svcName
    rcases a with rfl | ⟨h, rfl⟩
    · simp
    · cases x with
      | nil => simp
      | cons x t =>
        have hx : x ≠ c!"*" := fun e => h t (by rw [e])
        simp [hx]

theorem svcListed_iff (k : CStr) (out : List UInt8) : Listed k out ↔ k ∈ ((readLoopLines out).drop 1).map svcName :=
  ⟨fun ⟨_, h, hk⟩ => servicesShown_eq h ▸ hk, fun h => ⟨_, servicesShown _, h⟩⟩

/-- What is remembered for a list of values. -/
def enc (vs : List CStr) : CStr := if vs = [] then b!"Empty" else List.intercalate [10] vs

theorem words_inter {vs : List CStr} (h : ∀ v ∈ vs, v ≠ [] ∧ ∀ c ∈ v, blankSep c = false) : Words blankSep (List.intercalate [10] vs) vs := by
  induction vs with
  | nil => exact .nil (by simp)
  | cons v vs ih =>
    have hv := h v (List.mem_cons_self ..)
    have ih := ih fun x hx => h x (List.mem_cons_of_mem _ hx)
    cases vs with
    | nil =>
      have := Words.cons (sep := blankSep) (g := []) (w := v) (rest := []) (by simp) hv.1 hv.2 (by simp) (.nil (by simp))
      simpa using this
    | cons y ys =>
      have := Words.cons (sep := blankSep) (g := []) (w := v) (rest := 10 :: List.intercalate [10] (y :: ys)) (by simp) hv.1 hv.2 (by simp; decide)
        (WG.Quick.words_prepend 10 (by decide) ih)
      rw [List.intercalate_cons_cons]
      simpa using this

theorem wordsAux_enc {vs : List CStr} (h : PlainValues vs) : wordsAux [] (enc vs) ≠ [] ∧ given (wordsAux [] (enc vs)) = vs := by
  unfold enc
  by_cases e : vs = []
  · subst e; decide
  · rw [if_neg e, words_unique (blankWords _) (words_inter fun v hv => ⟨(h.2 v hv).1, fun c hc => ((h.2 v hv).2 c hc).2⟩)]
    refine ⟨e, ?_⟩
    unfold given
    rw [if_neg h.1]

theorem enc_ne {vs : List CStr} (h : PlainValues vs) : enc vs ≠ [] := by
  intro e
  apply (wordsAux_enc h).1
  rw [e]; rfl

theorem space_inter {vs : List CStr} (h : ∀ v ∈ vs, v ≠ [] ∧ ∀ c ∈ v, blankSep c = false) : (32 : UInt8) ∉ List.intercalate [10] vs := by
  induction vs with
  | nil => simp
  | cons v vs ih =>
    have hv := h v (List.mem_cons_self ..)
    have ih := ih fun x hx => h x (List.mem_cons_of_mem _ hx)
    have h0 : (32 : UInt8) ∉ v := fun hm => absurd (hv.2 _ hm) (by decide)
    cases vs with
    | nil => simpa using h0
    | cons y ys =>
      rw [List.intercalate_cons_cons]
      simp only [List.mem_append, List.mem_singleton, not_or]
      exact ⟨⟨h0, by decide⟩, ih⟩

theorem tells_enc {out : List UInt8} {vs : List CStr} (hp : PlainValues vs) (h : Tells out vs) : svcAnswer out = enc vs := by
  have a := svcAnswer_spec out
  unfold enc
  rcases h with ⟨rfl, hs⟩ | ⟨hn, e⟩
  · rcases a with ⟨_, a⟩ | ⟨a, _⟩
    · rw [a]; rfl
    · exact absurd hs a
  · rw [if_neg hn]
    rcases a with ⟨a, _⟩ | ⟨_, a⟩
    · rw [e] at a; exact absurd a (space_inter fun v hv => ⟨(hp.2 v hv).1, fun c hc => ((hp.2 v hv).2 c hc).2⟩)
    · rw [a, e]

/-! ### What concerns the service -/

/-- A call that is neither a listing of the services nor a change of settings. -/
def Apart (c : Call) : Prop := c ≠ listServices ∧ ∀ a i, c = .act a i → a.head? ≠ some b!"networksetup"

theorem apart_query {q : List CStr} (h : q ≠ [b!"networksetup", b!"-listallnetworkservices"]) : Apart (.query q) :=
  ⟨fun e => h (by unfold listServices at e; simpa using e), fun _ _ e => (by cases e)⟩

theorem apart_act {a : List CStr} {i : List UInt8} (h : a.head? ≠ some b!"networksetup") : Apart (.act a i) :=
  ⟨fun e => (by unfold listServices at e; cases e), fun a' i' e => (by cases e; exact h)⟩

theorem apart_hook (t : CStr) : Apart (.hook t) := ⟨fun e => (by unfold listServices at e; cases e), fun _ _ e => (by cases e)⟩

/-- Nothing happened that concerns the services. -/
def Hush (s s' : St) : Prop := s'.svcDns = s.svcDns ∧ s'.svcSearch = s.svcSearch ∧ ∃ b, s'.hist = s.hist ++ b ∧ ∀ e ∈ b, Apart e.1

theorem preHush : Pre Hush := by
  refine ⟨fun s => ⟨rfl, rfl, [], by simp, by simp⟩, ?_⟩
  rintro a b c ⟨a1, a2, x, hx, hx'⟩ ⟨b1, b2, y, hy, hy'⟩
  refine ⟨b1.trans a1, b2.trans a2, x ++ y, by rw [hy, hx, List.append_assoc], fun e he => ?_⟩
  rcases List.mem_append.1 he with h | h
  · exact hx' e h
  · exact hy' e h

theorem hush_push {c : Call} (h : Apart c) (s : St) (r : Reply) : Hush s (push s c r) :=
  ⟨rfl, rfl, [(c, r)], rfl, fun e he => by rw [List.mem_singleton.1 he]; exact h⟩

theorem hush_query {q : List CStr} (h : q ≠ [b!"networksetup", b!"-listallnetworkservices"]) (s : St) (r : Reply) : Hush s (push s (.query q) r) := hush_push (apart_query h) s r
theorem hush_act {a : List CStr} {i : List UInt8} (h : a.head? ≠ some b!"networksetup") (s : St) (r : Reply) : Hush s (push s (.act a i) r) := hush_push (apart_act h) s r

theorem hush_same {s s' : St} (h1 : s'.svcDns = s.svcDns) (h2 : s'.svcSearch = s.svcSearch) (h3 : s'.hist = s.hist) : Hush s s' := ⟨h1, h2, [], by simp [h3], by simp⟩

variable {k : CStr} {t : Setting}

theorem settingStep_other {e : Ev} (h : ∀ a i, e.1 = .act a i → a.head? ≠ some b!"networksetup") (t : Setting) : settingStep k t e = t := by
  unfold settingStep
  split
  · rfl
  · split
    · rename_i p op x v vs he
      have := h _ _ he
      simp only [List.head?_cons, ne_eq, Option.some.injEq] at this
      rw [if_neg (fun h => this h.1), if_neg (fun h => this h.1)]
    · rfl

theorem settingAfter_append (h b : List Ev) : settingAfter k t (h ++ b) = settingAfter k (settingAfter k t h) b := List.foldl_append

theorem settingAfter_other {b : List Ev} (hb : ∀ e ∈ b, ∀ a i, e.1 = .act a i → a.head? ≠ some b!"networksetup") (t : Setting) : settingAfter k t b = t := by
  induction b generalizing t with
  | nil => rfl
  | cons e b ih =>
    show settingAfter k (settingStep k t e) b = t
    rw [settingStep_other (hb e (List.mem_cons_self ..)), ih fun x hx => hb x (List.mem_cons_of_mem _ hx)]

theorem hush_setting {s s' : St} (h : Hush s s') : settingAfter k t s'.hist = settingAfter k t s.hist := by
  obtain ⟨_, _, b, hb, hb'⟩ := h
  rw [hb, settingAfter_append, settingAfter_other fun e he => (hb' e he).2]

theorem seen_append {h b : List Ev} (hb : ∀ e ∈ b, e.1 ≠ listServices) : SeenListed k (h ++ b) ↔ SeenListed k h := by
  constructor
  · rintro ⟨r, hr, hl⟩
    rcases List.mem_append.1 hr with hr | hr
    · exact ⟨r, hr, hl⟩
    · exact absurd rfl (hb _ hr)
  · rintro ⟨r, hr, hl⟩
    exact ⟨r, List.mem_append_left _ hr, hl⟩

theorem hush_seen {s s' : St} (h : Hush s s') : SeenListed k s'.hist ↔ SeenListed k s.hist := by
  obtain ⟨_, _, b, hb, hb'⟩ := h
  rw [hb, seen_append fun e he => (hb' e he).1]

/-- What is known of the service is right. -/
structure Inv (k : CStr) (t : Setting) (s : St) : Prop where
  tidy : Tidy s.svcDns
  known : (lookup s.svcDns k = [] ∧ lookup s.svcSearch k = [] ∧ settingAfter k t s.hist = t) ∨
    (lookup s.svcDns k = enc t.servers ∧ lookup s.svcSearch k = enc t.domains ∧ SeenListed k s.hist)

/-- It is enough to restore the settings. -/
structure Weak (k : CStr) (t : Setting) (s : St) : Prop where
  tidy : Tidy s.svcDns
  known : (lookup s.svcDns k = [] ∧ settingAfter k t s.hist = t) ∨
    (lookup s.svcDns k = enc t.servers ∧ (lookup s.svcSearch k = enc t.domains ∨ (lookup s.svcSearch k = [] ∧ (settingAfter k t s.hist).domains = t.domains)))

/-- The settings are the configured ones. -/
def Ours (c : Cfg) (k : CStr) (t : Setting) (s : St) : Prop := SeenListed k s.hist → settingAfter k t s.hist = wantedSetting c.opts

theorem Inv.weak {s : St} (h : Inv k t s) : Weak k t s := by
  refine ⟨h.tidy, ?_⟩
  rcases h.known with ⟨a, b, d⟩ | ⟨a, b, d⟩
  · exact .inl ⟨a, d⟩
  · exact .inr ⟨a, .inl b⟩

theorem Inv.hush {s s' : St} (h : Inv k t s) (q : Hush s s') : Inv k t s' := by
  refine ⟨by rw [q.1]; exact h.tidy, ?_⟩
  rw [q.1, q.2.1, hush_setting q, hush_seen q]
  exact h.known

theorem Weak.hush {s s' : St} (h : Weak k t s) (q : Hush s s') : Weak k t s' := by
  refine ⟨by rw [q.1]; exact h.tidy, ?_⟩
  rw [q.1, q.2.1, hush_setting q]
  exact h.known

theorem Ours.hush {c : Cfg} {s s' : St} (h : Ours c k t s) (q : Hush s s') : Ours c k t s' := by
  unfold Ours
  rw [hush_setting q, hush_seen q]
  exact h

/-- A command keeps what is known, also if a signal stops it; if it succeeds, the settings stay the configured ones. -/
def Safe (c : Cfg) (k : CStr) (t : Setting) (w : World) (m : Sh α) : Prop :=
  ∀ s o s', m w s = (o, s') → Inv k t s → Weak k t s' ∧ (¬ Signalled o → Inv k t s') ∧ ((∃ a, o = .ok a) → Ours c k t s → Ours c k t s')

variable {c : Cfg} {w : World}

theorem safe_hush {m : Sh α} (h : Rel Hush m) : Safe c k t w m := by
  intro s o s' hm hi
  have q := rel_of h hm
  exact ⟨hi.weak.hush q, fun _ => hi.hush q, fun _ ho => ho.hush q⟩

theorem safe_bind {m : Sh α} {g : α → Sh β} (hm : Safe c k t w m) (hg : ∀ a, Safe c k t w (g a)) : Safe c k t w (m.bind g) := by
  intro s o s' h hi
  rcases bind_inv h with ⟨a, s1, h1, h2⟩ | ⟨o1, h1, h2⟩
  · obtain ⟨_, b1, c1⟩ := hm s _ s1 h1 hi
    obtain ⟨a2, b2, c2⟩ := hg a s1 o s' h2 (b1 (by simp [Signalled]))
    exact ⟨a2, b2, fun ho hs => c2 ho (c1 ⟨a, rfl⟩ hs)⟩
  · obtain ⟨a1, b1, c1⟩ := hm s _ s' h1 hi
    refine ⟨a1, fun hn => b1 fun hs => hn (signalled_of h2 hs), ?_⟩
    rintro ⟨x, rfl⟩
    cases o1 <;> simp [Stopped] at h2

theorem safe_ite {p : Prop} [Decidable p] {a b : Sh α} (ha : p → Safe c k t w a) (hb : ¬ p → Safe c k t w b) : Safe c k t w (if p then a else b) := by
  by_cases h : p
  · rw [if_pos h]; exact ha h
  · rw [if_neg h]; exact hb h

end WG.Bsd
