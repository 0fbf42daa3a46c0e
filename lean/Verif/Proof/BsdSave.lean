import Verif.Spec.BsdSave
import Verif.Proof.BsdUpEnd
import Verif.Proof.QuickSaved
/-! `save` and `down` on the BSDs. -/
namespace WG.Bsd
open WG.Quick (Call Reply Ev World Out calm chomp readLoopLines afterFirst hasInfix suffixes hasInfix_iff chomp_eq endedLines_iff blankWords collected_filterMap
  nameserverOf ownText ownText_eq patsub_amp replaceFirst_spec dnsServers_sound wordsAux)
open WG.Spec WG.Spec.Quick WG.Spec.Bsd

variable {α β : Type} {c : Cfg}

/-- Stopped with a status, or at the last event. -/
def Halt (o : Out α) (l : List Ev) : Prop := (∃ n, n ≠ 0 ∧ o = .exit n) ∨ ((∃ n, o = .signal n) ∧ ∃ pre v, l = pre ++ [v] ∧ v.2.sig = true)

theorem Halt.pre {o : Out α} {l : List Ev} (h : Halt o l) (a : List Ev) : Halt o (a ++ l) := by
  rcases h with h | ⟨h, pre, v, rfl, hv⟩
  · exact .inl h
  · exact .inr ⟨h, a ++ pre, v, by simp, hv⟩

theorem Halt.stopped {o : Out α} {o' : Out β} {l : List Ev} (h : Halt o l) (hs : Stopped o o') : Halt o' l := by
  rcases h with ⟨n, hn, rfl⟩ | ⟨⟨n, rfl⟩, h⟩
  · cases o' <;> first | exact hs.elim | skip
    have : _ = _ := hs
    subst this
    exact .inl ⟨_, hn, rfl⟩
  · cases o' <;> first | exact hs.elim | exact .inr ⟨⟨_, rfl⟩, h⟩

theorem call_stop {k : Call} {w : World} {s s' : St} {o : Out Reply} {o' : Out β} (h : call k w s = (o, s')) (hs : Stopped o o') :
    ∃ r, s' = plus s [(k, r)] ∧ r.sig = true ∧ Halt o' [(k, r)] := by
  obtain ⟨h1, ⟨rfl, _⟩ | ⟨h2, h3⟩⟩ := call_inv h
  · exact absurd rfl (stopped_not_ok hs _)
  · have hh : Halt o [(k, w s.hist k)] := .inr ⟨⟨_, h2⟩, [], _, rfl, h3⟩
    exact ⟨_, h1, h3, hh.stopped hs⟩

theorem run_stop {k : Call} {w : World} {s s' : St} {o : Out Unit} {o' : Out β} (h : run true k w s = (o, s')) (hs : Stopped o o') :
    ∃ r, s' = plus s [(k, r)] ∧ Bad (k, r) ∧ Halt o' [(k, r)] := by
  obtain ⟨h1, ⟨rfl, _⟩ | ⟨h2, h3⟩ | ⟨h2, h3, _, h4⟩⟩ := run_inv h
  · exact absurd rfl (stopped_not_ok hs _)
  · have hh : Halt o [(k, w s.hist k)] := .inr ⟨⟨_, h2⟩, [], _, rfl, h3⟩
    exact ⟨_, h1, .inr h3, hh.stopped hs⟩
  · have hh : Halt o [(k, w s.hist k)] := .inl ⟨_, h4, h2⟩
    exact ⟨_, h1, .inl h4, hh.stopped hs⟩

theorem run_result {k : Call} {w : World} {s s' : St} {o : Out Unit} (h : run true k w s = (o, s')) :
    (∃ e, o = .ok () ∧ Did k e ∧ s' = plus s [e]) ∨ ∃ r, s' = plus s [(k, r)] ∧ Bad (k, r) ∧ Halt o [(k, r)] := by
  cases o with
  | ok u => obtain ⟨e, h1, h2⟩ := run_did h; exact .inl ⟨e, rfl, h1, h2⟩
  | exit n => exact .inr (run_stop h rfl)
  | signal n => exact .inr (run_stop h rfl)
  | running => exact .inr (run_stop h trivial)

/-! ### Reading -/

theorem fourth (x : CStr) : FourthWord x (wordAt 3 x) := ⟨_, blankWords x, wordAt_of (blankWords x) 3⟩

theorem fourth_unique {x a : CStr} (h : FourthWord x a) : a = wordAt 3 x := by
  obtain ⟨ws, h1, rfl⟩ := h
  exact (wordAt_of h1 3).symm

theorem noLink_iff (x : CStr) : NoLink x ↔ hasInfix b!"Link" (wordAt 2 x) = false := by
  constructor
  · rintro ⟨ws, h1, h2⟩
    rw [← wordAt_of h1, ← hasInfix_iff] at h2
    simpa using h2
  · intro h
    refine ⟨_, blankWords x, ?_⟩
    rw [← wordAt_of (blankWords x), ← hasInfix_iff, h]
    simp

theorem forall2_map {γ δ : Type} {R : γ → δ → Prop} {f : γ → δ} (h : ∀ x, R x (f x)) (l : List γ) : List.Forall₂ R l (l.map f) := by
  induction l with
  | nil => exact .nil
  | cons x l ih => exact .cons (h x) ih

theorem collected_filter (ls : List CStr) :
    Collected (fun x a => NoLink x ∧ FourthWord x a) ls ((ls.filter fun l => !hasInfix b!"Link" (wordAt 2 l)).map (wordAt 3)) := by
  induction ls with
  | nil => exact .nil
  | cons x ls ih =>
    rw [List.filter_cons]
    by_cases h : hasInfix b!"Link" (wordAt 2 x) = true
    · rw [if_neg (by simp [h])]
      refine .miss (fun y hy => ?_) ih
      have := (noLink_iff x).1 hy.1
      rw [h] at this; cases this
    · rw [if_pos (by simp [h])]
      exact .hit ⟨(noLink_iff x).2 (by simpa using h), fourth x⟩ ih

/-- What follows `inet ` or `inet6 `. -/
def tagged (t : CStr) : CStr := if b!"inet ".isPrefixOf t then t.drop 5 else if b!"inet6 ".isPrefixOf t then t.drop 6 else []

theorem tagged_some {t : CStr} {x : UInt8} {r : CStr} : tagged t = x :: r → ∃ tag, InetTag tag ∧ t = tag ++ x :: r := by
  unfold tagged
  intro h
  split at h
  · rename_i h1
    obtain ⟨u, rfl⟩ := List.isPrefixOf_iff_prefix.1 h1
    exact ⟨_, .inl rfl, by rw [← h]; rfl⟩
  · split at h
    · rename_i h1
      obtain ⟨u, rfl⟩ := List.isPrefixOf_iff_prefix.1 h1
      exact ⟨_, .inr rfl, by rw [← h]; rfl⟩
    · cases h

theorem tagged_of {tag r : CStr} (h : InetTag tag) : tagged (tag ++ r) = r := by
  unfold tagged
  rcases h with rfl | rfl
  · rw [if_pos (List.isPrefixOf_iff_prefix.2 ⟨r, rfl⟩)]; rfl
  · rw [if_neg (by simp), if_pos (List.isPrefixOf_iff_prefix.2 ⟨r, rfl⟩)]; rfl

theorem takeWhile_pos {r : CStr} : r.takeWhile (· ≠ 32) ≠ [] ↔ ∃ x r', r = x :: r' ∧ x ≠ 32 := by
  cases r with
  | nil => simp
  | cons x r =>
    by_cases hx : x = 32
    · simp [hx]
    · rw [List.takeWhile_cons_of_pos (by simpa using hx)]
      simp [hx]

theorem inetWord_cons (x : UInt8) (l : CStr) :
    inetWord (x :: l) = if (tagged (x :: l)).takeWhile (· ≠ 32) ≠ [] then some ((tagged (x :: l)).takeWhile (· ≠ 32)) else inetWord l := by
  have hs : suffixes (x :: l) = (x :: l) :: suffixes l := by simp [suffixes]
  have hf : ∀ m, inetWord m = (suffixes m).findSome? fun t => if (tagged t).takeWhile (· ≠ 32) ≠ [] then some ((tagged t).takeWhile (· ≠ 32)) else none := fun _ => rfl
  rw [hf (x :: l), hf l, hs, List.findSome?_cons]
  by_cases h : (tagged (x :: l)).takeWhile (· ≠ 32) ≠ []
  · rw [if_pos h, if_pos h]
  · rw [if_neg h, if_neg h]

theorem inetWord_iff (line a : CStr) : inetWord line = some a ↔ IfconfigAddr line a := by
  induction line with
  | nil =>
    constructor
    · intro h; simp [inetWord, suffixes] at h
    · rintro ⟨pre, tag, rest, h, ht, ha, _⟩
      have := congrArg List.length h
      rcases ht with rfl | rfl <;> simp at this
  | cons x l ih =>
    rw [inetWord_cons]
    by_cases h : (tagged (x :: l)).takeWhile (· ≠ 32) ≠ []
    · rw [if_pos h]
      obtain ⟨y, r, h1, h2⟩ := takeWhile_pos.1 h
      obtain ⟨tag, ht, h3⟩ := tagged_some h1
      have hd : y :: r = (y :: r).takeWhile (· ≠ 32) ++ (y :: r).dropWhile (· ≠ 32) := (List.takeWhile_append_dropWhile ..).symm
      have hmem : (32 : UInt8) ∉ (y :: r).takeWhile (· ≠ 32) := fun hm => by simpa using List.mem_takeWhile_imp hm
      have hrest : (y :: r).dropWhile (· ≠ 32) = [] ∨ ((y :: r).dropWhile (· ≠ 32)).head? = some 32 := by
        rcases e : (y :: r).dropWhile (· ≠ 32) with - | ⟨z, zs⟩
        · exact .inl e
        · have := List.head_dropWhile_not (· ≠ (32 : UInt8)) (l := y :: r) (by rw [e]; simp)
          simp only [e, List.head_cons] at this
          right; rw [e]; simpa using this
      rw [h1] at h ⊢
      constructor
      · intro he
        simp only [Option.some.injEq] at he
        subst he
        refine ⟨[], tag, _, ?_, ht, h, hmem, hrest, fun _ _ _ _ _ _ _ => by simp⟩
        rw [h3, List.nil_append, List.append_assoc, ← hd]
      · rintro ⟨pre, tag', rest, e, ht', ha, hm, hr, hmin⟩
        have : pre = [] := by
          have := hmin [] tag y r (by rw [h3]; rfl) ht h2
          exact List.eq_nil_of_length_eq_zero (by simpa using this)
        subst this
        rw [List.nil_append, List.append_assoc] at e
        have h4 := tagged_of (r := a ++ rest) ht'
        rw [← e, h1] at h4
        rw [Option.some.injEq, h4]
        exact WG.Quick.takeWhile_of (fun z hz => by rw [decide_eq_true_iff]; rintro rfl; exact hm hz) fun z hz => by
          rcases hr with rfl | hr
          · cases hz
          · rw [hr] at hz; cases hz; simp
    · rw [if_neg h, ih]
      have hno : ∀ tag y r, x :: l = tag ++ y :: r → InetTag tag → y = 32 := by
        intro tag y r e ht
        by_contra hy
        refine h (takeWhile_pos.2 ⟨y, r, ?_, hy⟩)
        rw [e, tagged_of ht]
      constructor
      · rintro ⟨pre, tag, rest, rfl, ht, ha, hm, hr, hmin⟩
        refine ⟨x :: pre, tag, rest, rfl, ht, ha, hm, hr, ?_⟩
        intro pre' tag' y r e ht' hy
        rcases pre' with - | ⟨z, pre'⟩
        · exact absurd (hno tag' y r (by simpa using e) ht') hy
        · simp only [List.cons_append, List.cons.injEq] at e
          have := hmin pre' tag' y r (by simpa using e.2) ht' hy
          simp only [List.length_cons]; omega
      · rintro ⟨pre, tag, rest, e, ht, ha, hm, hr, hmin⟩
        rcases pre with - | ⟨z, pre⟩
        · obtain ⟨y, a', rfl⟩ := List.exists_cons_of_ne_nil ha
          have := hno tag y (a' ++ rest) (by simpa using e) ht
          exact absurd (by simp [this]) hm
        · simp only [List.cons_append, List.cons.injEq] at e
          refine ⟨pre, tag, rest, e.2, ht, ha, hm, hr, fun pre' tag' y r e' ht' hy => ?_⟩
          have := hmin (x :: pre') tag' y r (by rw [e']; simp) ht' hy
          simp only [List.length_cons] at this; omega

/-! ### Looking -/

/-- Questions, and how they end. -/
theorem savedAddrs_ends {w : World} {s s' : St} {o : Out (List CStr)} (h : savedAddrs c w s = (o, s')) :
    (∃ as l, o = .ok as ∧ AddrsFound c s.real as l ∧ s' = plus s l) ∨ (∃ l, s' = plus s l ∧ (∀ v ∈ l, ∃ q, v.1 = .query q) ∧ Halt o l) := by
  unfold savedAddrs at h
  rw [get_bind] at h
  unfold AddrsFound
  cases hp : c.plat with
  | freebsd =>
    rw [hp] at h
    dsimp only at h ⊢
    rcases bind_inv h with ⟨r4, s1, h1, h⟩ | ⟨o1, h1, h2⟩
    swap
    · obtain ⟨r, e, _, hh⟩ := call_stop h1 h2
      exact .inr ⟨_, e, by simp, hh⟩
    obtain rfl := call_plus h1
    unfold netstatAddrs at h
    rcases e4 : readLoopLines r4.out with - | ⟨h4, l4⟩
    · rw [e4] at h
      simp only [exitWith, Prod.mk.injEq] at h
      exact .inr ⟨_, h.2.symm, by simp, .inl ⟨1, by simp, h.1.symm⟩⟩
    rw [e4] at h
    dsimp only at h
    rcases bind_inv h with ⟨r6, s2, h2, h⟩ | ⟨o1, h2, h3⟩
    swap
    · obtain ⟨r, e, _, hh⟩ := call_stop h2 h3
      rw [plus_plus] at e
      exact .inr ⟨_, e, by simp, hh.pre _⟩
    obtain rfl := call_plus h2
    rw [plus_plus] at h
    rcases e6 : readLoopLines r6.out with - | ⟨h6, l6⟩
    · rw [e6] at h
      simp only [exitWith, Prod.mk.injEq] at h
      exact .inr ⟨_, h.2.symm, by simp, .inl ⟨1, by simp, h.1.symm⟩⟩
    rw [e6] at h
    simp only [Sh.pure, Prod.mk.injEq] at h
    refine .inl ⟨_, _, h.1.symm, ⟨r4, r6, h4, h6, l4, l6, rfl, ?_, ?_, ?_⟩, h.2.symm⟩
    · rw [← e4]; exact (endedLines_iff _ _).2 rfl
    · rw [← e6]; exact (endedLines_iff _ _).2 rfl
    · rw [← List.map_append]; exact forall2_map fourth _
  | openbsd =>
    rw [hp] at h
    dsimp only at h ⊢
    rcases bind_inv h with ⟨r, s1, h1, h⟩ | ⟨o1, h1, h2⟩
    swap
    · obtain ⟨r, e, _, hh⟩ := call_stop h1 h2
      exact .inr ⟨_, e, by simp, hh⟩
    obtain rfl := call_plus h1
    unfold netstatAddrsOpenbsd at h
    rcases e4 : readLoopLines r.out with - | ⟨hd, ls⟩
    · rw [e4] at h
      simp only [exitWith, Prod.mk.injEq] at h
      exact .inr ⟨_, h.2.symm, by simp, .inl ⟨1, by simp, h.1.symm⟩⟩
    rw [e4] at h
    simp only [Sh.pure, Prod.mk.injEq] at h
    refine .inl ⟨_, _, h.1.symm, ⟨r, hd, ls, rfl, ?_, collected_filter ls⟩, h.2.symm⟩
    rw [← e4]; exact (endedLines_iff _ _).2 rfl
  | darwin =>
    rw [hp] at h
    dsimp only at h ⊢
    rcases bind_inv h with ⟨r, s1, h1, h⟩ | ⟨o1, h1, h2⟩
    swap
    · obtain ⟨r, e, _, hh⟩ := call_stop h1 h2
      exact .inr ⟨_, e, by simp, hh⟩
    obtain rfl := call_plus h1
    simp only [Sh.pure, Prod.mk.injEq] at h
    exact .inl ⟨_, _, h.1.symm, ⟨r, _, rfl, (endedLines_iff _ _).2 rfl, collected_filterMap inetWord_iff _⟩, h.2.symm⟩

theorem savedDns_ends {w : World} {s s' : St} {o : Out (List CStr)} (h : savedDns c w s = (o, s')) :
    (∃ ns l, o = .ok ns ∧ DnsFound c ns l ∧ s' = plus s l) ∨ (∃ l, s' = plus s l ∧ (∀ v ∈ l, ∃ q, v.1 = .query q) ∧ Halt o l) := by
  unfold savedDns at h
  unfold DnsFound
  cases hp : c.plat with
  | freebsd =>
    rw [hp] at h
    dsimp only at h
    rcases bind_inv h with ⟨r, s1, h1, h⟩ | ⟨o1, h1, h2⟩
    swap
    · obtain ⟨r, e, _, hh⟩ := call_stop h1 h2
      exact .inr ⟨_, e, by simp, hh⟩
    obtain rfl := call_plus h1
    simp only [Sh.pure, Prod.mk.injEq] at h
    exact .inl ⟨_, _, h.1.symm, by rw [if_pos rfl]; exact ⟨r, rfl, dnsServers_sound _⟩, h.2.symm⟩
  | openbsd =>
    rw [hp] at h
    simp only [Sh.pure, Prod.mk.injEq] at h
    exact .inl ⟨_, [], h.1.symm, by simp, by rw [plus_nil]; exact h.2.symm⟩
  | darwin =>
    rw [hp] at h
    simp only [Sh.pure, Prod.mk.injEq] at h
    exact .inl ⟨_, [], h.1.symm, by simp, by rw [plus_nil]; exact h.2.symm⟩

theorem addrs_queries {real : CStr} {as : List CStr} {l : List Ev} (h : AddrsFound c real as l) : ∀ v ∈ l, ∃ q, v.1 = .query q := by
  unfold AddrsFound netstatIf at h
  split at h
  · obtain ⟨_, _, _, _, _, _, rfl, _⟩ := h; simp
  · obtain ⟨_, _, _, rfl, _⟩ := h; simp
  · obtain ⟨_, _, rfl, _⟩ := h; simp

theorem dns_queries {ns : List CStr} {l : List Ev} (h : DnsFound c ns l) : ∀ v ∈ l, ∃ q, v.1 = .query q := by
  unfold DnsFound at h
  split at h
  · obtain ⟨_, rfl, _⟩ := h; simp
  · rw [h.2]; simp

theorem look_queries {real x : CStr} {l : List Ev} (h : SaveLook c real x l) : ∀ v ∈ l, ∃ q, v.1 = .query q := by
  obtain ⟨_, _, la, ld, s, _, _, rfl, h1, h2, _⟩ := h
  intro v hv
  simp only [List.mem_append, List.mem_singleton] at hv
  rcases hv with hv | hv | rfl
  · exact addrs_queries h1 v hv
  · exact dns_queries h2 v hv
  · exact ⟨_, rfl⟩

/-! ### Writing -/

theorem saveBody_ends {x : List UInt8} {w : World} {s s' : St} {o : Out Unit} (h : saveBody c x w s = (o, s')) :
    (∃ t, o = .ok () ∧ SaveWrote c x t ∧ s' = plus s t) ∨ (∃ t, s' = plus s t ∧ SaveBroke c x t ∧ Halt o t) := by
  unfold saveBody at h
  rcases bind_inv h with ⟨r1, s1, h1, h⟩ | ⟨o1, h1, h2⟩
  swap
  · obtain ⟨r, e, hr, hh⟩ := call_stop h1 h2
    exact .inr ⟨_, e, .inl ⟨r, rfl, .inr hr⟩, hh⟩
  obtain rfl := call_plus h1
  by_cases hr1 : r1.status = 0
  swap
  · rw [if_pos hr1] at h
    simp only [exitWith, Prod.mk.injEq] at h
    exact .inr ⟨_, h.2.symm, .inl ⟨r1, rfl, .inl hr1⟩, .inl ⟨1, by simp, h.1.symm⟩⟩
  rw [if_neg (by simpa using hr1)] at h
  have d1 : Did (writeCmd c x) (writeCmd c x, r1) := ⟨rfl, hr1⟩
  rcases bind_inv h with ⟨_, s2, h2, h⟩ | ⟨o1, h2, h3⟩
  swap
  · obtain ⟨r2, e, hr, hh⟩ := run_stop h2 h3
    rw [plus_plus] at e
    exact .inr ⟨_, e, .inr (.inl ⟨_, r2, rfl, d1, hr⟩), hh.pre _⟩
  obtain ⟨e2, d2, rfl⟩ := run_did h2
  rw [plus_plus] at h
  rcases bind_inv h with ⟨r3, s3, h3, h⟩ | ⟨o1, h3, h4⟩
  swap
  · obtain ⟨r, e, hr, hh⟩ := call_stop h3 h4
    rw [plus_plus] at e
    exact .inr ⟨_, e, .inr (.inr ⟨_, e2, r, rfl, d1, d2, .inr hr⟩), hh.pre _⟩
  obtain rfl := call_plus h3
  rw [plus_plus] at h
  by_cases hr3 : r3.status = 0
  · rw [if_neg (by simpa using hr3)] at h
    simp only [Sh.pure, Prod.mk.injEq] at h
    exact .inl ⟨_, h.1.symm, ⟨_, e2, _, rfl, d1, d2, rfl, hr3⟩, h.2.symm⟩
  · rw [if_pos hr3] at h
    simp only [exitWith, Prod.mk.injEq] at h
    exact .inr ⟨_, h.2.symm, .inr (.inr ⟨_, e2, r3, rfl, d1, d2, .inl hr3⟩), .inl ⟨1, by simp, h.1.symm⟩⟩

theorem saveConfig_ends {w : World} {s s' : St} {o : Out Unit} (h : saveConfig c w s = (o, s')) :
    (∃ x q t, o = .ok () ∧ SaveLook c s.real x q ∧ SaveWrote c x t ∧ s' = { plus s (q ++ t) with trap := restTrap c }) ∨
    (∃ l, s' = plus s l ∧ (∀ v ∈ l, ∃ q, v.1 = .query q) ∧ Halt o l) ∨
    (∃ x q t, s' = { plus s (q ++ t) with trap := .save } ∧ SaveLook c s.real x q ∧ SaveBroke c x t ∧ Halt o (q ++ t)) := by
  unfold saveConfig at h
  rcases bind_inv h with ⟨as, s1, h1, h⟩ | ⟨o1, h1, h2⟩
  swap
  · rcases savedAddrs_ends h1 with ⟨as, l, rfl, _⟩ | ⟨l, e, hq, hh⟩
    · exact absurd rfl (stopped_not_ok h2 _)
    · exact .inr (.inl ⟨l, e, hq, hh.stopped h2⟩)
  rcases savedAddrs_ends h1 with ⟨as', la, e0, ha, rfl⟩ | ⟨l, _, _, hh⟩
  swap
  · rcases hh with ⟨_, _, hh⟩ | ⟨⟨_, hh⟩, _⟩ <;> cases hh
  cases e0
  rcases bind_inv h with ⟨ns, s2, h2, h⟩ | ⟨o1, h2, h3⟩
  swap
  · rcases savedDns_ends h2 with ⟨as, l, rfl, _⟩ | ⟨l, e, hq, hh⟩
    · exact absurd rfl (stopped_not_ok h3 _)
    · rw [plus_plus] at e
      refine .inr (.inl ⟨_, e, fun v hv => ?_, (hh.stopped h3).pre _⟩)
      rcases List.mem_append.1 hv with hv | hv
      · exact addrs_queries ha v hv
      · exact hq v hv
  rcases savedDns_ends h2 with ⟨as', ld, e0, hd, rfl⟩ | ⟨l, _, _, hh⟩
  swap
  · rcases hh with ⟨_, _, hh⟩ | ⟨⟨_, hh⟩, _⟩ <;> cases hh
  cases e0
  rw [get_bind, plus_plus] at h
  have hq : ∀ r, ∀ v ∈ la ++ ld ++ [(Call.query [b!"wg", b!"showconf", s.real], (r : Reply))], ∃ q, v.1 = .query q := by
    intro r v hv
    simp only [List.mem_append, List.mem_singleton] at hv
    rcases hv with (hv | hv) | rfl
    · exact addrs_queries ha v hv
    · exact dns_queries hd v hv
    · exact ⟨_, rfl⟩
  rcases bind_inv h with ⟨r, s3, h3, h⟩ | ⟨o1, h3, h4⟩
  swap
  · obtain ⟨r, e, _, hh⟩ := call_stop h3 h4
    rw [plus_plus] at e
    exact .inr (.inl ⟨_, e, hq r, hh.pre _⟩)
  obtain rfl := call_plus h3
  rw [plus_plus] at h
  by_cases hr : r.status = 0
  swap
  · rw [if_pos hr] at h
    simp only [exitWith, Prod.mk.injEq] at h
    exact .inr (.inl ⟨_, h.2.symm, hq r, .inl ⟨_, hr, h.1.symm⟩⟩)
  rw [if_neg (by simpa using hr), setTrap_bind] at h
  have hl : SaveLook c s.real (savedText c (chomp r.out) (ownText c.opts as ns (savedMtu c.opts))) (la ++ ld ++ [(.query [b!"wg", b!"showconf", s.real], r)]) := by
    refine ⟨as, ns, la, ld, r, _, _, by simp, ha, hd, hr, ?_, replaceFirst_spec _ _ _ (by simp), rfl⟩
    dsimp only
    rw [ownText_eq]
    unfold savedMtu
    split
    · exact patsub_amp _ _
    · rfl
  rcases bind_inv h with ⟨_, s4, h4, h⟩ | ⟨o1, h4, h5⟩
  · rcases saveBody_ends h4 with ⟨t, _, ht, rfl⟩ | ⟨t, _, _, hh⟩
    · simp only [setTrap, modify, Prod.mk.injEq] at h
      refine .inl ⟨_, _, t, h.1.symm, hl, ht, ?_⟩
      rw [← h.2]
      unfold plus
      simp
    · rcases hh with ⟨_, _, hh⟩ | ⟨⟨_, hh⟩, _⟩ <;> cases hh
  · rcases saveBody_ends h4 with ⟨t, rfl, ht, rfl⟩ | ⟨t, e, hb, hh⟩
    · exact absurd rfl (stopped_not_ok h5 _)
    · refine .inr (.inr ⟨_, _, t, ?_, hl, hb, (hh.stopped h5).pre _⟩)
      rw [e]
      unfold plus
      simp

end WG.Bsd
