import Verif.Proof.BsdSteps
import Verif.Spec.BsdDns
/-! The DNS settings on macOS. -/
namespace WG.Bsd
open WG.Quick (Call Reply Ev World Out calm chomp readLoopLines hasInfix wordsAux hasInfix_iff chomp_eq endedLines_iff blankWords)
open WG.Spec WG.Spec.Quick WG.Spec.Bsd

/-- The memory of a state. -/
def St.memory (s : St) : Memory := ⟨lookup s.svcDns, lookup s.svcSearch⟩

/-- Keys are unique and values not empty. -/
def Tidy (m : List (CStr × CStr)) : Prop := (m.map (·.1)).Nodup ∧ ∀ p ∈ m, p.2 ≠ []

theorem lookup_nil (k : CStr) : lookup [] k = [] := rfl

theorem lookup_cons (p : CStr × CStr) (m : List (CStr × CStr)) (k : CStr) : lookup (p :: m) k = if p.1 = k then p.2 else lookup m k := by
  unfold lookup
  by_cases h : p.1 = k
  · rw [List.find?_cons_of_pos (by simpa using h), if_pos h]; rfl
  · rw [List.find?_cons_of_neg (by simpa using h), if_neg h]

theorem lookup_filter (m : List (CStr × CStr)) (f : CStr → Bool) (k : CStr) : lookup (m.filter fun p => f p.1) k = if f k = true then lookup m k else [] := by
  induction m with
  | nil => simp [lookup_nil]
  | cons p m ih =>
    by_cases hp : f p.1 = true
    · rw [List.filter_cons_of_pos (by simpa using hp), lookup_cons, lookup_cons, ih]
      by_cases hk : p.1 = k
      · rw [if_pos hk, if_pos hk, if_pos (hk ▸ hp)]
      · rw [if_neg hk, if_neg hk]
    · rw [List.filter_cons_of_neg (by simpa using hp), ih, lookup_cons]
      by_cases hk : p.1 = k
      · rw [if_neg (hk ▸ hp), if_neg (hk ▸ hp)]
      · rw [if_neg hk]

theorem lookup_append (m m' : List (CStr × CStr)) (k : CStr) (h : ∀ p ∈ m, p.1 ≠ k) : lookup (m ++ m') k = lookup m' k := by
  induction m with
  | nil => rfl
  | cons p m ih =>
    rw [List.cons_append, lookup_cons, if_neg (h p (List.mem_cons_self ..))]
    exact ih fun q hq => h q (List.mem_cons_of_mem _ hq)

theorem lookup_append_ne (m : List (CStr × CStr)) (k v x : CStr) (h : x ≠ k) : lookup (m ++ [(k, v)]) x = lookup m x := by
  induction m with
  | nil => rw [List.nil_append, lookup_cons, if_neg (fun e => h e.symm)]
  | cons p m ih => rw [List.cons_append, lookup_cons, lookup_cons, ih]

theorem lookup_assign (m : List (CStr × CStr)) (k v x : CStr) : lookup (assign m k v) x = if x = k then v else lookup m x := by
  unfold assign
  by_cases h : x = k
  · subst h
    rw [if_pos rfl, lookup_append]
    · rw [lookup_cons, if_pos rfl]
    · intro p hp
      simpa using (List.mem_filter.1 hp).2
  · rw [if_neg h, lookup_append_ne _ _ _ _ h]
    have := lookup_filter m (fun y => decide (y ≠ k)) x
    rw [this, if_pos (by simpa using h)]

theorem tidy_nil : Tidy [] := ⟨List.nodup_nil, by simp⟩

theorem tidy_filter {m : List (CStr × CStr)} (h : Tidy m) (f : CStr × CStr → Bool) : Tidy (m.filter f) :=
  ⟨h.1.sublist ((List.filter_sublist).map _), fun p hp => h.2 p (List.mem_of_mem_filter hp)⟩

theorem tidy_assign {m : List (CStr × CStr)} (h : Tidy m) (k : CStr) {v : CStr} (hv : v ≠ []) : Tidy (assign m k v) := by
  unfold assign
  obtain ⟨h1, h2⟩ := tidy_filter h (fun p => decide (p.1 ≠ k))
  refine ⟨?_, ?_⟩
  · rw [List.map_append, List.nodup_append]
    refine ⟨h1, by simp, ?_⟩
    intro a ha b hb
    obtain ⟨p, hp, rfl⟩ := List.mem_map.1 ha
    have := (List.mem_filter.1 hp).2
    simp only [List.map_cons, List.map_nil, List.mem_singleton] at hb
    subst hb
    simpa using this
  · intro p hp
    rcases List.mem_append.1 hp with hp | hp
    · exact h2 p hp
    · simp only [List.mem_singleton] at hp; subst hp; exact hv

theorem tidy_keys {m : List (CStr × CStr)} (h : Tidy m) (k : CStr) : k ∈ m.map (·.1) ↔ lookup m k ≠ [] := by
  induction m with
  | nil => simp [lookup_nil]
  | cons p m ih =>
    rw [lookup_cons, List.map_cons, List.mem_cons]
    have ht : Tidy m := ⟨(List.nodup_cons.1 h.1).2, fun q hq => h.2 q (List.mem_cons_of_mem _ hq)⟩
    by_cases hp : p.1 = k
    · rw [if_pos hp]
      exact ⟨fun _ => h.2 p (List.mem_cons_self ..), fun _ => .inl hp.symm⟩
    · rw [if_neg hp, ← ih ht]
      exact ⟨fun h => h.resolve_left (fun e => hp e.symm), .inr⟩

theorem svcAnswer_spec (out : List UInt8) : SvcAnswer out (svcAnswer out) := by
  unfold SvcAnswer svcAnswer
  rw [← chomp_eq]
  have e : hasInfix b!" " (chomp out) = true ↔ (32 : UInt8) ∈ chomp out := by
    rw [hasInfix_iff]
    unfold Occurs
    constructor
    · rintro ⟨a, b, h⟩; rw [h]; simp
    · intro h
      obtain ⟨a, b, h⟩ := List.append_of_mem h
      exact ⟨a, b, by rw [h]; simp⟩
  by_cases h : (32 : UInt8) ∈ chomp out
  · rw [if_pos (e.2 h)]; exact .inl ⟨h, rfl⟩
  · rw [if_neg (fun h' => h (e.1 h'))]; exact .inr ⟨h, rfl⟩

theorem servicesShown (out : List UInt8) : ServicesShown out (((readLoopLines out).drop 1).map svcName) := by
  refine ⟨_, (endedLines_iff _ _).2 rfl, ?_⟩
  generalize (readLoopLines out).drop 1 = ls
  induction ls with
  | nil => exact .nil
  | cons l ls ih =>
    refine .cons ?_ ih
    unfold svcName
    cases l with
    | nil => right; simp
    | cons x t =>
      by_cases hx : x = c!"*"
      · subst hx; left; simp
      · right; simp [hx]

/-- The parts of a state that the DNS functions leave alone. -/
def SvcOnly (s s' : St) (l : List Ev) : Prop := s' = { plus s l with svcDns := s'.svcDns, svcSearch := s'.svcSearch }

theorem collectService_ok {k : CStr} {w : World} {s s' : St} {u : Unit} (ht : Tidy s.svcDns) (h : collectService k w s = (.ok u, s')) :
    k ≠ [] ∧ ∃ l, SvcOnly s s' l ∧ Tidy s'.svcDns ∧ ((s.memory.dns k ≠ [] ∧ l = [] ∧ s'.memory = s.memory) ∨
      (s.memory.dns k = [] ∧ ∃ r1 r2 a1 a2, r1.status = 0 ∧ r2.status = 0 ∧ SvcAnswer r1.out a1 ∧ SvcAnswer r2.out a2 ∧
        s'.memory = ⟨remember s.memory.dns k a1, remember s.memory.search k a2⟩ ∧ l = [(dnsQuery k, r1), (searchQuery k, r2)])) := by
  unfold collectService at h
  by_cases hk : k = []
  · rw [if_pos hk] at h; exact (exitWith_ok h).elim
  refine ⟨hk, ?_⟩
  rw [if_neg hk, get_bind] at h
  by_cases h0 : lookup s.svcDns k ≠ []
  · rw [if_pos h0] at h
    obtain ⟨_, rfl⟩ := pure_inv h
    exact ⟨[], by unfold SvcOnly; rw [plus_nil], ht, .inl ⟨h0, rfl, rfl⟩⟩
  · rw [if_neg h0] at h
    obtain ⟨r1, s1, h1, h⟩ := bind_ok h
    obtain rfl := call_plus h1
    by_cases e1 : r1.status = 0
    swap
    · rw [if_pos e1] at h; exact (exitWith_ok h).elim
    rw [if_neg (by simpa using e1)] at h
    obtain ⟨_, s2, h2, h⟩ := bind_ok h
    have k2 : ∃ m, s2 = { plus s [(dnsQuery k, r1)] with svcDns := m } ∧ Tidy m ∧ lookup m = remember s.memory.dns k (svcAnswer r1.out) := by
      by_cases ha : svcAnswer r1.out = []
      · rw [if_pos ha] at h2
        obtain ⟨_, rfl⟩ := pure_inv h2
        refine ⟨s.svcDns, rfl, ht, ?_⟩
        funext x
        unfold remember
        rw [if_neg (fun h => h.2 ha)]
        rfl
      · rw [if_neg ha] at h2
        obtain rfl := modify_inv h2
        refine ⟨_, rfl, tidy_assign ht _ ha, ?_⟩
        funext x
        unfold remember
        rw [lookup_assign]
        by_cases hx : x = k
        · rw [if_pos hx, if_pos ⟨hx, ha⟩]
        · rw [if_neg hx, if_neg (fun h => hx h.1)]
          rfl
    obtain ⟨m, rfl, hm1, hm2⟩ := k2
    obtain ⟨r2, s3, h3, h⟩ := bind_ok h
    obtain rfl := call_plus h3
    by_cases e2 : r2.status = 0
    swap
    · rw [if_pos e2] at h; exact (exitWith_ok h).elim
    rw [if_neg (by simpa using e2)] at h
    have k3 : ∃ m', s' = { plus s [(dnsQuery k, r1), (searchQuery k, r2)] with svcDns := m, svcSearch := m' } ∧
        lookup m' = remember s.memory.search k (svcAnswer r2.out) := by
      by_cases ha : svcAnswer r2.out = []
      · rw [if_pos ha] at h
        obtain ⟨_, rfl⟩ := pure_inv h
        refine ⟨s.svcSearch, by unfold plus dnsQuery searchQuery; simp, ?_⟩
        funext x
        unfold remember
        rw [if_neg (fun h => h.2 ha)]
        rfl
      · rw [if_neg ha] at h
        obtain rfl := modify_inv h
        refine ⟨_, by unfold plus dnsQuery searchQuery; simp; rfl, ?_⟩
        funext x
        unfold remember
        show lookup (assign s.svcSearch k _) x = _
        rw [lookup_assign]
        by_cases hx : x = k
        · rw [if_pos hx, if_pos ⟨hx, ha⟩]
        · rw [if_neg hx, if_neg (fun h => hx h.1)]
          rfl
    obtain ⟨m', rfl, hm'⟩ := k3
    refine ⟨_, rfl, hm1, .inr ⟨not_not.1 h0, r1, r2, _, _, e1, e2, svcAnswer_spec _, svcAnswer_spec _, ?_, rfl⟩⟩
    unfold St.memory at hm2 hm' ⊢
    dsimp only at hm2 hm' ⊢
    rw [hm2, hm']

theorem collectEach_ok (found : List CStr) {w : World} {s s' : St} {u : Unit} (ht : Tidy s.svcDns) (h : forEach collectService found w s = (.ok u, s')) :
    ∃ l, SvcOnly s s' l ∧ Tidy s'.svcDns ∧ Asked s.memory found s'.memory l := by
  induction found generalizing s with
  | nil =>
    obtain ⟨_, rfl⟩ := pure_inv h
    exact ⟨[], by unfold SvcOnly; rw [plus_nil], ht, .nil⟩
  | cons k ks ih =>
    obtain ⟨_, s1, h1, h2⟩ := bind_ok h
    obtain ⟨n0, l1, o1, t1, h1⟩ := collectService_ok ht h1
    obtain ⟨l2, o2, t2, h2⟩ := ih t1 h2
    refine ⟨l1 ++ l2, ?_, t2, ?_⟩
    · unfold SvcOnly at *
      rw [o2, o1, ← plus_plus]
      rfl
    · rcases h1 with ⟨n, rfl, e⟩ | ⟨n, r1, r2, a1, a2, q1, q2, q3, q4, e, rfl⟩
      · rw [e] at h2; exact .known n0 n h2
      · rw [e] at h2; exact .ask n0 n q1 q2 q3 q4 h2

theorem collectServices_ok {w : World} {s s' : St} {u : Unit} (ht : Tidy s.svcDns) (h : collectServices w s = (.ok u, s')) :
    ∃ r found asked lq, SvcOnly s s' ((listServices, r) :: lq) ∧ Tidy s'.svcDns ∧ ServicesShown r.out found ∧ Asked s.memory found asked lq ∧
      s'.memory = asked.only found := by
  unfold collectServices at h
  obtain ⟨r, s1, h1, h⟩ := bind_ok h
  obtain rfl := call_plus h1
  dsimp only at h
  obtain ⟨_, s2, h2, h⟩ := bind_ok h
  obtain ⟨lq, o, t, a⟩ := collectEach_ok _ (s := plus s _) ht h2
  obtain rfl := modify_inv h
  have hf : ∀ (m : List (CStr × CStr)) k, lookup (m.filter fun p => decide (p.1 ∉ (s2.svcDns.map (·.1)).filter fun k => decide (k ∉ ((readLoopLines r.out).drop 1).map svcName))) k =
      if lookup s2.svcDns k ≠ [] ∧ k ∉ ((readLoopLines r.out).drop 1).map svcName then [] else lookup m k := by
    intro m k
    have := lookup_filter m (fun y => decide (y ∉ (s2.svcDns.map (·.1)).filter fun k => decide (k ∉ ((readLoopLines r.out).drop 1).map svcName))) k
    rw [this]
    have e : (k ∈ (s2.svcDns.map (·.1)).filter fun k => decide (k ∉ ((readLoopLines r.out).drop 1).map svcName)) ↔
        lookup s2.svcDns k ≠ [] ∧ k ∉ ((readLoopLines r.out).drop 1).map svcName := by
      rw [List.mem_filter, tidy_keys t]
      simp only [decide_eq_true_eq]
    by_cases hk : lookup s2.svcDns k ≠ [] ∧ k ∉ ((readLoopLines r.out).drop 1).map svcName
    · rw [if_pos hk, if_neg (by rw [decide_eq_true_eq]; exact fun h => h (e.2 hk))]
    · rw [if_neg hk, if_pos (by rw [decide_eq_true_eq]; exact fun h => hk (e.1 h))]
  refine ⟨r, _, s2.memory, lq, ?_, tidy_filter t _, servicesShown _, a, ?_⟩
  · unfold SvcOnly at *
    rw [o, plus_plus]
    rfl
  · unfold Memory.only St.memory
    dsimp only
    congr 1
    · funext k
      rw [hf]
      by_cases hk : k ∈ ((readLoopLines r.out).drop 1).map svcName
      · rw [if_pos hk, if_neg (fun h => h.2 hk)]
      · rw [if_neg hk]
        by_cases he : lookup s2.svcDns k = []
        · rw [if_neg (fun h => h.1 he), he]
        · rw [if_pos ⟨he, hk⟩]
    · funext k
      rw [hf]

theorem services_of {c : Cfg} (hord : ∀ l, (c.order l).Perm l) {s : St} (ht : Tidy s.svcDns) : Services s.memory (c.order (s.svcDns.map (·.1))) :=
  ⟨(hord _).nodup_iff.2 ht.1, fun k => by rw [(hord _).mem_iff, tidy_keys ht]; rfl⟩

theorem setDnsDarwin_ok {c : Cfg} (hord : ∀ l, (c.order l).Perm l) {w : World} {s s' : St} {u : Unit} (ht : Tidy s.svcDns) (h : setDnsDarwin c w s = (.ok u, s')) :
    ∃ l, SvcOnly s s' l ∧ Tidy s'.svcDns ∧ DnsChanged c s.memory s'.memory l := by
  unfold setDnsDarwin at h
  obtain ⟨_, s1, h1, h⟩ := bind_ok h
  obtain ⟨r, found, asked, lq, o, t, f, a, e⟩ := collectServices_ok ht h1
  rw [get_bind] at h
  obtain ⟨ls, p, rfl⟩ := forEach_plus (P := ServiceSet c.opts) (real := s1.real) (by
    intro k w s2 s3 u _ h
    obtain ⟨r, s4, h2, h⟩ := bind_ok h
    obtain rfl := call_plus h2
    by_cases hr : r.status = 0
    · rw [if_neg (by simpa using hr)] at h
      obtain ⟨r', rfl⟩ := run_any h
      exact ⟨_, plus_plus .., r, .inr ⟨hr, r', rfl⟩⟩
    · rw [if_pos hr] at h
      obtain ⟨_, rfl⟩ := pure_inv h
      exact ⟨_, rfl, r, .inl ⟨hr, rfl⟩⟩) _ rfl h
  refine ⟨(listServices, r) :: (lq ++ ls.flatten), ?_, t, r, found, asked, lq, _, ls, rfl, f, a, e, ?_, p⟩
  · unfold SvcOnly at *
    rw [o]
    unfold plus
    simp
  · exact services_of (s := s1) hord t

theorem delDns_ok {c : Cfg} (hord : ∀ l, (c.order l).Perm l) {w : World} {s s' : St} {u : Unit} (ht : Tidy s.svcDns) (h : delDns c w s = (.ok u, s')) :
    ∃ l, s' = plus s l ∧ DnsRestored s.memory l := by
  unfold delDns at h
  rw [get_bind] at h
  obtain ⟨ls, p, rfl⟩ := forEach_plus (P := ServiceRestored s.memory) (real := s.real) (by
    intro k w s2 s3 u _ h
    obtain ⟨_, s4, h2, h⟩ := bind_ok h
    obtain ⟨r, rfl⟩ := run_any h2
    obtain ⟨r', rfl⟩ := run_any h
    exact ⟨_, plus_plus .., _, _, r, r', blankWords _, blankWords _, rfl⟩) _ rfl h
  exact ⟨_, rfl, _, ls, services_of hord ht, p, rfl⟩

end WG.Bsd
