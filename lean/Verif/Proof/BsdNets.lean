import Verif.Proof.BsdUpDone
import Verif.Spec.BsdNets
/-!
The routes to the allowed IPs after `up`.
-/
namespace WG.Bsd
open WG.Quick (Call Reply Ev World Out calm chomp readLoopLines)
open WG.Spec.Quick WG.Spec.Bsd

variable {f : Family} {d : CStr}

/-- No event of the list touches the route. -/
def Offs (f : Family) (d : CStr) (l : List Ev) : Prop := ∀ e ∈ l, Off f d e.1

theorem offs_nil : Offs f d [] := by intro e he; cases he
theorem offs_cons {e : Ev} {l : List Ev} (h1 : Off f d e.1) (h2 : Offs f d l) : Offs f d (e :: l) := by
  intro x hx
  rcases List.mem_cons.1 hx with rfl | hx
  · exact h1
  · exact h2 x hx
theorem offs_append {a b : List Ev} (h1 : Offs f d a) (h2 : Offs f d b) : Offs f d (a ++ b) := by
  intro x hx
  rcases List.mem_append.1 hx with hx | hx
  · exact h1 x hx
  · exact h2 x hx
theorem offs_one {e : Ev} (h1 : Off f d e.1) : Offs f d [e] := offs_cons h1 offs_nil
theorem offs_q {q : List CStr} {r : Reply} {l : List Ev} (h : Offs f d l) : Offs f d ((.query q, r) :: l) := offs_cons (off_query q) h
theorem offs_did {a : List CStr} {i : List UInt8} {e : Ev} (h : Did (.act a i) e) (hn : a.head? ≠ some b!"route") : Off f d e.1 := by
  rw [h.1]; exact off_act hn
theorem offs_forall {α : Type} {P : α → Ev → Prop} (hP : ∀ a e, P a e → Off f d e.1) {xs : List α} {l : List Ev} (h : List.Forall₂ P xs l) : Offs f d l := by
  induction h with
  | nil => exact offs_nil
  | cons h1 _ ih => exact offs_cons (hP _ _ h1) ih
theorem offs_flatten {α : Type} {P : α → List Ev → Prop} (hP : ∀ a e, P a e → Offs f d e) {xs : List α} {l : List (List Ev)} (h : List.Forall₂ P xs l) : Offs f d l.flatten := by
  induction h with
  | nil => exact offs_nil
  | cons h1 _ ih => exact offs_append (hP _ _ h1) ih

theorem after_offs {v : Option Via} {l : List Ev} (h : Offs f d l) : routeAfter f.flag d v l = v := by
  induction l with
  | nil => rfl
  | cons e l ih =>
    show routeAfter f.flag d (routeStep f.flag d v (e.1, e.2)) l = v
    rw [step_off (h e (by simp))]
    exact ih fun x hx => h x (by simp [hx])

theorem after_append (v : Option Via) (a b : List Ev) : routeAfter f.flag d v (a ++ b) = routeAfter f.flag d (routeAfter f.flag d v a) b := by
  unfold routeAfter; rw [List.foldl_append]

/-! ### The steps other than the routes -/

variable {c : Cfg} {real : CStr}

theorem offs_temp {dir : CStr} {l : List Ev} (h : TempStep c dir l) : Offs f d l := by
  unfold TempStep at h
  split at h
  · obtain ⟨r, t, _, _, rfl⟩ := h
    exact offs_cons (off_act (by simp)) (offs_q offs_nil)
  · subst h; exact offs_nil

theorem offs_lookup {found : Option CStr} {l : List Ev} (h : NameLookup c found l) : Offs f d l := by
  obtain ⟨i, t, l', rfl, h⟩ := h
  refine offs_q (offs_q ?_)
  rcases h with ⟨_, _, rfl⟩ | ⟨_, n, l2, rfl, h⟩
  · exact offs_nil
  · refine offs_q ?_
    rcases h with ⟨_, _, rfl⟩ | ⟨_, k, l3, rfl, h⟩
    · exact offs_nil
    · refine offs_q ?_
      rcases h with ⟨_, _, rfl⟩ | ⟨_, a, b, ta, tb, rfl, _⟩
      · exact offs_nil
      · exact offs_q (offs_q offs_nil)

theorem offs_check {l : List Ev} (h : CheckStep c l) : Offs f d l := by
  unfold CheckStep at h
  split at h
  · obtain ⟨r, _, rfl⟩ := h; exact offs_q offs_nil
  · obtain ⟨r, lines, _, _, rfl⟩ := h; exact offs_q offs_nil
  · exact offs_lookup h

theorem offs_add {l : List Ev} (h : AddStep c real l) : Offs f d l := by
  unfold AddStep at h
  split at h
  · obtain ⟨_, r, l', rfl, h⟩ := h
    refine offs_cons (off_act (by simp)) ?_
    rcases h with ⟨_, rfl⟩ | ⟨_, _, rfl⟩ | ⟨_, _, e, he, rfl⟩
    · exact offs_nil
    · exact offs_nil
    · exact offs_one (by rw [he.1]; exact off_words (by simp) (by simp))
  · induction h with
    | done _ _ => exact offs_q (offs_one (off_act (by simp)))
    | again _ _ _ _ ih => exact offs_q (offs_cons (off_act (by simp)) ih)
  · obtain ⟨x, u, l', rfl, h1, h2, h3⟩ := h
    exact offs_cons (offs_did h1 (by simp)) (offs_cons (offs_did h2 (by simp)) (offs_lookup h3))

theorem offs_hooks {hooks : List CStr} {l : List Ev} (h : HooksDone c real hooks l) : Offs f d l :=
  offs_forall (fun a e he => by obtain ⟨t, _, he⟩ := he; rw [he.1]; exact off_hook t) h

theorem offs_conf {e : Ev} (h : ConfStep c real e) : Off f d e.1 := offs_did h (by simp)

theorem offs_addrs {as : List CStr} {l : List Ev} (h : List.Forall₂ (AddrStep c real) as l) : Offs f d l := by
  refine offs_forall (fun a e he => ?_) h
  unfold AddrStep at he
  split at he
  · exact offs_did he (by simp)
  · split at he
    · obtain ⟨p, _, he⟩ := he; exact offs_did he (by simp)
    · exact offs_did he (by simp)

theorem offs_through {out : CStr} {m : Option Nat} {l : List Ev} (h : ThroughMtu out m l) : Offs f d l := by
  cases h with
  | found _ _ => exact offs_q offs_nil
  | noMtu _ _ => exact offs_q offs_nil
  | noIf _ => exact offs_nil

theorem offs_hostMtus {hs : List CStr} {ms : List Nat} {l : List Ev} (h : HostMtus hs ms l) : Offs f d l := by
  induction h with
  | nil => exact offs_nil
  | look h1 _ ih => exact offs_q (offs_append (offs_through h1) ih)

theorem offs_mtu {l : List Ev} (h : MtuSet c real l) : Offs f d l := by
  unfold MtuSet at h
  split at h
  · obtain ⟨e, he, rfl⟩ := h; exact offs_one (offs_did he (by simp))
  · split at h
    · obtain ⟨r, i, l1, base, o, cur, l2, rfl, _, h1, _, h2⟩ := h
      refine offs_q (offs_append ?_ (offs_q ?_))
      · rcases h1 with ⟨_, rfl, _⟩ | ⟨_, q, n, rfl, _⟩
        · exact offs_nil
        · exact offs_q offs_nil
      · split at h2
        · subst h2; exact offs_nil
        · obtain ⟨e, he, rfl⟩ := h2; exact offs_one (offs_did he (by simp))
    · obtain ⟨base, l', e, ⟨r, hosts, ms, l1, l2, rfl, _, h1, h2⟩, he, rfl⟩ := h
      refine offs_append (offs_q (offs_append (offs_hostMtus h1) ?_)) (offs_one (offs_did he (by simp)))
      rcases h2 with ⟨_, _, _, rfl⟩ | ⟨_, _, x, rfl⟩
      · exact offs_nil
      · exact offs_q offs_nil

theorem off_route {a : List CStr} (h1 : (a.drop 1).head? ≠ some b!"-q") : Off f d (cmd a) := by
  constructor
  · intro hh
    simp only [deleteCmd, cmd, Call.act.injEq, and_true] at hh
    rw [hh] at h1; simp at h1
  · intro via hh
    simp only [addCmd, cmd, Call.act.injEq, and_true] at hh
    rw [hh] at h1; simp at h1

theorem offs_dns {l : List Ev} (h : DnsSet c real l) : Offs f d l := by
  unfold DnsSet at h
  split at h
  · subst h; exact offs_nil
  · split at h
    · obtain ⟨e, he, rfl⟩ := h; exact offs_one (offs_did he (by simp))
    · obtain ⟨b, l1, l2, h1, rfl, h2⟩ := h
      refine offs_append ?_ ?_
      · rcases h1 with ⟨u, _, _, rfl⟩ | ⟨u, r, _, _, rfl⟩
        · exact offs_q offs_nil
        · exact offs_q (offs_q offs_nil)
      · split at h2
        · obtain ⟨cp, ls, ns, h3, h4, h5, rfl⟩ := h2
          refine offs_cons (offs_did h3 (by simp)) (offs_append ?_ (offs_one ?_))
          · split at h4
            · subst h4; exact offs_nil
            · obtain ⟨e, he, rfl⟩ := h4; exact offs_one (offs_did he (by simp))
          · rw [h5.1]; exact off_route (by simp)
        · subst h2; exact offs_nil
    · subst h; exact offs_nil

theorem offs_asked {m m' : Memory} {ks : List CStr} {l : List Ev} (h : Asked m ks m' l) : Offs f d l := by
  induction h with
  | nil => exact offs_nil
  | known _ _ _ ih => exact ih
  | ask _ _ _ _ _ _ _ ih => exact offs_q (offs_q ih)

theorem offs_late {l : List Ev} (h : DnsLate c l) : Offs f d l := by
  unfold DnsLate at h
  split at h
  · obtain ⟨m, r, found, asked, lq, ks, ls, rfl, _, h1, _, _, h2⟩ := h
    refine offs_q (offs_append (offs_asked h1) (offs_flatten (fun k l hl => ?_) h2))
    obtain ⟨r, ⟨_, rfl⟩ | ⟨_, r', rfl⟩⟩ := hl
    · exact offs_one (off_act (by simp))
    · exact offs_cons (off_act (by simp)) (offs_one (off_act (by simp)))
  · subst h; exact offs_nil

theorem hostsShown_host {out : List UInt8} {hosts : List CStr} (h : HostsShown out hosts) : ∀ x ∈ hosts, c!"/" ∉ x := by
  have := hostsShown_eq h
  subst this
  intro x hx
  rw [hostsIn_eq] at hx
  obtain ⟨e, _, he⟩ := List.mem_filterMap.1 hx
  obtain ⟨o, cl, port, _, _, _, h1, h2, _⟩ := (WG.Quick.endpointHost_iff e x).1 he
  exact host_no ⟨h1, h2⟩ c!"/" (by decide)

theorem offs_direct {l : List Ev} {out : List UInt8} (hd : c!"/" ∈ d) (h : DirectDone c real out l) : Offs f d l := by
  rcases h with ⟨_, r4, r6, re, hosts, l', hh, rfl, h⟩ | ⟨_, rfl⟩
  · refine offs_q (offs_q (offs_q fun e he => ?_))
    obtain ⟨fam, x, hx, h⟩ := h e he
    have hne : x ≠ d := by rintro rfl; exact hostsShown_host hh _ hx hd
    rcases h with h | ⟨via, h⟩
    · rw [h]; exact off_delete fun hh => hne hh.2
    · rw [h]; exact off_add fun hh => hne hh.2
  · exact offs_nil

/-! ### The routes -/

theorem step_did_add {v : Option Via} {via : Via} {e : Ev} (h : Did (addCmd f.flag d via) e) : routeStep f.flag d v e = some via := by
  obtain ⟨x, r⟩ := e
  obtain ⟨h1, h2⟩ := h
  dsimp only at h1 h2
  subst h1
  unfold routeStep
  rw [if_neg (by simp [h2]), if_neg (by simp [addCmd, deleteCmd, cmd])]
  simp [addCmd, cmd]

theorem famFlag_eq (hf : f.Has d) : famFlag d = f.flag := by rw [← famOf_flag]; exact famOf_eq hf

/-- The route to a network is right or as before. -/
def Ok (c : Cfg) (real : CStr) (d : CStr) (v v' : Option Via) (l : List Ev) : Prop := (∃ via, ViaIf c real d via ∧ v' = some via) ∨ (GoesAlready real d l ∧ v' = v)

theorem netDone_step {via : Via} {r : CStr} {l : List Ev} (hf : f.Has d) (hdot : c!"." ∉ real) (hplus : c!"+" ∉ real) (hv : ViaIf c real r via) (h : NetDone real r via l) (v : Option Via) :
    (d = r → Ok c real d v (routeAfter f.flag d v l) l) ∧ (d ≠ r → routeAfter f.flag d v l = v) := by
  obtain ⟨q, l', rfl, h1, h2⟩ := h
  have e0 : ∀ l'', routeAfter f.flag d v ((.query [b!"route", b!"-n", b!"get", famFlag r, r], q) :: l'') = routeAfter f.flag d v l'' := by
    intro l''
    show routeAfter f.flag d (routeStep f.flag d v _) l'' = _
    rw [step_off (off_query _)]
  rw [e0]
  constructor
  · rintro rfl
    rcases h1 with rfl | ⟨e, he, rfl⟩
    · exact .inr ⟨⟨q, by simp, (h2 hdot hplus).1 rfl⟩, rfl⟩
    · rw [famFlag_eq hf] at he
      exact .inl ⟨via, hv, step_did_add he⟩
  · intro hne
    rcases h1 with rfl | ⟨e, he, rfl⟩
    · rfl
    · exact after_offs (offs_one (by rw [he.1]; exact off_add fun hh => hne hh.2.symm))

theorem viaIf_same {r r' : CStr} {via : Via} (h : (c!":" ∈ r) = (c!":" ∈ r')) (hv : ViaIf c real r via) : ViaIf c real r' via := by
  unfold ViaIf at *
  rw [← h]; exact hv

theorem halves_step {via : Via} {r : CStr} {l : List Ev} (hf : f.Has d) (hv : ViaIf c real r via) (h : HalvesDone r via l) (v : Option Via) :
    ((if c!":" ∈ r then d = b!"::/1" ∨ d = b!"8000::/1" else d = b!"0.0.0.0/1" ∨ d = b!"128.0.0.0/1") → ∃ via, ViaIf c real d via ∧ routeAfter f.flag d v l = some via) ∧
    ((¬ if c!":" ∈ r then d = b!"::/1" ∨ d = b!"8000::/1" else d = b!"0.0.0.0/1" ∨ d = b!"128.0.0.0/1") → routeAfter f.flag d v l = v) := by
  obtain ⟨e1, e2, rfl, h⟩ := h
  by_cases h6 : c!":" ∈ r
  · rw [if_pos h6] at h ⊢
    obtain ⟨h1, h2⟩ := h
    constructor
    · intro hd
      refine ⟨via, viaIf_same (r := r) ?_ hv, ?_⟩
      · rcases hd with rfl | rfl <;> simp [h6]
      · have hff : f.flag = b!"-inet6" := by
          rw [← famFlag_eq hf]; rcases hd with rfl | rfl <;> rfl
        show routeStep f.flag d (routeStep f.flag d v e1) e2 = some via
        rcases hd with rfl | rfl
        · rw [step_did_add (e := e1) (by rw [hff]; exact h1)]
          have : Off f b!"::/1" e2.1 := by rw [h2.1]; exact off_add (by simp)
          exact step_off this _ e2.2
        · exact step_did_add (by rw [hff]; exact h2)
    · intro hd
      refine after_offs (offs_cons ?_ (offs_one ?_))
      · rw [h1.1]; exact off_add fun hh => hd (.inl hh.2.symm)
      · rw [h2.1]; exact off_add fun hh => hd (.inr hh.2.symm)
  · rw [if_neg h6] at h ⊢
    obtain ⟨h1, h2⟩ := h
    constructor
    · intro hd
      refine ⟨via, viaIf_same (r := r) ?_ hv, ?_⟩
      · rcases hd with rfl | rfl <;> simp [h6]
      · have hff : f.flag = b!"-inet" := by
          rw [← famFlag_eq hf]; rcases hd with rfl | rfl <;> rfl
        show routeStep f.flag d (routeStep f.flag d v e1) e2 = some via
        rcases hd with rfl | rfl
        · rw [step_did_add (e := e1) (by rw [hff]; exact h1)]
          have : Off f b!"0.0.0.0/1" e2.1 := by rw [h2.1]; exact off_add (by simp)
          exact step_off this _ e2.2
        · exact step_did_add (by rw [hff]; exact h2)
    · intro hd
      refine after_offs (offs_cons ?_ (offs_one ?_))
      · rw [h1.1]; exact off_add fun hh => hd (.inl hh.2.symm)
      · rw [h2.1]; exact off_add fun hh => hd (.inr hh.2.symm)

/-- One allowed IP. -/
theorem routeDone_step {r : CStr} {l : List Ev} (hf : f.Has d) (hdot : c!"." ∉ real) (hplus : c!"+" ∉ real) (h : RouteDone c real r l) (hd : c!"/" ∈ d) (v : Option Via) :
    (UsualTable c → (Target c r d → (∃ via, ViaIf c real d via ∧ routeAfter f.flag d v l = some via) ∨ (d = r ∧ GoesAlready real d l ∧ routeAfter f.flag d v l = v)) ∧
      (¬ Target c r d → routeAfter f.flag d v l = v)) ∧
    (¬ UsualTable c → routeAfter f.flag d v l = v) := by
  unfold RouteDone at h
  by_cases hoff : c.opts.table = b!"off"
  · rw [if_pos hoff] at h
    subst h
    have : ¬ UsualTable c := by
      unfold UsualTable AutoTable
      rw [hoff]; simp
    exact ⟨fun h => absurd h this, fun _ => rfl⟩
  rw [if_neg hoff] at h
  obtain ⟨via, hv, h⟩ := h
  have hnet : NetDone real r via l → ¬ (AutoTable c ∧ b!"/0" <:+ r) →
      (Target c r d → (∃ via, ViaIf c real d via ∧ routeAfter f.flag d v l = some via) ∨ (d = r ∧ GoesAlready real d l ∧ routeAfter f.flag d v l = v)) ∧
      (¬ Target c r d → routeAfter f.flag d v l = v) := by
    intro h hn
    have ht : Target c r d ↔ d = r := by
      unfold Target
      constructor
      · rintro (⟨a, b, _⟩ | ⟨_, h⟩)
        · exact absurd ⟨a, b⟩ hn
        · exact h
      · exact fun h => .inr ⟨hn, h⟩
    rw [ht]
    obtain ⟨g1, g2⟩ := netDone_step (f := f) hf hdot hplus hv h v
    refine ⟨fun e => ?_, g2⟩
    rcases g1 e with g | ⟨g, g'⟩
    · exact .inl g
    · exact .inr ⟨e, g, g'⟩
  by_cases hauto : c.opts.table = [] ∨ c.opts.table = b!"auto"
  · rw [if_pos hauto] at h
    refine ⟨fun _ => ?_, fun hn => absurd (.inl hauto) hn⟩
    by_cases hz : b!"/0" <:+ r
    · rw [if_pos hz] at h
      have ht : Target c r d ↔ (if c!":" ∈ r then d = b!"::/1" ∨ d = b!"8000::/1" else d = b!"0.0.0.0/1" ∨ d = b!"128.0.0.0/1") := by
        unfold Target
        constructor
        · rintro (⟨_, _, h⟩ | ⟨h, _⟩)
          · exact h
          · exact absurd ⟨hauto, hz⟩ h
        · exact fun h => .inl ⟨hauto, hz, h⟩
      rw [ht]
      obtain ⟨g1, g2⟩ := halves_step (f := f) hf hv h v
      exact ⟨fun e => .inl (g1 e), g2⟩
    · rw [if_neg hz] at h
      exact hnet h fun hh => hz hh.2
  · rw [if_neg hauto] at h
    have hna : ¬ AutoTable c := hauto
    cases hp : c.plat with
    | freebsd =>
      rw [hp] at h
      dsimp only at h
      obtain ⟨e, he, rfl⟩ := h
      refine ⟨fun hu => ?_, fun _ => after_offs (offs_one ?_)⟩
      · rcases hu with hu | hu
        · exact absurd hu hna
        · rw [hp] at hu; simp at hu
      · rw [he.1]
        refine off_words ?_ ?_
        · simp
          intro _ hh
          rw [← hh] at hd; simp at hd
        · simp
    | openbsd =>
      rw [hp] at h
      dsimp only at h
      obtain ⟨e, he, rfl⟩ := h
      refine ⟨fun hu => ?_, fun _ => after_offs (offs_one ?_)⟩
      · rcases hu with hu | hu
        · exact absurd hu hna
        · rw [hp] at hu; simp at hu
      · rw [he.1]
        exact off_words (by simp) (by simp)
    | darwin =>
      rw [hp] at h
      obtain ⟨hm, h⟩ := h
      exact ⟨fun _ => hnet h fun hh => hna hh.1, fun hn => absurd (.inr ⟨hp, hm⟩) hn⟩

/-- All of them. -/
theorem routesDone {rs : List CStr} {ls : List (List Ev)} (hf : f.Has d) (hdot : c!"." ∉ real) (hplus : c!"+" ∉ real) (h : List.Forall₂ (RouteDone c real) rs ls) (hd : c!"/" ∈ d) (v : Option Via) :
    NetRight c real rs f d v ls.flatten := by
  unfold NetRight
  induction h generalizing v with
  | nil =>
    split
    · exact ⟨by simp, fun _ => rfl⟩
    · rfl
  | @cons r l rs ls h1 h2 ih =>
    obtain ⟨g1, g2⟩ := routeDone_step hf hdot hplus h1 hd v
    rw [List.flatten_cons, after_append]
    by_cases hu : UsualTable c
    · simp only [if_pos hu] at ih ⊢
      obtain ⟨k1, k2⟩ := g1 hu
      constructor
      · rintro ⟨x, hx, ht⟩
        obtain ⟨i1, i2⟩ := ih (routeAfter f.flag d v l)
        by_cases hlater : ∃ r ∈ rs, Target c r d
        · rcases i1 hlater with i | ⟨im, ⟨q, hq, ho⟩, i⟩
          · exact .inl i
          · by_cases hr : Target c r d
            · rcases k1 hr with ⟨via, hv, k⟩ | ⟨_, _, k⟩
              · exact .inl ⟨via, hv, i.trans k⟩
              · exact .inr ⟨by simp [im], ⟨q, List.mem_append_right _ hq, ho⟩, i.trans k⟩
            · exact .inr ⟨by simp [im], ⟨q, List.mem_append_right _ hq, ho⟩, i.trans (k2 hr)⟩
        · have hr : Target c r d := by
            rcases List.mem_cons.1 hx with rfl | hx
            · exact ht
            · exact absurd ⟨x, hx, ht⟩ hlater
          rw [i2 fun r hr hh => hlater ⟨r, hr, hh⟩]
          rcases k1 hr with k | ⟨rfl, ⟨q, hq, ho⟩, k⟩
          · exact .inl k
          · exact .inr ⟨by simp, ⟨q, List.mem_append_left _ hq, ho⟩, k⟩
      · intro hn
        rw [(ih _).2 fun r hr => hn r (by simp [hr])]
        exact k2 (hn r (by simp))
    · simp only [if_neg hu] at ih ⊢
      rw [ih, g2 hu]

theorem otherTable {rs : List CStr} {ls : List (List Ev)} (h : List.Forall₂ (RouteDone c real) rs ls) : OtherTable c real rs ls.flatten := by
  intro hu hoff
  induction h with
  | nil => simp
  | @cons r l rs ls h1 h2 ih =>
    intro x hx
    rcases List.mem_cons.1 hx with rfl | hx
    · unfold RouteDone at h1
      rw [if_neg hoff] at h1
      obtain ⟨via, hv, h⟩ := h1
      rw [if_neg (show ¬ (c.opts.table = [] ∨ c.opts.table = b!"auto") from fun hh => hu (.inl hh))] at h
      refine ⟨via, hv, ?_⟩
      cases hp : c.plat with
      | freebsd =>
        rw [hp] at h
        obtain ⟨e, he, rfl⟩ := h
        exact ⟨e, by simp, he⟩
      | openbsd =>
        rw [hp] at h
        obtain ⟨e, he, rfl⟩ := h
        exact ⟨e, by simp, he⟩
      | darwin =>
        rw [hp] at h
        exact absurd (.inr ⟨hp, h.1⟩) hu
    · obtain ⟨via, hv, e, he, h⟩ := ih x hx
      exact ⟨via, hv, e, by rw [List.flatten_cons]; exact List.mem_append_right _ he, h⟩

/-- The routes after a complete `up`. -/
theorem upDone_nets {dir : CStr} {h : List Ev} (hsort : ∀ l, (c.sort l).Perm l) (hu : UpDone c dir real h) :
    ∃ q routes, (allowedOf real, q) ∈ h ∧ RoutesShown q.out routes ∧ OtherTable c real routes h ∧
      ∀ f d v, f.Has d → c!"/" ∈ d → c!"." ∉ real → c!"+" ∉ real → NetRight c real routes f d v h := by
  obtain ⟨ltemp, lcheck, ladd, lpre, conf, laddrs, lmtu, up, ldns, q, routes, lroutes, ldirect, llate, mon, lpost, e, h1, h2, h3, h4, h5, h6, h7, h8, h9, h10, ⟨ls, h11, rfl⟩, h12, h13, h14, h15⟩ := hu
  have hm : ∀ r, r ∈ c.sort routes ↔ r ∈ routes := fun r => (hsort routes).mem_iff
  refine ⟨q, routes, by rw [e]; simp, h10, ?_, ?_⟩
  · intro hu hoff r hr
    obtain ⟨via, hv, x, hx, hh⟩ := otherTable h11 hu hoff r ((hm r).2 hr)
    exact ⟨via, hv, x, by rw [e]; simp only [List.mem_append, List.mem_cons]; simp [hx], hh⟩
  · intro f d v hf hd hdot hplus
    have hN := routesDone hf hdot hplus h11 hd v
    obtain ⟨pre, post, e', hpre, hpost⟩ : ∃ pre post, h = pre ++ (ls.flatten ++ post) ∧ Offs f d pre ∧ Offs f d post := by
      refine ⟨ltemp ++ (lcheck ++ (ladd ++ (lpre ++ conf :: (laddrs ++ (lmtu ++ up :: (ldns ++ [(allowedOf real, q)])))))), ldirect ++ (llate ++ mon :: lpost), ?_, ?_, ?_⟩
      · rw [e]; simp
      · exact offs_append (offs_temp h1) <| offs_append (offs_check h2) <| offs_append (offs_add h3) <| offs_append (offs_hooks h4) <| offs_cons (offs_conf h5) <|
          offs_append (offs_addrs h6) <| offs_append (offs_mtu h7) <| offs_cons (offs_did h8 (by simp)) <| offs_append (offs_dns h9) <| offs_q offs_nil
      · exact offs_append (offs_direct hd h12) <| offs_append (offs_late h13) <| offs_cons (offs_did h14 (by simp)) (offs_hooks h15)
    have hR : routeAfter f.flag d v h = routeAfter f.flag d v ls.flatten := by
      rw [e', after_append, after_append, after_offs hpre, after_offs hpost]
    unfold NetRight at hN ⊢
    rw [hR]
    by_cases hu : UsualTable c
    · rw [if_pos hu] at hN ⊢
      refine ⟨fun ⟨r, hr, ht⟩ => ?_, fun hn => hN.2 fun r hr => hn r ((hm r).1 hr)⟩
      rcases hN.1 ⟨r, (hm r).2 hr, ht⟩ with k | ⟨k1, ⟨x, hx, ho⟩, k2⟩
      · exact .inl k
      · exact .inr ⟨(hm _).1 k1, ⟨x, by rw [e']; simp [hx], ho⟩, k2⟩
    · rw [if_neg hu] at hN ⊢
      exact hN

end WG.Bsd
