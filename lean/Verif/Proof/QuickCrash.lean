import Verif.Proof.QuickSave
/-! Crash points of saving, and `down`. -/
namespace WG.Quick
open WG.Spec.Quick

variable {α β γ : Type} {X : Call → Prop} {Z : Nat → List Ev → Prop}

/-- At every point of `l`, starting from `d`, the configuration file is in `T`. -/
def AllIn (f : List UInt8) (T : Set (List UInt8)) (d : Disk) (l : List Ev) : Prop := ∀ p, p <+: l → (p.foldl (Disk.after f) d).conf ⊆ T

variable {f : List UInt8} {T : Set (List UInt8)} {d : Disk} {l l1 l2 : List Ev} {e : Ev}

theorem allIn_nil : AllIn f T d [] ↔ d.conf ⊆ T := by
  unfold AllIn
  constructor
  · intro h; exact h [] (List.prefix_refl _)
  · intro h p hp; rw [List.prefix_nil.1 hp]; exact h

theorem allIn_cons : AllIn f T d (e :: l) ↔ d.conf ⊆ T ∧ AllIn f T (Disk.after f d e) l := by
  unfold AllIn
  constructor
  · intro h
    exact ⟨h [] (List.nil_prefix ..), fun p hp => h (e :: p) (List.cons_prefix_cons.2 ⟨rfl, hp⟩)⟩
  · rintro ⟨h1, h2⟩ p hp
    rcases p with - | ⟨x, p⟩
    · exact h1
    · obtain ⟨rfl, hp'⟩ := List.cons_prefix_cons.1 hp
      exact h2 p hp'

theorem allIn_append : AllIn f T d (l1 ++ l2) ↔ AllIn f T d l1 ∧ AllIn f T (l1.foldl (Disk.after f) d) l2 := by
  induction l1 generalizing d with
  | nil =>
    rw [List.nil_append, allIn_nil, List.foldl_nil]
    exact ⟨fun h => ⟨h [] (List.nil_prefix ..), h⟩, fun h => h.2⟩
  | cons x l1 ih => rw [List.cons_append, allIn_cons, ih, allIn_cons, List.foldl_cons, and_assoc]

/-- An event that does not concern the files. -/
def Aside (f : List UInt8) (e : Ev) : Prop := ∀ d, Disk.after f d e = d

theorem aside_query (argv : List CStr) (r : Reply) : Aside f (.query argv, r) := fun _ => rfl
theorem aside_hook (t : CStr) (r : Reply) : Aside f (.hook t, r) := fun _ => rfl
theorem aside_quiet (h : isAct e.1 = false) : Aside f e := by
  obtain ⟨c, r⟩ := e
  cases c with
  | query argv => exact aside_query _ _
  | act _ _ => simp [isAct] at h
  | hook _ => simp [isAct] at h

theorem aside_undo {c : Cfg} (h : IsUndo c e.1 ∨ e.1 = deleteAct c) : Aside f e := by
  obtain ⟨a, r⟩ := e
  intro d
  unfold IsUndo deleteAct cmd at h
  rcases h with (⟨_, rfl⟩ | ⟨_, rfl⟩ | ⟨_, rfl⟩ | ⟨_, rfl⟩ | ⟨_, _, rfl⟩ | ⟨_, rfl⟩) | rfl <;> simp [Disk.after]

theorem fold_aside (h : ∀ e ∈ l, Aside f e) : l.foldl (Disk.after f) d = d := by
  induction l with
  | nil => rfl
  | cons e l ih =>
    rw [List.foldl_cons, h e (List.mem_cons_self ..) d]
    exact ih fun x hx => h x (List.mem_cons_of_mem _ hx)

theorem allIn_aside (h : ∀ e ∈ l, Aside f e) (hd : d.conf ⊆ T) : AllIn f T d l := by
  intro p hp
  rw [fold_aside fun e he => h e (hp.subset he)]
  exact hd

theorem after_write (x : List UInt8) (r : Reply) :
    Disk.after f d (.act [b!"write", b!"077", f ++ b!".tmp"] x, r) = { d with temp := Set.univ, seen := if r.status = 0 then some x else none } := by
  simp [Disk.after]

theorem after_sync (r : Reply) (t : List UInt8) (h : d.seen = some t) :
    Disk.after f d (cmd [b!"sync", f ++ b!".tmp"], r) = if r.status = 0 then { d with temp := {t} } else d := by
  simp [Disk.after, cmd, h]

theorem after_mv (r : Reply) :
    Disk.after f d (cmd [b!"mv", f ++ b!".tmp", f], r) =
      { conf := d.conf ∪ d.temp, temp := Set.univ, seen := none, holds := if r.status = 0 then d.seen else d.holds } := by
  simp [Disk.after, cmd]

theorem after_rm (r : Reply) : Disk.after f d (cmd [b!"rm", b!"-f", f ++ b!".tmp"], r) = { d with temp := Set.univ, seen := none } := by
  simp [Disk.after, cmd]

theorem allIn_rm (h : ∀ e ∈ l, e.1 = cmd [b!"rm", b!"-f", f ++ b!".tmp"]) (hd : d.conf ⊆ T) :
    AllIn f T d l ∧ (l.foldl (Disk.after f) d).holds = d.holds := by
  induction l generalizing d with
  | nil => exact ⟨allIn_nil.2 hd, rfl⟩
  | cons e l ih =>
    have he := h e (List.mem_cons_self ..)
    obtain ⟨a, r⟩ := e
    simp only at he
    subst he
    have := ih (d := Disk.after f d (cmd [b!"rm", b!"-f", f ++ b!".tmp"], r)) (fun x hx => h x (List.mem_cons_of_mem _ hx))
      (by rw [after_rm]; exact hd)
    refine ⟨allIn_cons.2 ⟨hd, this.1⟩, ?_⟩
    rw [List.foldl_cons, this.2, after_rm]

/-- The three steps, as far as they go. -/
theorem allIn_three {x old : List UInt8} {r1 r2 r3 : Reply} (hd : d.conf ⊆ {old}) (h1 : r1.status = 0) (h2 : r2.status = 0) :
    AllIn f {old, x} d [(.act [b!"write", b!"077", f ++ b!".tmp"] x, r1), (cmd [b!"sync", f ++ b!".tmp"], r2), (cmd [b!"mv", f ++ b!".tmp", f], r3)] ∧
    ([(.act [b!"write", b!"077", f ++ b!".tmp"] x, r1), (cmd [b!"sync", f ++ b!".tmp"], r2), (cmd [b!"mv", f ++ b!".tmp", f], r3)].foldl
      (Disk.after f) d).conf ⊆ {old, x} ∧
    ([(.act [b!"write", b!"077", f ++ b!".tmp"] x, r1), (cmd [b!"sync", f ++ b!".tmp"], r2), (cmd [b!"mv", f ++ b!".tmp", f], r3)].foldl
      (Disk.after f) d).holds = if r3.status = 0 then some x else d.holds := by
  have hsub : d.conf ⊆ {old, x} := hd.trans (by intro y hy; exact .inl hy)
  have key : AllIn f {old, x} d [(.act [b!"write", b!"077", f ++ b!".tmp"] x, r1), (cmd [b!"sync", f ++ b!".tmp"], r2), (cmd [b!"mv", f ++ b!".tmp", f], r3)] := by
    rw [allIn_cons, allIn_cons, allIn_cons, allIn_nil, after_write, if_pos h1, after_sync _ x rfl, if_pos h2, after_mv]
    refine ⟨hsub, hsub, hsub, ?_⟩
    rintro y (hy | hy)
    · exact hsub hy
    · exact .inr hy
  refine ⟨key, key _ (List.prefix_refl _), ?_⟩
  rw [List.foldl_cons, List.foldl_cons, List.foldl_cons, List.foldl_nil, after_write, if_pos h1, after_sync _ x rfl, if_pos h2, after_mv]

theorem allIn_done {c : Cfg} {x old : List UInt8} {t : List Ev} (h : SaveDone c x t) (hd : d.conf ⊆ {old}) :
    AllIn c.file {old, x} d t ∧ (t.foldl (Disk.after c.file) d).holds = some x := by
  obtain ⟨r1, r2, r3, rfl, h1, _, h2, _, h3, _⟩ := h
  obtain ⟨a, _, b⟩ := allIn_three (f := c.file) (r3 := r3) (x := x) hd h1 h2
  rw [if_pos h3] at b
  exact ⟨a, b⟩

theorem allIn_stopped {c : Cfg} {x old : List UInt8} {t : List Ev} (h : SaveStopped c x t) (hd : d.conf ⊆ {old}) :
    AllIn c.file {old, x} d t ∧ ((t.foldl (Disk.after c.file) d).holds = d.holds ∨ (t.foldl (Disk.after c.file) d).holds = some x) := by
  obtain ⟨b, k, rfl, _, hk, h⟩ := h
  have hsub : d.conf ⊆ {old, x} := hd.trans (by intro y hy; exact .inl hy)
  rw [allIn_append, List.foldl_append]
  have hb : AllIn c.file {old, x} d b ∧ (b.foldl (Disk.after c.file) d).conf ⊆ {old, x} ∧
      ((b.foldl (Disk.after c.file) d).holds = d.holds ∨ (b.foldl (Disk.after c.file) d).holds = some x) := by
    rcases h with ⟨r1, rfl, _⟩ | ⟨r1, r2, rfl, h1, _, _⟩ | ⟨r1, r2, r3, rfl, h1, _, h2, _, _⟩
    · rw [allIn_cons, allIn_nil, List.foldl_cons, List.foldl_nil, after_write]
      exact ⟨⟨hsub, hsub⟩, hsub, .inl rfl⟩
    · rw [allIn_cons, allIn_cons, allIn_nil, List.foldl_cons, List.foldl_cons, List.foldl_nil, after_write, if_pos h1, after_sync _ x rfl]
      split
      · exact ⟨⟨hsub, hsub, hsub⟩, hsub, .inl rfl⟩
      · exact ⟨⟨hsub, hsub, hsub⟩, hsub, .inl rfl⟩
    · obtain ⟨a, b, c'⟩ := allIn_three (f := c.file) (r3 := r3) (x := x) hd h1 h2
      refine ⟨a, b, ?_⟩
      rw [c']
      split
      · exact .inr rfl
      · exact .inl rfl
  obtain ⟨b1, b2, b3⟩ := hb
  obtain ⟨k1, k2⟩ := allIn_rm (f := c.file) hk b2
  refine ⟨⟨b1, k1⟩, ?_⟩
  rw [k2]
  exact b3

/-- The whole of `save_config` from a disk with the old file. -/
theorem save_crash (c : Cfg) (w : World) (s : St) (old : List UInt8) (hd : d.conf ⊆ {old}) (hh : d.holds = some old) :
    ∃ l, (saveConfig c w s).2.hist = s.hist ++ l ∧ (∃ x, (x = old ∨ NewConfig c l x) ∧ AllIn c.file {old, x} d l ∧
      ((l.foldl (Disk.after c.file) d).holds = some old ∨ (l.foldl (Disk.after c.file) d).holds = some x) ∧
      ((saveConfig c w s).1 = .ok () → NewConfig c l x ∧ (l.foldl (Disk.after c.file) d).holds = some x)) := by
  obtain ⟨q, t, h1, hq, _, _, h2⟩ := save_run c w s
  have hqa : ∀ e ∈ q, Aside c.file e := fun e he => aside_quiet (hq e he)
  have mono : ∀ x, NewConfig c q x → NewConfig c (q ++ t) x := by
    rintro x ⟨a, d, m, s, as, ns, new, y, ha, hb, hd, hn, hm, hs', h⟩
    have hs : q ⊆ q ++ t := List.subset_append_left _ _
    exact ⟨a, d, m, s, as, ns, new, y, hs ha, hb, dnsShown_mono hd hs, hn, mtuShown_mono hm hs, hs hs', h⟩
  refine ⟨q ++ t, h1, ?_⟩
  have hsub : ∀ x, d.conf ⊆ {old, x} := fun x => hd.trans (by intro y hy; exact .inl hy)
  rcases h2 with ⟨x, hx, ⟨u, ho, h⟩ | ⟨n, ho, h⟩⟩ | ⟨rfl, ho⟩
  · obtain ⟨k1, k2⟩ := allIn_done h hd
    refine ⟨x, .inr (mono _ hx), ?_, ?_, ?_⟩
    · rw [allIn_append, fold_aside hqa]; exact ⟨allIn_aside hqa (hsub _), k1⟩
    · rw [List.foldl_append, fold_aside hqa]; exact .inr k2
    · rw [List.foldl_append, fold_aside hqa]; exact fun _ => ⟨mono _ hx, k2⟩
  · obtain ⟨k1, k2⟩ := allIn_stopped h hd
    rw [hh] at k2
    refine ⟨x, .inr (mono _ hx), ?_, ?_, ?_⟩
    · rw [allIn_append, fold_aside hqa]; exact ⟨allIn_aside hqa (hsub _), k1⟩
    · rw [List.foldl_append, fold_aside hqa]; exact k2
    · intro h; rw [ho] at h; cases h
  · refine ⟨old, .inl rfl, ?_, ?_, ?_⟩
    · rw [List.append_nil]; exact allIn_aside hqa (hsub _)
    · rw [List.append_nil, fold_aside hqa]; exact .inl hh
    · exact fun h => absurd h (ho ())

/-! ### `down` -/

def downRest (c : Cfg) : Sh Unit :=
  (unsetDns c false).bind fun _ => (removeFirewall c false).bind fun _ => executeHooks c c.opts.postDown

theorem does_downRest (c : Cfg) : Does (IsUndo c) Z (downRest c) (fun _ l => DownLast c l) := by
  unfold downRest
  have h3 := does_hooks (X := IsUndo c) (Z := Z) c c.opts.postDown
  have h2 := does_then (f := fun _ => _) (does_removeFirewall (X := IsUndo c) (Z := Z) c false (.inr fun _ h => h)) h3 h3.inh
  refine (does_then (f := fun _ => _) (does_unsetDns (X := IsUndo c) (Z := Z) c false (.inr fun _ h => h)) h2 h2.inh).weaken ?_
  rintro _ l ⟨l1, _, h1, ⟨l2, l3, h2, h3, rfl⟩, rfl⟩
  exact ⟨l1, l2, l3, rfl, h1, h2, h3⟩

/-- `down` past the check and the hooks. -/
def downTail (c : Cfg) : Sh Unit :=
  (if c.opts.saveConfig then saveConfig c else Sh.pure ()).bind fun _ => (delIf c).bind fun _ => downRest c

theorem cmdDown_eq (c : Cfg) : cmdDown c = (checkIface c).bind fun _ => (executeHooks c c.opts.preDown).bind fun _ => downTail c := rfl

theorem keeps_hooks (c : Cfg) (hs : List CStr) : Keeps (executeHooks c hs) := keeps_forEach (fun _ => keeps_run _ _) hs

/-- The removal and what follows, in a fresh process. -/
theorem downEnd_run (c : Cfg) (w : World) (s : St) (hs : s.haveDns = false ∧ s.haveFw = false) :
    ∃ l, ((delIf c).bind (fun _ => downRest c) w s).2.hist = s.hist ++ l ∧
      (∃ full, (∃ a b, full = a ++ b ∧ Removal c false false a ∧ DownLast c b) ∧ acts l <+: acts full) ∧
      (((delIf c).bind (fun _ => downRest c) w s).1 = .ok () → ∃ a b, l = a ++ b ∧ Removal c false false a ∧ DownLast c b ∧
        (∀ e ∈ a, e.2.sig = false ∧ (isAct e.1 = true → e.2.status = 0)) ∧
        (∀ e ∈ b, e.2.sig = false ∧ (isAct e.1 = true → e.2.status = 0 ∨ IsUndo c e.1))) := by
  have heq : (delIf c).bind (fun _ => downRest c) w s = (delWith c false false).bind (fun _ => downRest c) w s := by
    unfold Sh.bind
    rw [delIf_eq, hs.1, hs.2]
  rw [heq]
  have hd := does_delWith (X := fun _ => False) (Z := fun _ _ => False) c false false
  have hr := does_downRest (Z := fun _ _ => False) c
  obtain ⟨l1, h1, _, h2⟩ := hd w s
  unfold Sh.bind
  rcases e : delWith c false false w s with ⟨o, s1⟩
  rw [e] at h1 h2
  simp only at h1 h2
  obtain ⟨_, rw0, hrw⟩ := hr.inh
  rcases h2 with ⟨a, rfl, h3, h4⟩ | ⟨pre, suf, _, full, rest, h2, rfl, h4, h5, rfl, h7⟩
  · dsimp only
    obtain ⟨l2, g1, _, g2⟩ := hr w s1
    refine ⟨l1 ++ l2, by rw [g1, h1, List.append_assoc], ?_, ?_⟩
    · rcases g2 with ⟨b, g2, g3, g4⟩ | ⟨pre, suf, b, full, rest, g2, rfl, g4, g5, rfl, g7⟩
      · exact ⟨l1 ++ l2, ⟨_, _, rfl, h3, g3⟩, List.prefix_refl _⟩
      · refine ⟨l1 ++ (pre ++ rest), ⟨_, _, rfl, h3, g5⟩, ?_⟩
        simp only [acts_append]
        exact (List.prefix_append_right_inj _).2 ((List.prefix_append_right_inj _).2 g7)
    · intro ho
      rcases g2 with ⟨b, g2, g3, g4⟩ | ⟨pre, suf, b, full, rest, g2, rfl, g4, g5, rfl, g7⟩
      · exact ⟨l1, l2, rfl, h3, g3, fun e he => ⟨(h4 e he).1, fun ha => ((h4 e he).2 ha).resolve_right (by simp)⟩,
          fun e he => g4 e he⟩
      · rw [ho] at g2; exact g2.elim
  · refine ⟨pre ++ suf, ?_, ⟨(pre ++ rest) ++ rw0, ⟨_, _, rfl, h5, hrw⟩, ?_⟩, ?_⟩
    · cases o <;> first | exact h2.elim | exact h1
    · simp only [acts_append, List.append_assoc]
      exact (List.prefix_append_right_inj _).2 (h7.trans (List.prefix_append _ _))
    · intro ho
      cases o <;> first | exact h2.elim | (simp at ho)

/-- The hooks, with their events. -/
theorem hooks_run (c : Cfg) (hs : List CStr) (w : World) (s : St) :
    ∃ l, (executeHooks c hs w s).2 = { s with hist := s.hist ++ l } ∧ (∀ e ∈ l, ∃ t, e.1 = .hook t) ∧
      (∃ full, HookActs c hs full ∧ acts l <+: full) ∧
      ((executeHooks c hs w s).1 = .ok () → HookActs c hs (acts l) ∧ ∀ e ∈ l, e.2.status = 0 ∧ e.2.sig = false) := by
  unfold executeHooks
  induction hs generalizing s with
  | nil => exact ⟨[], by simp [forEach, Sh.pure], by simp, ⟨[], .nil, List.prefix_refl _⟩, fun _ => ⟨.nil, by simp⟩⟩
  | cons h hs ih =>
    unfold forEach
    unfold Sh.bind
    rw [run_eq]
    have hstop : ∃ full, HookActs c (h :: hs) full ∧ acts [((.hook (substI c.iface h) : Call), w s.hist (.hook (substI c.iface h)))] <+: full := by
      obtain ⟨l, hl⟩ := hooks_inh c hs
      exact ⟨.hook (substI c.iface h) :: acts l, .cons ⟨_, rfl, substI_spec _ _⟩ hl, ⟨acts l, rfl⟩⟩
    by_cases h1 : (w s.hist (.hook (substI c.iface h))).sig = true
    · rw [if_pos h1]
      exact ⟨_, rfl, by simp, hstop, by simp⟩
    rw [if_neg h1]
    by_cases h2 : (w s.hist (.hook (substI c.iface h))).status ≠ 0
    · rw [if_pos ⟨rfl, h2⟩]
      exact ⟨_, rfl, by simp, hstop, by simp⟩
    rw [if_neg (by simpa using h2)]
    dsimp only
    obtain ⟨l, g1, g2, ⟨full, g3, g3'⟩, g4⟩ := ih { s with hist := s.hist ++ [(.hook (substI c.iface h), w s.hist (.hook (substI c.iface h)))] }
    refine ⟨(.hook (substI c.iface h), w s.hist (.hook (substI c.iface h))) :: l, by rw [g1]; simp, ?_, ?_, ?_⟩
    · intro e he
      rcases List.mem_cons.1 he with rfl | he
      · exact ⟨_, rfl⟩
      · exact g2 e he
    · refine ⟨.hook (substI c.iface h) :: full, .cons ⟨_, rfl, substI_spec _ _⟩ g3, ?_⟩
      rw [acts_cons]
      exact List.cons_prefix_cons.2 ⟨rfl, g3'⟩
    · intro ho
      obtain ⟨k1, k2⟩ := g4 ho
      refine ⟨?_, ?_⟩
      · rw [acts_cons]; exact .cons ⟨_, rfl, substI_spec _ _⟩ k1
      · intro e he
        rcases List.mem_cons.1 he with rfl | he
        · exact ⟨not_not.1 h2, by simpa using h1⟩
        · exact k2 e he

/-- `down` past the check: how far it got. -/
theorem down_run (c : Cfg) (w : World) (s : St) (hs : s.haveDns = false ∧ s.haveFw = false) :
    let m := (executeHooks c c.opts.preDown).bind (fun _ => downTail c) w s
    ∃ l, m.2.hist = s.hist ++ l ∧
      ((-- stopped in the hooks
        (∀ e ∈ l, ∃ t, e.1 = .hook t) ∧ (∃ full, HookActs c c.opts.preDown full ∧ acts l <+: full) ∧ (∀ u, m.1 ≠ .ok u)) ∨
       (-- stopped while saving
        c.opts.saveConfig = true ∧ (∀ u, m.1 ≠ .ok u) ∧ ∃ a q t, l = a ++ (q ++ t) ∧ HookActs c c.opts.preDown (acts a) ∧ (∀ e ∈ a, ∃ t, e.1 = .hook t) ∧
          (∀ e ∈ q, isAct e.1 = false) ∧ (t = [] ∨ ∃ x, NewConfig c q x ∧ SaveStopped c x t)) ∨
       (∃ a b, l = a ++ b ∧ DownFirst c a ∧ (∃ full, (∃ a b, full = a ++ b ∧ Removal c false false a ∧ DownLast c b) ∧ acts b <+: acts full) ∧
          (m.1 = .ok () → ∃ a' b', b = a' ++ b' ∧ Removal c false false a' ∧ DownLast c b' ∧
            (∀ e ∈ a', e.2.sig = false ∧ (isAct e.1 = true → e.2.status = 0)) ∧
            (∀ e ∈ b', e.2.sig = false ∧ (isAct e.1 = true → e.2.status = 0 ∨ IsUndo c e.1))))) := by
  intro m
  obtain ⟨la, h1, h2, h3, h4⟩ := hooks_run c c.opts.preDown w s
  have hm : m = (executeHooks c c.opts.preDown).bind (fun _ => downTail c) w s := rfl
  unfold Sh.bind at hm
  rcases e : executeHooks c c.opts.preDown w s with ⟨o, s1⟩
  rw [e] at h1 h4 hm
  simp only at h1 h4 hm
  cases o with
  | exit n => refine ⟨la, by rw [hm, h1], .inl ⟨h2, h3, by rw [hm]; simp⟩⟩
  | signal n => refine ⟨la, by rw [hm, h1], .inl ⟨h2, h3, by rw [hm]; simp⟩⟩
  | running => refine ⟨la, by rw [hm, h1], .inl ⟨h2, h3, by rw [hm]; simp⟩⟩
  | ok u =>
    change m = downTail c w s1 at hm
    obtain ⟨k1, k2⟩ := h4 rfl
    have hflags : s1.haveDns = false ∧ s1.haveFw = false := by rw [h1]; exact hs
    have hist1 : s1.hist = s.hist ++ la := by rw [h1]
    by_cases hsave : c.opts.saveConfig = true
    · obtain ⟨q, t, g1, gq, gd, gf, g2⟩ := save_run c w s1
      unfold downTail at hm
      rw [if_pos hsave] at hm
      unfold Sh.bind at hm
      rcases e2 : saveConfig c w s1 with ⟨o2, s2⟩
      rw [e2] at g1 g2 gd gf hm
      simp only at g1 g2 gd gf hm
      have hstop : (∀ u, m.1 ≠ .ok u) → m.2 = s2 → (∀ u, o2 ≠ .ok u) → ∃ l, m.2.hist = s.hist ++ l ∧ (∃ a q t, l = a ++ (q ++ t) ∧ HookActs c c.opts.preDown (acts a) ∧
          (∀ e ∈ a, ∃ t, e.1 = .hook t) ∧ (∀ e ∈ q, isAct e.1 = false) ∧ (t = [] ∨ ∃ x, NewConfig c q x ∧ SaveStopped c x t)) := by
        intro _ hm2 ho2
        refine ⟨la ++ (q ++ t), by rw [hm2, g1, hist1, List.append_assoc], la, q, t, rfl, k1, h2, gq, ?_⟩
        rcases g2 with ⟨x, hx, ⟨u, ho, h⟩ | ⟨n, ho, h⟩⟩ | ⟨rfl, ho⟩
        · exact absurd ho (ho2 u)
        · exact .inr ⟨x, hx, h⟩
        · exact .inl rfl
      cases o2 with
      | exit n =>
        simp only at hm
        obtain ⟨l, a1, a2⟩ := hstop (by rw [hm]; simp) (by rw [hm]) (by simp)
        exact ⟨l, a1, .inr (.inl ⟨hsave, by rw [hm]; simp, a2⟩)⟩
      | signal n =>
        simp only at hm
        obtain ⟨l, a1, a2⟩ := hstop (by rw [hm]; simp) (by rw [hm]) (by simp)
        exact ⟨l, a1, .inr (.inl ⟨hsave, by rw [hm]; simp, a2⟩)⟩
      | running =>
        simp only at hm
        obtain ⟨l, a1, a2⟩ := hstop (by rw [hm]; simp) (by rw [hm]) (by simp)
        exact ⟨l, a1, .inr (.inl ⟨hsave, by rw [hm]; simp, a2⟩)⟩
      | ok u2 =>
        change m = (delIf c).bind (fun _ => downRest c) w s2 at hm
        obtain ⟨l, e1, e2, e3⟩ := downEnd_run c w s2 ⟨gd.trans hflags.1, gf.trans hflags.2⟩
        rw [← hm] at e1 e3
        refine ⟨(la ++ (q ++ t)) ++ l, ?_, .inr (.inr ⟨la ++ (q ++ t), l, rfl, ?_, e2, e3⟩)⟩
        · rw [e1, g1, hist1]; simp
        · refine ⟨la, q ++ t, rfl, k1, k2, ?_⟩
          rw [if_pos hsave]
          rcases g2 with ⟨x, hx, ⟨u, ho, h⟩ | ⟨n, ho, h⟩⟩ | ⟨rfl, ho⟩
          · exact ⟨q, t, x, rfl, gq, hx, h⟩
          · cases ho
          · exact absurd rfl (ho u2)
    · unfold downTail at hm
      rw [if_neg hsave, pure_bind] at hm
      obtain ⟨l, e1, e2, e3⟩ := downEnd_run c w s1 hflags
      rw [← hm] at e1 e3
      refine ⟨la ++ l, ?_, .inr (.inr ⟨la, l, rfl, ?_, e2, e3⟩)⟩
      · rw [e1, hist1, List.append_assoc]
      · refine ⟨la, [], by simp, k1, k2, ?_⟩
        rw [if_neg hsave]

end WG.Quick
