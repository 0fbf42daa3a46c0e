import Verif.Proof.BsdDownTop
import Verif.Proof.QuickCrash
/-! The configuration file during `save` and `down` on the BSDs. -/
namespace WG.Bsd
open WG.Quick (Call Reply Ev World Out calm Aside AllIn allIn_nil allIn_cons allIn_append fold_aside allIn_aside after_write after_sync after_mv after_rm allIn_three aside_query aside_hook)
open WG.Spec WG.Spec.Quick WG.Spec.Bsd

variable {c : Cfg} {f : List UInt8}

theorem aside_cmd {argv : List CStr} {r : Reply} (h : argv ≠ [b!"sync", f ++ b!".tmp"] ∧ argv ≠ [b!"mv", f ++ b!".tmp", f] ∧ argv ≠ [b!"rm", b!"-f", f ++ b!".tmp"] ∧ argv ≠ [b!"write", b!"077", f ++ b!".tmp"]) :
    Aside f (cmd argv, r) := by
  intro d
  unfold Disk.after cmd
  simp [h.1, h.2.1, h.2.2.1, h.2.2.2]

theorem tmp_last (x y : List UInt8) (a : UInt8) (ha : a ≠ 112) : x ++ b!".tmp" ≠ y ++ [a] := by
  intro h
  have := congrArg List.getLast? h
  simp at this
  exact ha this.symm

theorem query_aside {e : Ev} (h : ∃ q, e.1 = .query q) : Aside f e := by
  obtain ⟨k, r⟩ := e
  obtain ⟨q, rfl⟩ := h
  exact aside_query q r

theorem hook_aside {e : Ev} (h : ∃ t, e.1 = .hook t) : Aside f e := by
  obtain ⟨k, r⟩ := e
  obtain ⟨q, rfl⟩ := h
  exact aside_hook q r

theorem sock_ne (x f : List UInt8) : sockOf x ≠ f ++ b!".tmp" := by
  intro h
  unfold sockOf at h
  refine tmp_last f (b!"/var/run/wireguard/" ++ x ++ b!".soc") 107 (by decide) ?_
  rw [← h]; simp

theorem name_ne (f : List UInt8) : nameFileOf c ≠ f ++ b!".tmp" := by
  intro h
  unfold nameFileOf at h
  refine tmp_last f (b!"/var/run/wireguard/" ++ c.iface ++ b!".nam") 101 (by decide) ?_
  rw [← h]; simp

theorem remove_aside {real : CStr} {e : Ev} (h : RemoveAct c real e.1) : Aside f e := by
  obtain ⟨k, r⟩ := e
  rcases h with h | h
  · exact query_aside h
  · simp only at h
    cases hp : c.plat <;> rw [hp] at h <;> simp only at h
    · rcases h with rfl | rfl | rfl
      · exact aside_cmd (by simp)
      · refine aside_cmd ?_
        have := sock_ne c.iface f
        simp [this]
      · exact aside_cmd (by simp)
    · rcases h with rfl | rfl | rfl
      · refine aside_cmd ?_
        split <;> simp
      · refine aside_cmd ?_
        refine ⟨by simp, ?_, by simp, by simp⟩
        intro hh
        simp only [List.cons.injEq, and_true, true_and] at hh
        obtain ⟨h1, h2⟩ := hh
        rw [← h2] at h1
        unfold backupOf at h1
        simp at h1
      · refine aside_cmd ?_
        simp
    · rcases h with rfl | rfl
      · refine aside_cmd ?_
        have := sock_ne real f
        simp [this]
      · refine aside_cmd ?_
        have := name_ne (c := c) f
        simp [this]

theorem rmrf_aside {d : CStr} {r : Reply} : Aside f (cmd [b!"rm", b!"-rf", d], r) := aside_cmd (by simp)
theorem mktemp_aside {r : Reply} : Aside f (cmd [b!"mktemp", b!"-d"], r) := aside_cmd (by simp)

theorem tempStep_aside {dir : CStr} {l : List Ev} (h : TempStep c dir l) : ∀ v ∈ l, Aside f v := by
  intro v hv
  unfold TempStep at h
  split at h
  · obtain ⟨r, t, _, _, rfl⟩ := h
    simp only [List.mem_cons, List.not_mem_nil, or_false] at hv
    rcases hv with rfl | rfl
    · exact mktemp_aside
    · exact aside_query _ _
  · subst h; cases hv

theorem found_queries {real : CStr} {l : List Ev} (h : FoundStep c real l) : ∀ v ∈ l, ∃ q, v.1 = .query q := by
  intro v hv
  unfold FoundStep at h
  cases hp : c.plat <;> rw [hp] at h <;> simp only at h
  · obtain ⟨_, r, _, rfl⟩ := h
    rw [List.mem_singleton.1 hv]; exact ⟨_, rfl⟩
  · obtain ⟨r, _, _, _, rfl⟩ := h
    rw [List.mem_singleton.1 hv]; exact ⟨_, rfl⟩
  · obtain ⟨l', r, h1, _, rfl⟩ := h
    rcases List.mem_append.1 hv with hv | hv
    · exact nameLookup_queries h1 v hv
    · rw [List.mem_singleton.1 hv]; exact ⟨_, rfl⟩

theorem missing_queries {l : List Ev} (h : MissingStep c l) : ∀ v ∈ l, ∃ q, v.1 = .query q := by
  intro v hv
  unfold MissingStep at h
  cases hp : c.plat <;> rw [hp] at h <;> simp only at h
  · obtain ⟨r, _, rfl⟩ := h
    rw [List.mem_singleton.1 hv]; exact ⟨_, rfl⟩
  · obtain ⟨r, _, _, _, rfl⟩ := h
    rw [List.mem_singleton.1 hv]; exact ⟨_, rfl⟩
  · rcases h with h1 | ⟨l', r, n, h1, _, rfl⟩
    · exact nameLookup_queries h1 v hv
    · rcases List.mem_append.1 hv with hv | hv
      · exact nameLookup_queries h1 v hv
      · rw [List.mem_singleton.1 hv]; exact ⟨_, rfl⟩

theorem cleaned_aside {dir : CStr} {k : Nat} {e : End} {l : List Ev} (h : Cleaned c dir k e l) : ∀ v ∈ l, Aside f v := by
  intro v hv
  obtain ⟨_, d, hd⟩ := (Cleaned.acts h).1 v hv
  obtain ⟨k, r⟩ := v
  simp only at hd
  subst hd
  exact rmrf_aside

theorem tempTry_aside {dir : CStr} {l : List Ev} (h : TempTry c dir l) : ∀ v ∈ l, Aside f v := by
  intro v hv
  unfold TempTry TempRemoved TempLeft at h
  rcases h with h | ⟨_, ⟨_, rfl⟩ | ⟨r, _, rfl⟩⟩
  · split at h
    · obtain ⟨_, ⟨k, r⟩, he, rfl⟩ := h
      rw [List.mem_singleton.1 hv]
      obtain ⟨rfl, _⟩ := he
      exact rmrf_aside
    · subst h; cases hv
  · cases hv
  · rw [List.mem_singleton.1 hv]; exact rmrf_aside

/-- Not touching the file, or removing the temporary one. -/
def Tail (c : Cfg) (v : Ev) : Prop := Aside c.file v ∨ v.1 = cmd [b!"rm", b!"-f", c.file ++ b!".tmp"]

theorem fileTry_late {dir : CStr} {l : List Ev} (h : FileTry c dir l) : ∀ v ∈ l, Tail c v := by
  intro v hv
  obtain ⟨r, l', rfl, h⟩ := h
  rcases List.mem_cons.1 hv with rfl | hv
  · exact .inr rfl
  · split at h
    · exact .inl (tempTry_aside h v hv)
    · subst h; cases hv

theorem stops_mem {P : List Ev → Prop} {Q : Ev → Prop} {e : End} {l last : List Ev} (hP : ∀ l, P l → ∀ v ∈ l, Q v) (h : Stops P e l last) : ∀ v ∈ last, Q v := by
  intro v hv
  rcases h with ⟨_, h⟩ | ⟨_, _, l1, l2, rfl, h1, h2⟩
  · exact hP _ h v hv
  · rcases List.mem_append.1 hv with hv | hv
    · exact hP _ h1 v hv
    · exact hP _ h2 v hv

theorem hooksDone_hooks {real : CStr} {hooks : List CStr} {l : List Ev} (h : HooksDone c real hooks l) : ∀ v ∈ l, ∃ t, v.1 = .hook t := by
  unfold HooksDone at h
  induction h with
  | nil => simp
  | cons h _ ih =>
    intro v hv
    rcases List.mem_cons.1 hv with rfl | hv
    · obtain ⟨t, _, ht⟩ := h
      exact ⟨t, ht.1⟩
    · exact ih v hv

theorem hooksBroke_hooks {real : CStr} {hooks : List CStr} {l : List Ev} (h : HooksBroke c real hooks l) : ∀ v ∈ l, ∃ t, v.1 = .hook t := by
  obtain ⟨done, y, rest, l', t, r, _, h1, _, _, rfl⟩ := h
  intro v hv
  rcases List.mem_append.1 hv with hv | hv
  · exact hooksDone_hooks h1 v hv
  · rw [List.mem_singleton.1 hv]; exact ⟨_, rfl⟩

theorem resolv_remove {real : CStr} {l : List Ev} (hp : c.plat = .openbsd) (h : ResolvRestored c real l) : ∀ v ∈ l, RemoveAct c real v.1 := by
  obtain ⟨t, l', rfl, ⟨_, rfl⟩ | ⟨_, n, m, h1, h2, rfl⟩⟩ := h
  · intro v hv; rw [List.mem_singleton.1 hv]; exact .inl ⟨_, rfl⟩
  · intro v hv
    simp only [List.mem_cons, List.not_mem_nil, or_false] at hv
    unfold RemoveAct
    rw [hp]
    rcases hv with rfl | rfl | rfl
    · exact .inl ⟨_, rfl⟩
    · exact .inr (.inl h1.1)
    · exact .inr (.inr (.inl h2.1))

theorem gone_queries {l : List Ev} (h : WaitedGone c l) : ∀ v ∈ l, ∃ q, v.1 = .query q := by
  induction h with
  | gone _ => intro v hv; rw [List.mem_singleton.1 hv]; exact ⟨_, rfl⟩
  | wait _ he _ ih =>
    intro v hv
    simp only [List.mem_cons] at hv
    rcases hv with rfl | rfl | hv
    · exact ⟨_, rfl⟩
    · exact ⟨_, he.1⟩
    · exact ih v hv

theorem removed_acts {real : CStr} {l : List Ev} (h : IfRemoved c real false l) : ∀ v ∈ l, RemoveAct c real v.1 := by
  unfold IfRemoved at h
  cases hp : c.plat <;> rw [hp] at h <;> simp only at h
  · obtain ⟨l1, t, d, l2, rfl, h1, h2, h3⟩ := h
    simp only [Bool.false_eq_true, false_and, if_false] at h1
    subst h1
    intro v hv
    simp only [List.nil_append, List.mem_cons] at hv
    rcases hv with rfl | rfl | hv
    · exact .inl ⟨_, rfl⟩
    · unfold RemoveAct
      rw [hp]
      split at h2
      · exact .inr (.inr (.inl h2.1))
      · exact .inr (.inr (.inr h2.1))
    · exact .inl (gone_queries h3 v hv)
  · obtain ⟨_, l1, d, h1, h2, rfl⟩ := h
    intro v hv
    rcases List.mem_append.1 hv with hv | hv
    · exact resolv_remove hp h1 v hv
    · rw [List.mem_singleton.1 hv]
      unfold RemoveAct
      rw [hp]
      exact .inr (.inr (.inr h2.1))
  · obtain ⟨l1, n, h1, h2, rfl⟩ := h
    intro v hv
    unfold RemoveAct
    rw [hp]
    rcases List.mem_append.1 hv with hv | hv
    · split at h1
      · subst h1; cases hv
      · obtain ⟨e, he, rfl⟩ := h1
        rw [List.mem_singleton.1 hv]; exact .inr (.inl he.1)
    · rw [List.mem_singleton.1 hv]; exact .inr (.inr h2.1)

theorem dnsUndone_acts {real : CStr} {l : List Ev} (h : DnsUndone c real l) : ∀ v ∈ l, RemoveAct c real v.1 := by
  unfold DnsUndone at h
  cases hp : c.plat <;> rw [hp] at h <;> simp only at h
  · intro v hv
    split at h
    · obtain ⟨e, he, rfl⟩ := h
      rw [List.mem_singleton.1 hv]
      unfold RemoveAct
      rw [hp]
      exact .inr (.inl he.1)
    · subst h; cases hv
  · exact resolv_remove hp h
  · subst h; simp

/-! ### The shape -/

/-- Nothing that touches the file, then perhaps writing a new configuration, then at most the temporary file is removed. `ok`: the file was written. -/
def Shape (c : Cfg) (ok : Prop) (h : List Ev) : Prop :=
  ∃ A t B, h = A ++ (t ++ B) ∧ (∀ v ∈ A, Aside c.file v) ∧ (∀ v ∈ B, Tail c v) ∧
    ((t = [] ∧ ¬ ok) ∨ ∃ x, NewConfigBsd c h x ∧ ((SaveWrote c x t ∧ ok ∧ ∀ v ∈ B, Aside c.file v) ∨ (SaveBroke c x t ∧ ¬ ok)))

variable {old : List UInt8} {d : Disk} {T : Set (List UInt8)}

theorem allIn_late {l : List Ev} (h : ∀ v ∈ l, Tail c v) (hd : d.conf ⊆ T) : AllIn c.file T d l ∧ (l.foldl (Disk.after c.file) d).holds = d.holds := by
  induction l generalizing d with
  | nil => exact ⟨allIn_nil.2 hd, rfl⟩
  | cons e l ih =>
    rw [allIn_cons, List.foldl_cons]
    have h2 : (Disk.after c.file d e).conf = d.conf ∧ (Disk.after c.file d e).holds = d.holds := by
      rcases h e (List.mem_cons_self ..) with h | h
      · rw [h]; exact ⟨rfl, rfl⟩
      · obtain ⟨k, r⟩ := e
        simp only at h
        subst h
        rw [after_rm]; exact ⟨rfl, rfl⟩
    obtain ⟨g1, g2⟩ := ih (d := Disk.after c.file d e) (fun v hv => h v (List.mem_cons_of_mem _ hv)) (by rw [h2.1]; exact hd)
    exact ⟨⟨hd, g1⟩, g2.trans h2.2⟩

theorem shape_crash {ok : Prop} {h : List Ev} (hs : Shape c ok h) (old : List UInt8) :
    (∀ p, p <+: h → ∀ x ∈ (diskAfter c.file old p).conf, x = old ∨ NewConfigBsd c h x) ∧
    (ok → ∃ x, NewConfigBsd c h x ∧ (diskAfter c.file old h).holds = some x) ∧
    (∃ x, (x = old ∨ NewConfigBsd c h x) ∧ (diskAfter c.file old h).holds = some x) := by
  obtain ⟨A, t, B, hh, hA, hB, ht⟩ := hs
  have key : ∀ {x : List UInt8} {d0 : Disk} (hd0 : d0 = { conf := {old}, temp := Set.univ, seen := none, holds := some old }),
      (SaveWrote c x t → AllIn c.file {old, x} d0 t ∧ (t.foldl (Disk.after c.file) d0).holds = some x) ∧
      (SaveBroke c x t → AllIn c.file {old, x} d0 t ∧ ((t.foldl (Disk.after c.file) d0).holds = some old ∨ (t.foldl (Disk.after c.file) d0).holds = some x)) := by
    intro x d0 hd0
    have hd : d0.conf ⊆ {old} := by rw [hd0]
    have hsub : d0.conf ⊆ {old, x} := hd.trans (by intro y hy; exact .inl hy)
    have hold : d0.holds = some old := by rw [hd0]
    constructor
    · rintro ⟨⟨k1, r1⟩, ⟨k2, r2⟩, ⟨k3, r3⟩, rfl, ⟨h1, s1⟩, ⟨h2, s2⟩, ⟨h3, s3⟩⟩
      simp only at h1 h2 h3 s1 s2 s3
      subst h1 h2 h3
      obtain ⟨a, _, b⟩ := allIn_three (f := c.file) (r3 := r3) (x := x) hd s1 s2
      rw [if_pos s3] at b
      exact ⟨a, b⟩
    · rintro (⟨r1, rfl, _⟩ | ⟨⟨k1, r1⟩, r2, rfl, ⟨h1, s1⟩, _⟩ | ⟨⟨k1, r1⟩, ⟨k2, r2⟩, r3, rfl, ⟨h1, s1⟩, ⟨h2, s2⟩, _⟩)
      · unfold writeCmd tempOf
        rw [allIn_cons, allIn_nil, List.foldl_cons, List.foldl_nil, after_write]
        exact ⟨⟨hsub, hsub⟩, .inl hold⟩
      · simp only at h1 s1
        subst h1
        unfold writeCmd syncCmd tempOf
        rw [allIn_cons, allIn_cons, allIn_nil, List.foldl_cons, List.foldl_cons, List.foldl_nil, after_write, if_pos s1, after_sync _ x rfl]
        split
        · exact ⟨⟨hsub, hsub, hsub⟩, .inl hold⟩
        · exact ⟨⟨hsub, hsub, hsub⟩, .inl hold⟩
      · simp only at h1 s1 h2 s2
        subst h1 h2
        obtain ⟨a, _, b⟩ := allIn_three (f := c.file) (r3 := r3) (x := x) hd s1 s2
        refine ⟨a, ?_⟩
        unfold writeCmd syncCmd renameCmd tempOf
        rw [b]
        split
        · exact .inr rfl
        · exact .inl hold
  unfold diskAfter
  generalize hd0 : ({ conf := {old}, temp := Set.univ, seen := none, holds := some old } : Disk) = d0
  have hconf : ∀ x : List UInt8, d0.conf ⊆ {old, x} := by intro x; rw [← hd0]; intro y hy; exact .inl hy
  have hold : d0.holds = some old := by rw [← hd0]
  have all : ∀ {x : List UInt8} {T : Set (List UInt8)}, AllIn c.file T d0 t → d0.conf ⊆ T → AllIn c.file T d0 h := by
    intro x T h1 h2
    rw [hh, allIn_append, allIn_append, fold_aside hA]
    exact ⟨allIn_aside hA h2, h1, (allIn_late hB (h1 _ (List.prefix_refl _))).1⟩
  have hfold : (h.foldl (Disk.after c.file) d0).holds = (t.foldl (Disk.after c.file) d0).holds := by
    rw [hh, List.foldl_append, List.foldl_append, fold_aside hA]
    exact (allIn_late (T := Set.univ) hB (fun _ _ => trivial)).2
  rcases ht with ⟨rfl, hok⟩ | ⟨x, hx, hw⟩
  · refine ⟨fun p hp x hx => ?_, fun h => absurd h hok, old, .inl rfl, by rw [hfold]; exact hold⟩
    have := all (x := old) (T := {old, old}) (allIn_nil.2 (hconf old)) (hconf old) p hp hx
    rcases this with h | h <;> exact .inl h
  · obtain ⟨k1, k2⟩ := key (x := x) hd0.symm
    have hall : AllIn c.file {old, x} d0 t := by
      rcases hw with ⟨hw, _⟩ | ⟨hw, _⟩
      · exact (k1 hw).1
      · exact (k2 hw).1
    refine ⟨fun p hp y hy => ?_, fun hok => ?_, ?_⟩
    · rcases all (x := x) hall (hconf x) p hp hy with h | h
      · exact .inl h
      · rw [show y = x from h]; exact .inr hx
    · rcases hw with ⟨hw, _⟩ | ⟨_, hn⟩
      · exact ⟨x, hx, by rw [hfold]; exact (k1 hw).2⟩
      · exact absurd hok hn
    · rcases hw with ⟨hw, _⟩ | ⟨hw, _⟩
      · exact ⟨x, .inr hx, by rw [hfold]; exact (k1 hw).2⟩
      · rcases (k2 hw).2 with h | h
        · exact ⟨old, .inl rfl, by rw [hfold]; exact h⟩
        · exact ⟨x, .inr hx, by rw [hfold]; exact h⟩

theorem shape_none {h : List Ev} {ok : Prop} (hn : ¬ ok) (ha : ∀ v ∈ h, Aside c.file v) : Shape c ok h := ⟨h, [], [], by simp, ha, by simp, .inl ⟨rfl, hn⟩⟩

theorem refused_shape {e : End} {h : List Ev} {ok : Prop} (hn : ¬ ok) (hr : Refused c e h) : Shape c ok h := by
  obtain ⟨dir, lt, lm, l, rfl, h1, h2, h3⟩ := hr
  refine shape_none hn fun v hv => ?_
  simp only [List.mem_append] at hv
  rcases hv with hv | hv | hv
  · exact tempStep_aside h1 v hv
  · exact query_aside (missing_queries h2 v hv)
  · exact cleaned_aside h3 v hv

theorem nothing_shape {e : End} {h : List Ev} {ok : Prop} (hn : ¬ ok) (hr : UpNothing c e h) : Shape c ok h := by
  refine shape_none hn fun v hv => ?_
  obtain ⟨k, r⟩ := v
  rcases hr.1 _ hv with h | ⟨_, h | ⟨d, h⟩⟩
  · exact query_aside h
  · simp only at h; subst h; exact mktemp_aside
  · simp only at h; subst h; exact rmrf_aside

theorem failed_parts {real dir : CStr} {e : End} {l last : List Ev} (h : SaveFailed c real dir e l last) :
    ((∀ v ∈ l, Aside c.file v) ∧ ∀ v ∈ last, Aside c.file v) ∨ ∃ x q t, l = q ++ t ∧ SaveLook c real x q ∧ SaveBroke c x t ∧ ∀ v ∈ last, Tail c v := by
  rcases h with ⟨h1, h2⟩ | ⟨x, q, t, h1, h2, h3, h4⟩
  · exact .inl ⟨fun v hv => query_aside (h1 v hv), stops_mem (fun _ => tempTry_aside) h2⟩
  · exact .inr ⟨x, q, t, h1, h2, h3, stops_mem (fun _ => fileTry_late) h4⟩

theorem look_aside {real x : CStr} {l : List Ev} (h : SaveLook c real x l) : ∀ v ∈ l, Aside c.file v := fun v hv => query_aside (look_queries h v hv)

theorem save_shape {w : World} {e : End} {s : St} (h : script c (cmdSave c) w = (e, s)) : Shape c (SaveSucceeded c e s.hist) s.hist ∨
    (¬ SaveSucceeded c e s.hist ∧ Shape c False s.hist) := by
  by_cases hs : SaveSucceeded c e s.hist
  · left
    obtain ⟨dir, real, x, lt, lf, q, t, l, hh, h1, h2, h3, h4, h5⟩ := id hs
    refine ⟨lt ++ (lf ++ q), t, l, by rw [hh]; simp, fun v hv => ?_, fun v hv => .inl (cleaned_aside h5 v hv), .inr ⟨x, ?_, .inl ⟨h4, hs, cleaned_aside h5⟩⟩⟩
    · simp only [List.mem_append] at hv
      rcases hv with hv | hv | hv
      · exact tempStep_aside h1 v hv
      · exact query_aside (found_queries h2 v hv)
      · exact look_aside h3 v hv
    · exact ⟨real, lt, lf, [], q, t ++ l, by rw [hh]; simp, h2, h3⟩
  · refine .inr ⟨hs, ?_⟩
    rcases save_ends h with h | h | h | ⟨dir, real, lt, lf, l, last, hh, h1, h2, h3⟩
    · exact absurd h hs
    · exact refused_shape id h
    · exact nothing_shape id h
    · rcases failed_parts h3 with ⟨g1, g2⟩ | ⟨x, q, t, rfl, g1, g2, g3⟩
      · refine shape_none id fun v hv => ?_
        rw [hh] at hv
        simp only [List.mem_append] at hv
        rcases hv with hv | hv | hv | hv
        · exact tempStep_aside h1 v hv
        · exact query_aside (found_queries h2 v hv)
        · exact g1 v hv
        · exact g2 v hv
      · refine ⟨lt ++ (lf ++ q), t, last, by rw [hh]; simp, fun v hv => ?_, g3, .inr ⟨x, ?_, .inr ⟨g2, id⟩⟩⟩
        · simp only [List.mem_append] at hv
          rcases hv with hv | hv | hv
          · exact tempStep_aside h1 v hv
          · exact query_aside (found_queries h2 v hv)
          · exact look_aside g1 v hv
        · exact ⟨real, lt, lf, [], q, t ++ last, by rw [hh]; simp, h2, g1⟩

/-- A `down` that got through saving. -/
theorem saved_shape {dir real : CStr} {lt lf l1 l2 rest h : List Ev} (hh : h = lt ++ (lf ++ (l1 ++ (l2 ++ rest)))) (h1 : TempStep c dir lt) (h2 : FoundStep c real lf)
    (h3 : ∀ v ∈ l1, ∃ t, v.1 = .hook t) (h4 : SavedIf c real l2) (h5 : ∀ v ∈ rest, Aside c.file v) : Shape c (c.opts.saveConfig = true) h := by
  have pre : ∀ v ∈ lt ++ (lf ++ l1), Aside c.file v := by
    intro v hv
    simp only [List.mem_append] at hv
    rcases hv with hv | hv | hv
    · exact tempStep_aside h1 v hv
    · exact query_aside (found_queries h2 v hv)
    · exact hook_aside (h3 v hv)
  unfold SavedIf at h4
  by_cases hs : c.opts.saveConfig = true
  · rw [if_pos hs] at h4
    obtain ⟨x, q, t, rfl, h6, h7⟩ := h4
    refine ⟨lt ++ (lf ++ (l1 ++ q)), t, rest, by rw [hh]; simp, fun v hv => ?_, fun v hv => .inl (h5 v hv), .inr ⟨x, ?_, .inl ⟨h7, hs, h5⟩⟩⟩
    · rw [show lt ++ (lf ++ (l1 ++ q)) = (lt ++ (lf ++ l1)) ++ q by simp] at hv
      rcases List.mem_append.1 hv with hv | hv
      · exact pre v hv
      · exact look_aside h6 v hv
    · exact ⟨real, lt, lf, l1, q, t ++ rest, by rw [hh]; simp, h2, h6⟩
  · rw [if_neg hs] at h4
    subst h4
    refine shape_none hs fun v hv => ?_
    rw [hh, show lt ++ (lf ++ (l1 ++ ([] ++ rest))) = (lt ++ (lf ++ l1)) ++ rest by simp] at hv
    rcases List.mem_append.1 hv with hv | hv
    · exact pre v hv
    · exact h5 v hv

theorem aside_append {a b : List Ev} (ha : ∀ v ∈ a, Aside f v) (hb : ∀ v ∈ b, Aside f v) : ∀ v ∈ a ++ b, Aside f v := by
  intro v hv
  rcases List.mem_append.1 hv with hv | hv
  · exact ha v hv
  · exact hb v hv

theorem down_shape {w : World} {e : End} {s : St} (h : script c (cmdDown c) w = (e, s)) :
    Shape c False s.hist ∨ Shape c (c.opts.saveConfig = true) s.hist := by
  have hk : ∀ {real : CStr} {hooks : List CStr} {l : List Ev}, HooksDone c real hooks l → ∀ v ∈ l, Aside c.file v := fun h v hv => hook_aside (hooksDone_hooks h v hv)
  have hb : ∀ {real : CStr} {hooks : List CStr} {l : List Ev}, HooksBroke c real hooks l → ∀ v ∈ l, Aside c.file v := fun h v hv => hook_aside (hooksBroke_hooks h v hv)
  rcases down_ends h with h | h | h | ⟨dir, real, lt, lf, l, last, hh, h1, h2, h3⟩ | ⟨_, dir, real, lt, lf, l1, l2, l3, hh, h1, h2, h3, h4, h5⟩
  · obtain ⟨dir, real, lt, lf, l, last, hh, h1, h2, ⟨l1, l2, l3, l4, l5, rfl, p1, p2, p3, p4, p5⟩, h4⟩ := h
    exact .inr (saved_shape (rest := l3 ++ (l4 ++ (l5 ++ last))) (by rw [hh]; simp) h1 h2 (hooksDone_hooks p1) p2
      (aside_append (fun v hv => remove_aside (removed_acts p3 v hv)) (aside_append (fun v hv => remove_aside (dnsUndone_acts p4 v hv)) (aside_append (hk p5) (cleaned_aside h4)))))
  · exact .inl (refused_shape id h)
  · exact .inl (nothing_shape id h)
  · cases h3 with
    | preDown g1 g2 =>
      refine .inl (shape_none id ?_)
      rw [hh]
      exact aside_append (tempStep_aside h1) (aside_append (fun v hv => query_aside (found_queries h2 v hv)) (aside_append (hb g1) (stops_mem (fun _ => tempTry_aside) g2)))
    | @save l1 l2 _ g1 g2 g3 =>
      left
      rcases failed_parts g3 with ⟨k1, k2⟩ | ⟨x, q, t, rfl, k1, k2, k3⟩
      · refine shape_none id ?_
        rw [hh]
        exact aside_append (tempStep_aside h1) (aside_append (fun v hv => query_aside (found_queries h2 v hv)) (aside_append (aside_append (hk g1) k1) k2))
      · refine ⟨lt ++ (lf ++ (l1 ++ q)), t, last, by rw [hh]; simp, ?_, k3, .inr ⟨x, ⟨real, lt, lf, l1, q, t ++ last, by rw [hh]; simp, h2, k1⟩, .inr ⟨k2, id⟩⟩⟩
        exact aside_append (tempStep_aside h1) (aside_append (fun v hv => query_aside (found_queries h2 v hv)) (aside_append (hk g1) (look_aside k1)))
    | @remove l1 l2 l3 _ g1 g2 g3 g4 =>
      exact .inr (saved_shape (rest := l3 ++ last) (by rw [hh]; simp) h1 h2 (hooksDone_hooks g1) g2
        (aside_append (fun v hv => remove_aside (g3.1 v hv)) (stops_mem (fun _ => tempTry_aside) g4)))
    | @dns l1 l2 l3 l4 _ g1 g2 g3 g4 g5 =>
      exact .inr (saved_shape (rest := l3 ++ (l4 ++ last)) (by rw [hh]; simp) h1 h2 (hooksDone_hooks g1) g2
        (aside_append (fun v hv => remove_aside (removed_acts g3 v hv)) (aside_append (fun v hv => remove_aside (g4.1 v hv)) (stops_mem (fun _ => tempTry_aside) g5))))
    | @postDown l1 l2 l3 l4 l5 _ g1 g2 g3 g4 g5 g6 =>
      exact .inr (saved_shape (rest := l3 ++ (l4 ++ (l5 ++ last))) (by rw [hh]; simp) h1 h2 (hooksDone_hooks g1) g2
        (aside_append (fun v hv => remove_aside (removed_acts g3 v hv)) (aside_append (fun v hv => remove_aside (dnsUndone_acts g4 v hv)) (aside_append (hb g5) (stops_mem (fun _ => tempTry_aside) g6)))))
  · exact .inr (saved_shape (rest := l3) hh h1 h2 (hooksDone_hooks h3) h4 (fun v hv => remove_aside (h5 v hv)))

/-- Without `SaveConfig` nothing touches the file. -/
theorem down_plain {w : World} {e : End} {s : St} (h : script c (cmdDown c) w = (e, s)) (hs : ¬ c.opts.saveConfig = true) : ∀ v ∈ s.hist, Aside c.file v := by
  have hk : ∀ {real : CStr} {hooks : List CStr} {l : List Ev}, HooksDone c real hooks l → ∀ v ∈ l, Aside c.file v := fun h v hv => hook_aside (hooksDone_hooks h v hv)
  have hb : ∀ {real : CStr} {hooks : List CStr} {l : List Ev}, HooksBroke c real hooks l → ∀ v ∈ l, Aside c.file v := fun h v hv => hook_aside (hooksBroke_hooks h v hv)
  have hf : ∀ {real : CStr} {l : List Ev}, FoundStep c real l → ∀ v ∈ l, Aside c.file v := fun h v hv => query_aside (found_queries h v hv)
  have hr : ∀ {real : CStr} {l : List Ev}, IfRemoved c real false l → ∀ v ∈ l, Aside c.file v := fun h v hv => remove_aside (removed_acts h v hv)
  have hd : ∀ {real : CStr} {l : List Ev}, DnsUndone c real l → ∀ v ∈ l, Aside c.file v := fun h v hv => remove_aside (dnsUndone_acts h v hv)
  have hst : ∀ {dir : CStr} {l last : List Ev}, Stops (TempTry c dir) e l last → ∀ v ∈ last, Aside c.file v := fun h => stops_mem (fun _ => tempTry_aside) h
  have hsv : ∀ {real : CStr} {l : List Ev}, SavedIf c real l → ∀ v ∈ l, Aside c.file v := by
    intro real l h
    unfold SavedIf at h
    rw [if_neg hs] at h
    subst h; simp
  rcases down_ends h with h | h | h | ⟨dir, real, lt, lf, l, last, hh, h1, h2, h3⟩ | ⟨_, dir, real, lt, lf, l1, l2, l3, hh, h1, h2, h3, h4, h5⟩
  · obtain ⟨dir, real, lt, lf, l, last, hh, h1, h2, ⟨l1, l2, l3, l4, l5, rfl, p1, p2, p3, p4, p5⟩, h4⟩ := h
    rw [hh]
    exact aside_append (tempStep_aside h1) (aside_append (hf h2) (aside_append (aside_append (hk p1) (aside_append (hsv p2) (aside_append (hr p3) (aside_append (hd p4) (hk p5))))) (cleaned_aside h4)))
  · obtain ⟨dir, lt, lm, l, hh, h1, h2, h3⟩ := h
    rw [hh]
    exact aside_append (tempStep_aside h1) (aside_append (fun v hv => query_aside (missing_queries h2 v hv)) (cleaned_aside h3))
  · intro v hv
    obtain ⟨k, r⟩ := v
    rcases h.1 _ hv with h | ⟨_, h | ⟨d, h⟩⟩
    · exact query_aside h
    · simp only at h; subst h; exact mktemp_aside
    · simp only at h; subst h; exact rmrf_aside
  · rw [hh]
    refine aside_append (tempStep_aside h1) (aside_append (hf h2) ?_)
    cases h3 with
    | preDown g1 g2 => exact aside_append (hb g1) (hst g2)
    | save _ g2 _ => exact absurd g2 hs
    | remove g1 g2 g3 g4 => exact aside_append (aside_append (hk g1) (aside_append (hsv g2) (fun v hv => remove_aside (g3.1 v hv)))) (hst g4)
    | dns g1 g2 g3 g4 g5 => exact aside_append (aside_append (hk g1) (aside_append (hsv g2) (aside_append (hr g3) (fun v hv => remove_aside (g4.1 v hv))))) (hst g5)
    | postDown g1 g2 g3 g4 g5 g6 => exact aside_append (aside_append (hk g1) (aside_append (hsv g2) (aside_append (hr g3) (aside_append (hd g4) (hb g5))))) (hst g6)
  · rw [hh]
    exact aside_append (tempStep_aside h1) (aside_append (hf h2) (aside_append (hk h3) (aside_append (hsv h4) fun v hv => remove_aside (h5 v hv))))

end WG.Bsd
