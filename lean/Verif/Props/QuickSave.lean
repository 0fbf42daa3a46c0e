import Verif.Proof.QuickCrash
import Verif.Props.QuickRun
/-!
C52 `wg-quick save` never leaves a truncated configuration; C58 `wg-quick down`.
-/
namespace WG
open Spec.Quick Quick

/-- The first thing `down` and `save` do: asking for the WireGuard interfaces. -/
abbrev ifaceCheck : Call := .query [b!"wg", b!"show", b!"interfaces"]

/-- The interface is one of the words of the listing. -/
def Listed (c : Cfg) (out : List UInt8) : Prop := Occurs (b!" " ++ c.iface ++ b!" ") (b!" " ++ captured out ++ b!" ")

namespace Quick

theorem check_cases (c : Cfg) (k : Unit → Sh Unit) (w : World) (s : St) (h1 : (w s.hist ifaceCheck).sig = false) :
    (Listed c (w s.hist ifaceCheck).out → (checkIface c).bind k w s = k () w { s with hist := s.hist ++ [(ifaceCheck, w s.hist ifaceCheck)] }) ∧
    (¬ Listed c (w s.hist ifaceCheck).out →
      (checkIface c).bind k w s = (.exit 1, { s with hist := s.hist ++ [(ifaceCheck, w s.hist ifaceCheck)] })) := by
  unfold checkIface
  rw [bind_assoc, bind_call]
  rw [if_neg (by rw [h1]; simp)]
  unfold Listed
  simp only [← chomp_eq]
  constructor
  · intro h
    rw [if_pos (hasInfix_iff.2 h)]; rfl
  · intro h
    rw [if_neg fun hh => h (hasInfix_iff.1 hh)]; rfl

theorem check_signal (c : Cfg) (k : Unit → Sh Unit) (w : World) (s : St) (h1 : (w s.hist ifaceCheck).sig = true) :
    (checkIface c).bind k w s = (.signal (w s.hist ifaceCheck).status, { s with hist := s.hist ++ [(ifaceCheck, w s.hist ifaceCheck)] }) := by
  unfold checkIface
  rw [bind_assoc, bind_call, if_pos h1]

end Quick

/-! ### C52 -/

theorem newConfig_mono {c : Cfg} {h h' : List Ev} {x : List UInt8} (hx : NewConfig c h x) (hs : h ⊆ h') : NewConfig c h' x := by
  obtain ⟨a, d, m, s, as, ns, new, y, ha, hb, hd, hn, hm, hs', h⟩ := hx
  exact ⟨a, d, m, s, as, ns, new, y, hs ha, hb, dnsShown_mono hd hs, hn, mtuShown_mono hm hs, hs hs', h⟩

/-- **C52** At every point of `wg-quick save` (`p` is any beginning of its history), if it is killed or the machine crashes, the
configuration file holds the complete old or the complete new configuration. -/
theorem c52_crash_safe (c : Cfg) (w : World) (old : List UInt8) {p : List Ev} (hp : p <+: (cmdSave c w {}).2.hist) {x : List UInt8}
    (hx : x ∈ (diskAfter c.file old p).conf) : x = old ∨ NewConfig c (cmdSave c w {}).2.hist x := by
  have haside : Aside c.file (ifaceCheck, w [] ifaceCheck) := aside_query _ _
  by_cases h1 : (w [] ifaceCheck).sig = true
  · have h := check_signal c (fun _ => saveConfig c) w {} h1
    change cmdSave c w {} = _ at h
    rw [h] at hp
    rw [diskAfter, fold_aside (f := c.file) (fun e he => ?_)] at hx
    · exact .inl hx
    · have := hp.subset he
      simp only [List.nil_append, List.mem_singleton] at this
      subst this; exact haside
  · obtain ⟨h2, h3⟩ := check_cases c (fun _ => saveConfig c) w {} (by simpa using h1)
    by_cases hl : Listed c (w [] ifaceCheck).out
    · have h := h2 hl
      change cmdSave c w {} = _ at h
      rw [h] at hp ⊢
      obtain ⟨l, k1, y, k2, k3, _⟩ := save_crash c w { hist := [(ifaceCheck, w [] ifaceCheck)] } old
        (d := { conf := {old}, temp := Set.univ, seen := none, holds := some old }) (fun _ h => h) rfl
      dsimp only [List.nil_append] at hp ⊢
      rw [k1] at hp ⊢
      have hall : AllIn c.file {old, y} { conf := {old}, temp := Set.univ, seen := none, holds := some old } ([(ifaceCheck, w [] ifaceCheck)] ++ l) := by
        rw [List.singleton_append, allIn_cons, haside]
        exact ⟨by intro z hz; exact .inl hz, k3⟩
      rcases hall p hp hx with rfl | rfl
      · exact .inl rfl
      · rcases k2 with rfl | k2
        · exact .inl rfl
        · exact .inr (newConfig_mono k2 (List.subset_append_right _ _))
    · have h := h3 hl
      change cmdSave c w {} = _ at h
      rw [h] at hp
      rw [diskAfter, fold_aside (f := c.file) (fun e he => ?_)] at hx
      · exact .inl hx
      · have := hp.subset he
        simp only [List.nil_append, List.mem_singleton] at this
        subst this; exact haside

/-- **C52** When `wg-quick save` ends with success, the configuration file holds the complete new configuration. -/
theorem c52_saved (c : Cfg) (w : World) (old : List UInt8) (ho : (cmdSave c w {}).1 = .ok ()) :
    ∃ x, NewConfig c (cmdSave c w {}).2.hist x ∧ (diskAfter c.file old (cmdSave c w {}).2.hist).holds = some x := by
  have haside : Aside c.file (ifaceCheck, w [] ifaceCheck) := aside_query _ _
  by_cases h1 : (w [] ifaceCheck).sig = true
  · have h := check_signal c (fun _ => saveConfig c) w {} h1
    change cmdSave c w {} = _ at h
    rw [h] at ho; cases ho
  · obtain ⟨h2, h3⟩ := check_cases c (fun _ => saveConfig c) w {} (by simpa using h1)
    by_cases hl : Listed c (w [] ifaceCheck).out
    · have h := h2 hl
      change cmdSave c w {} = _ at h
      rw [h] at ho ⊢
      obtain ⟨l, k1, y, _, _, _, k4⟩ := save_crash c w { hist := [(ifaceCheck, w [] ifaceCheck)] } old
        (d := { conf := {old}, temp := Set.univ, seen := none, holds := some old }) (fun _ h => h) rfl
      dsimp only [List.nil_append] at ho ⊢
      rw [k1]
      obtain ⟨k5, k6⟩ := k4 ho
      refine ⟨y, newConfig_mono k5 (List.subset_append_right _ _), ?_⟩
      rw [diskAfter, List.singleton_append, List.foldl_cons, haside]
      exact k6
    · have h := h3 hl
      change cmdSave c w {} = _ at h
      rw [h] at ho; cases ho

/-- **C52** Nothing is written at all unless the interface is listed and `wg showconf` succeeded. -/
theorem c52_nothing_written (c : Cfg) (w : World) {e : Ev} (he : e ∈ (cmdSave c w {}).2.hist) (ha : isAct e.1 = true) :
    Listed c (w [] ifaceCheck).out ∧
      ∃ s, (.query [b!"wg", b!"showconf", c.iface], s) ∈ (cmdSave c w {}).2.hist ∧ s.status = 0 := by
  by_cases h1 : (w [] ifaceCheck).sig = true
  · have h := check_signal c (fun _ => saveConfig c) w {} h1
    change cmdSave c w {} = _ at h
    rw [h] at he
    simp only [List.nil_append, List.mem_singleton] at he
    subst he; simp [isAct] at ha
  · obtain ⟨h2, h3⟩ := check_cases c (fun _ => saveConfig c) w {} (by simpa using h1)
    by_cases hl : Listed c (w [] ifaceCheck).out
    · have h := h2 hl
      change cmdSave c w {} = _ at h
      refine ⟨hl, ?_⟩
      rw [h] at he ⊢
      obtain ⟨q, t, g1, gq, _, _, g2⟩ := save_run c w { hist := [(ifaceCheck, w [] ifaceCheck)] }
      dsimp only [List.nil_append] at he ⊢
      rw [g1] at he ⊢
      rcases g2 with ⟨x, ⟨_, _, _, s, _, _, _, _, _, _, _, _, _, hs, h0, _⟩, _⟩ | ⟨rfl, _⟩
      · exact ⟨s, by simp [hs], h0⟩
      · rw [List.append_nil, List.singleton_append, List.mem_cons] at he
        rcases he with rfl | he
        · simp [isAct] at ha
        · rw [gq e he] at ha; cases ha
    · have h := h3 hl
      change cmdSave c w {} = _ at h
      rw [h] at he
      simp only [List.nil_append, List.mem_singleton] at he
      subst he; simp [isAct] at ha

namespace Quick

theorem aside_acts {f : List UInt8} {h : List Ev} {P : Call → Prop} (hp : ∀ a r, P a → Aside f (a, r)) (h1 : ∀ a ∈ acts h, P a) :
    ∀ e ∈ h, Aside f e := by
  intro e he
  by_cases ha : isAct e.1 = true
  · exact hp e.1 e.2 (h1 _ (List.mem_filter.2 ⟨List.mem_map_of_mem he, ha⟩))
  · exact aside_quiet (by simpa using ha)

theorem hookActs_mem {c : Cfg} {hs : List CStr} {la : List Call} (h : HookActs c hs la) : ∀ a ∈ la, ∃ t, a = .hook t := by
  unfold HookActs at h
  induction h with
  | nil => simp
  | cons hx _ ih =>
    intro a ha
    rcases List.mem_cons.1 ha with rfl | ha
    · exact ⟨_, hx.choose_spec.1⟩
    · exact ih a ha

theorem downLast_acts {c : Cfg} {l : List Ev} (h : DownLast c l) : ∀ a ∈ acts l, IsUndo c a ∨ ∃ t, a = .hook t := by
  obtain ⟨l1, l2, l3, rfl, h1, h2, h3⟩ := h
  intro a ha
  simp only [acts_append, List.mem_append] at ha
  rcases ha with ha | ha | ha
  · exact .inl (dns_acts h1 a ha)
  · exact .inl (fw_acts h2 a ha)
  · exact .inr (hookActs_mem h3 a ha)

/-- The configuration file during `down` past the check. -/
theorem down_crash (c : Cfg) (w : World) (s : St) (hs : s.haveDns = false ∧ s.haveFw = false) {d : Disk} {old : List UInt8} (hd : d.conf ⊆ {old}) :
    ∃ l, ((executeHooks c c.opts.preDown).bind (fun _ => downTail c) w s).2.hist = s.hist ++ l ∧
      ∃ x, (x = old ∨ (c.opts.saveConfig = true ∧ NewConfig c l x)) ∧ AllIn c.file {old, x} d l := by
  have hsub : ∀ x, d.conf ⊆ {old, x} := fun x => hd.trans (by intro y hy; exact .inl hy)
  obtain ⟨l, k1, k2⟩ := down_run c w s hs
  refine ⟨l, k1, ?_⟩
  have hhook : ∀ {l : List Ev}, (∀ e ∈ l, ∃ t, e.1 = .hook t) → ∀ e ∈ l, Aside c.file e := by
    intro l h e he
    obtain ⟨t, ht⟩ := h e he
    obtain ⟨a, r⟩ := e
    simp only at ht; subst ht
    exact aside_hook _ _
  rcases k2 with ⟨k, _, _⟩ | ⟨hsave, _, a, q, t, rfl, _, ha, hq, ht⟩ | ⟨f, r, rfl, hf, ⟨full, ⟨x, y, rfl, hx, hy⟩, hfull⟩, _⟩
  · exact ⟨old, .inl rfl, allIn_aside (hhook k) (hsub _)⟩
  · have hqa : ∀ e ∈ q, Aside c.file e := fun e he => aside_quiet (hq e he)
    rcases ht with rfl | ⟨x, hx, ht⟩
    · refine ⟨old, .inl rfl, ?_⟩
      rw [allIn_append, allIn_append, fold_aside (hhook ha), fold_aside hqa]
      exact ⟨allIn_aside (hhook ha) (hsub _), allIn_aside hqa (hsub _), allIn_nil.2 (hsub _)⟩
    · refine ⟨x, .inr ⟨hsave, newConfig_mono hx (by intro e he; simp [he])⟩, ?_⟩
      rw [allIn_append, allIn_append, fold_aside (hhook ha), fold_aside hqa]
      exact ⟨allIn_aside (hhook ha) (hsub _), allIn_aside hqa (hsub _), (allIn_stopped ht hd).1⟩
  · have hr : ∀ e ∈ r, Aside c.file e := by
      refine aside_acts (P := fun a => (IsUndo c a ∨ a = deleteAct c) ∨ ∃ t, a = .hook t) ?_ ?_
      · rintro a r (h | ⟨t, rfl⟩)
        · exact aside_undo h
        · exact aside_hook _ _
      · intro a ha
        have := hfull.subset ha
        rw [acts_append, List.mem_append] at this
        rcases this with h | h
        · obtain ⟨us, u1, u2⟩ := removal_acts hx
          rw [u2, List.mem_append, List.mem_singleton] at h
          exact .inl (h.imp (u1 a) id)
        · exact (downLast_acts hy a h).imp .inl id
    obtain ⟨a, b, rfl, ha, _, hb⟩ := hf
    have haa : ∀ e ∈ a, Aside c.file e := by
      refine aside_acts (P := fun a => ∃ t, a = .hook t) ?_ (hookActs_mem ha)
      rintro a r ⟨t, rfl⟩
      exact aside_hook _ _
    by_cases hsave : c.opts.saveConfig = true
    · rw [if_pos hsave] at hb
      obtain ⟨q, t, x, rfl, hq, hx, ht⟩ := hb
      have hqa : ∀ e ∈ q, Aside c.file e := fun e he => aside_quiet (hq e he)
      refine ⟨x, .inr ⟨hsave, newConfig_mono hx (by intro e he; simp [he])⟩, ?_⟩
      have hdone := (allIn_done ht hd).1
      rw [allIn_append, allIn_append, allIn_append, fold_aside haa, fold_aside hqa, List.foldl_append, List.foldl_append, fold_aside haa,
        fold_aside hqa]
      exact ⟨⟨allIn_aside haa (hsub _), allIn_aside hqa (hsub _), hdone⟩, allIn_aside hr (hdone _ (List.prefix_refl _))⟩
    · rw [if_neg hsave] at hb
      subst hb
      refine ⟨old, .inl rfl, ?_⟩
      rw [List.append_nil, allIn_append, fold_aside haa]
      exact ⟨allIn_aside haa (hsub _), allIn_aside hr (hsub _)⟩

end Quick

/-- **C52** The same at every point of `wg-quick down`; without SaveConfig the file is never touched (hooks excepted, which are
assumed not to touch it). -/
theorem c52_down_crash_safe (c : Cfg) (w : World) (old : List UInt8) {p : List Ev} (hp : p <+: (cmdDown c w {}).2.hist) {x : List UInt8}
    (hx : x ∈ (diskAfter c.file old p).conf) : x = old ∨ (c.opts.saveConfig = true ∧ NewConfig c (cmdDown c w {}).2.hist x) := by
  have haside : Aside c.file (ifaceCheck, w [] ifaceCheck) := aside_query _ _
  have hone : p <+: [(ifaceCheck, w [] ifaceCheck)] → x = old := by
    intro hp
    rw [diskAfter, fold_aside (f := c.file) (fun e he => ?_)] at hx
    · exact hx
    · have := hp.subset he
      rw [List.mem_singleton] at this
      subst this; exact haside
  by_cases h1 : (w [] ifaceCheck).sig = true
  · have h := check_signal c (fun _ => (executeHooks c c.opts.preDown).bind fun _ => downTail c) w {} h1
    change cmdDown c w {} = _ at h
    rw [h] at hp
    exact .inl (hone hp)
  · obtain ⟨h2, h3⟩ := check_cases c (fun _ => (executeHooks c c.opts.preDown).bind fun _ => downTail c) w {} (by simpa using h1)
    by_cases hl : Listed c (w [] ifaceCheck).out
    · have h := h2 hl
      change cmdDown c w {} = _ at h
      rw [h] at hp ⊢
      obtain ⟨l, k1, y, k2, k3⟩ := down_crash c w { hist := [(ifaceCheck, w [] ifaceCheck)] } ⟨rfl, rfl⟩
        (d := { conf := {old}, temp := Set.univ, seen := none, holds := some old }) (fun _ h => h)
      dsimp only [List.nil_append] at hp ⊢
      rw [k1] at hp ⊢
      have hall : AllIn c.file {old, y} { conf := {old}, temp := Set.univ, seen := none, holds := some old } ([(ifaceCheck, w [] ifaceCheck)] ++ l) := by
        rw [List.singleton_append, allIn_cons, haside]
        exact ⟨by intro z hz; exact .inl hz, k3⟩
      rcases hall p hp hx with rfl | rfl
      · exact .inl rfl
      · rcases k2 with rfl | ⟨k2, k3⟩
        · exact .inl rfl
        · exact .inr ⟨k2, newConfig_mono k3 (List.subset_append_right _ _)⟩
    · have h := h3 hl
      change cmdDown c w {} = _ at h
      rw [h] at hp
      exact .inl (hone hp)

/-! ### C58 -/

namespace Quick

theorem word_split {n i x y : List UInt8} (hn : (32 : UInt8) ∉ n) (hi : (32 : UInt8) ∉ i) (h : n ++ 32 :: x = i ++ 32 :: y) : n = i ∧ x = y := by
  induction n generalizing i with
  | nil =>
    cases i with
    | nil => simpa using h
    | cons b i =>
      simp only [List.nil_append, List.cons_append, List.cons.injEq] at h
      exact absurd (by rw [h.1]; simp) hi
  | cons a n ih =>
    cases i with
    | nil =>
      simp only [List.nil_append, List.cons_append, List.cons.injEq] at h
      exact absurd (by rw [h.1]; simp) hn
    | cons b i =>
      simp only [List.cons_append, List.cons.injEq] at h
      obtain ⟨rfl, h⟩ := h
      obtain ⟨rfl, rfl⟩ := ih (fun hm => hn (List.mem_cons_of_mem _ hm)) (fun hm => hi (List.mem_cons_of_mem _ hm)) h
      exact ⟨rfl, rfl⟩

theorem occurs_words {i : List UInt8} (hi : i ≠ [] ∧ (32 : UInt8) ∉ i) (names : List (List UInt8)) (hn : ∀ n ∈ names, (32 : UInt8) ∉ n) :
    Occurs (b!" " ++ i ++ b!" ") (names.flatMap (fun n => b!" " ++ n) ++ b!" ") ↔ i ∈ names := by
  induction names with
  | nil =>
    refine iff_of_false ?_ (by simp)
    rintro ⟨a, b, h⟩
    have := congrArg List.length h
    have hl := List.length_pos_iff.2 hi.1
    simp at this; omega
  | cons n names ih =>
    have ih := ih fun m hm => hn m (List.mem_cons_of_mem _ hm)
    obtain ⟨x, hx⟩ : ∃ x, names.flatMap (fun n => b!" " ++ n) ++ b!" " = 32 :: x := by cases names <;> simp
    have hx' : (n :: names).flatMap (fun n => b!" " ++ n) ++ b!" " = 32 :: (n ++ 32 :: x) := by
      rw [List.flatMap_cons, List.append_assoc, hx]; simp
    rw [hx'] ; rw [hx] at ih
    constructor
    · rintro ⟨a, b, h⟩
      cases a with
      | nil =>
        simp only [List.nil_append, List.cons_append, List.append_assoc, List.cons.injEq, true_and] at h
        rw [(word_split (hn n (List.mem_cons_self ..)) hi.2 h).1]
        exact List.mem_cons_self ..
      | cons c a =>
        simp only [List.nil_append, List.cons_append, List.append_assoc, List.cons.injEq] at h
        obtain ⟨_, h⟩ := h
        refine List.mem_cons_of_mem _ (ih.1 ?_)
        rcases List.append_eq_append_iff.1 h with ⟨t, rfl, h2⟩ | ⟨t, h1, h2⟩
        · exact ⟨t, b, by rw [h2]; simp⟩
        · cases t with
          | nil => exact ⟨[], b, by rw [List.nil_append] at h2; rw [← h2]; simp⟩
          | cons y t =>
            simp only [List.cons_append, List.cons.injEq] at h2
            exact absurd (by rw [h1, ← h2.1]; simp) (hn n (List.mem_cons_self ..))
    · intro h
      rcases List.mem_cons.1 h with rfl | h
      · exact ⟨[], x, by simp⟩
      · obtain ⟨a, b, h⟩ := ih.2 h
        exact ⟨32 :: (n ++ a), b, by rw [h]; simp⟩

theorem intercalate_blank (n : List UInt8) (names : List (List UInt8)) :
    b!" " ++ List.intercalate b!" " (n :: names) = (n :: names).flatMap fun n => b!" " ++ n := by
  induction names generalizing n with
  | nil => simp [List.intercalate]
  | cons m names ih =>
    rw [List.flatMap_cons, ← ih m]
    simp [List.intercalate]

end Quick

/-- **C58** When the listing is what `wg show interfaces` prints (the names with blanks between them and a line feed), being listed
means being one of the names. -/
theorem c58_listed (c : Cfg) (names : List CStr) (hn : ∀ n ∈ names, n ≠ [] ∧ ∀ b ∈ n, b ≠ 32 ∧ b ≠ 10 ∧ b ≠ 0)
    (hi : c.iface ≠ [] ∧ (32 : UInt8) ∉ c.iface) :
    Listed c (List.intercalate b!" " names ++ b!"\n") ↔ c.iface ∈ names := by
  cases names with
  | nil =>
    refine iff_of_false ?_ (by simp)
    rintro ⟨a, b, h⟩
    have := congrArg List.length h
    have hl := List.length_pos_iff.2 hi.1
    have hc : captured (List.intercalate b!" " [] ++ b!"\n") = [] := by decide
    rw [hc] at this
    simp at this; omega
  | cons n names =>
    have hmem : ∀ b ∈ List.intercalate b!" " (n :: names), b ≠ 10 ∧ b ≠ 0 := by
      intro b hb
      have hb' : b ∈ (n :: names).flatMap fun n => b!" " ++ n := by rw [← intercalate_blank]; simp [hb]
      obtain ⟨m, hm, hb'⟩ := List.mem_flatMap.1 hb'
      rcases List.mem_append.1 hb' with h | h
      · rw [List.mem_singleton] at h; subst h; decide
      · exact ((hn m hm).2 b h).2
    have hch : captured (List.intercalate b!" " (n :: names) ++ b!"\n") = List.intercalate b!" " (n :: names) := by
      rw [← chomp_eq]; unfold chomp
      rw [List.filter_eq_self.2, List.reverse_append]
      · change (List.dropWhile _ (10 :: (List.intercalate b!" " (n :: names)).reverse)).reverse = _
        rw [List.dropWhile_cons_of_pos (by decide)]
        have hd : ∀ l : List UInt8, (∀ b ∈ l, b ≠ 10) → l.dropWhile (fun c => decide (c = 10)) = l := by
          intro l hl
          cases l with
          | nil => rfl
          | cons b l => rw [List.dropWhile_cons_of_neg (by simpa using hl b (List.mem_cons_self ..))]
        rw [hd _ (fun b hb => (hmem b (List.mem_reverse.1 hb)).1), List.reverse_reverse]
      · intro b hb
        rcases List.mem_append.1 hb with hb | hb
        · simpa using (hmem b hb).2
        · rw [List.mem_singleton] at hb; subst hb; decide
    unfold Listed
    rw [hch, intercalate_blank]
    exact occurs_words hi _ fun m hm h => ((hn m hm).2 32 h).1 rfl

/-- **C58** `down` and `save` of something that is not listed as WireGuard interface do nothing. -/
theorem c58_not_listed (c : Cfg) (w : World) (h1 : (w [] ifaceCheck).sig = false) (h2 : ¬ Listed c (w [] ifaceCheck).out) :
    ((cmdDown c w {}).1 = .exit 1 ∧ (cmdDown c w {}).2.hist = [(ifaceCheck, w [] ifaceCheck)]) ∧
    ((cmdSave c w {}).1 = .exit 1 ∧ (cmdSave c w {}).2.hist = [(ifaceCheck, w [] ifaceCheck)]) := by
  constructor
  · have h := (check_cases c (fun _ => (executeHooks c c.opts.preDown).bind fun _ => downTail c) w {} h1).2 h2
    change cmdDown c w {} = _ at h
    rw [h]; exact ⟨rfl, rfl⟩
  · have h := (check_cases c (fun _ => saveConfig c) w {} h1).2 h2
    change cmdSave c w {} = _ at h
    rw [h]; exact ⟨rfl, rfl⟩

/-- **C58** When `down` ends with success: PreDown hooks, saving (if asked for), removal of the interface, then DNS and firewall,
then PostDown hooks, in this order, each command successful and uninterrupted; only failures to remove DNS or firewall settings
after the interface is gone are ignored. -/
theorem c58_success (c : Cfg) (w : World) (ho : (cmdDown c w {}).1 = .ok ()) :
    ∃ f a b, (cmdDown c w {}).2.hist = (ifaceCheck, w [] ifaceCheck) :: (f ++ (a ++ b)) ∧ Listed c (w [] ifaceCheck).out ∧ DownFirst c f ∧
      Removal c false false a ∧ DownLast c b ∧
      (∀ e ∈ a, e.2.sig = false ∧ (isAct e.1 = true → e.2.status = 0)) ∧
      (∀ e ∈ b, e.2.sig = false ∧ (isAct e.1 = true → e.2.status = 0 ∨ IsUndo c e.1)) := by
  by_cases h1 : (w [] ifaceCheck).sig = true
  · have h := check_signal c (fun _ => (executeHooks c c.opts.preDown).bind fun _ => downTail c) w {} h1
    change cmdDown c w {} = _ at h
    rw [h] at ho; cases ho
  · obtain ⟨h2, h3⟩ := check_cases c (fun _ => (executeHooks c c.opts.preDown).bind fun _ => downTail c) w {} (by simpa using h1)
    by_cases hl : Listed c (w [] ifaceCheck).out
    · have h := h2 hl
      change cmdDown c w {} = _ at h
      rw [h] at ho ⊢
      obtain ⟨l, k1, k2⟩ := down_run c w { hist := [(ifaceCheck, w [] ifaceCheck)] } ⟨rfl, rfl⟩
      dsimp only [List.nil_append] at ho k1 k2 ⊢
      rw [k1]
      rcases k2 with ⟨_, _, k⟩ | ⟨_, k, _⟩ | ⟨f, r, rfl, hf, _, k⟩
      · exact absurd ho (k ())
      · exact absurd ho (k ())
      · obtain ⟨a, b, rfl, h⟩ := k ho
        exact ⟨f, a, b, rfl, hl, hf, h⟩
    · have h := h3 hl
      change cmdDown c w {} = _ at h
      rw [h] at ho; cases ho

/-- **C58** Before anything of the interface is removed (its deletion or another undoing command `e`), all PreDown hooks were run
successfully and the configuration was saved if asked for. -/
theorem c58_nothing_before_hooks_and_save (c : Cfg) (w : World) {h1 h2 : List Ev} {e : Ev}
    (hh : (cmdDown c w {}).2.hist = h1 ++ e :: h2) (he : e.1 = deleteAct c ∨ IsUndo c e.1) :
    ∃ f g, h1 = (ifaceCheck, w [] ifaceCheck) :: (f ++ g) ∧ DownFirst c f := by
  have hact : isAct e.1 = true := by
    unfold IsUndo deleteAct cmd at he
    rcases he with h | ⟨_, h⟩ | ⟨_, h⟩ | ⟨_, h⟩ | ⟨_, h⟩ | ⟨_, _, h⟩ | ⟨_, h⟩ <;> rw [h] <;> rfl
  have hnh : ∀ t, e.1 ≠ .hook t := by
    intro t
    unfold IsUndo deleteAct cmd at he
    rcases he with h | ⟨_, h⟩ | ⟨_, h⟩ | ⟨_, h⟩ | ⟨_, h⟩ | ⟨_, _, h⟩ | ⟨_, h⟩ <;> rw [h] <;> simp
  have hns : ∀ x t, (SaveDone c x t ∨ SaveStopped c x t) → e ∉ t := by
    intro x t ht hm
    have : e.1 = .act [b!"write", b!"077", c.file ++ b!".tmp"] x ∨ e.1 = cmd [b!"sync", c.file ++ b!".tmp"] ∨
        e.1 = cmd [b!"mv", c.file ++ b!".tmp", c.file] ∨ e.1 = cmd [b!"rm", b!"-f", c.file ++ b!".tmp"] := by
      rcases ht with ⟨_, _, _, rfl, _⟩ | ⟨b, k, rfl, _, hk, ⟨_, rfl, _⟩ | ⟨_, _, rfl, _⟩ | ⟨_, _, _, rfl, _⟩⟩ <;>
        simp only [List.mem_cons, List.mem_append, List.not_mem_nil, or_false] at hm
      · rcases hm with rfl | rfl | rfl <;> simp
      · rcases hm with rfl | hm
        · simp
        · exact .inr (.inr (.inr (hk e hm)))
      · rcases hm with (rfl | rfl) | hm
        · simp
        · simp
        · exact .inr (.inr (.inr (hk e hm)))
      · rcases hm with (rfl | rfl | rfl) | hm
        · simp
        · simp
        · simp
        · exact .inr (.inr (.inr (hk e hm)))
    unfold IsUndo deleteAct cmd at he
    unfold cmd at this
    rcases this with h' | h' | h' | h' <;> rw [h'] at he <;>
      (rcases he with h | ⟨_, h⟩ | ⟨_, h⟩ | ⟨_, h⟩ | ⟨_, h⟩ | ⟨_, _, h⟩ | ⟨_, h⟩ <;> simp at h)
  have hfirst : ∀ e' : Ev, isAct e'.1 = false → e' ≠ e := by rintro e' h rfl; rw [hact] at h; cases h
  have hnq : ∀ q : List Ev, (∀ e ∈ q, isAct e.1 = false) → e ∉ q := by
    intro q hq hm
    have := hq e hm
    rw [hact] at this; cases this
  by_cases hs1 : (w [] ifaceCheck).sig = true
  · have h := check_signal c (fun _ => (executeHooks c c.opts.preDown).bind fun _ => downTail c) w {} hs1
    change cmdDown c w {} = _ at h
    rw [h] at hh
    have : e ∈ [(ifaceCheck, w [] ifaceCheck)] := by
      have : e ∈ h1 ++ e :: h2 := by simp
      rw [← hh] at this; exact this
    rw [List.mem_singleton] at this
    exact absurd this.symm (hfirst _ rfl)
  · obtain ⟨h3, h4⟩ := check_cases c (fun _ => (executeHooks c c.opts.preDown).bind fun _ => downTail c) w {} (by simpa using hs1)
    by_cases hl : Listed c (w [] ifaceCheck).out
    · have h := h3 hl
      change cmdDown c w {} = _ at h
      rw [h] at hh
      obtain ⟨l, k1, k2⟩ := down_run c w { hist := [(ifaceCheck, w [] ifaceCheck)] } ⟨rfl, rfl⟩
      dsimp only [List.nil_append] at k1 k2 hh
      rw [k1, List.singleton_append] at hh
      rcases h1 with - | ⟨x, h1⟩
      · simp only [List.nil_append, List.cons.injEq] at hh
        exact absurd hh.1 (hfirst _ rfl)
      simp only [List.cons_append, List.cons.injEq] at hh
      obtain ⟨rfl, hh⟩ := hh
      have hmem : e ∈ l := by rw [hh]; simp
      rcases k2 with ⟨k, _, _⟩ | ⟨_, _, a, q, t, rfl, _, ha, hq, ht⟩ | ⟨f, r, rfl, hf, _, _⟩
      · obtain ⟨t, ht⟩ := k e hmem
        exact absurd ht (hnh t)
      · simp only [List.mem_append] at hmem
        rcases hmem with hm | hm | hm
        · obtain ⟨t, ht⟩ := ha e hm
          exact absurd ht (hnh t)
        · exact absurd hm (hnq _ hq)
        · rcases ht with rfl | ⟨x, _, ht⟩
          · simp at hm
          · exact absurd hm (hns x t (.inr ht))
      · have hnf : e ∉ f := by
          obtain ⟨a, b, rfl, hha, hab, hb⟩ := hf
          intro hm
          rcases List.mem_append.1 hm with hm | hm
          · have : e.1 ∈ acts a := List.mem_filter.2 ⟨List.mem_map_of_mem hm, hact⟩
            unfold HookActs at hha
            obtain ⟨y, _, hy⟩ : ∃ y ∈ c.opts.preDown, ∃ t, e.1 = .hook t ∧ HookText c.iface y t := by
              clear hm hab hb
              generalize acts a = la at hha this
              generalize c.opts.preDown = hs at hha
              induction hha with
              | nil => simp at this
              | cons hx _ ih =>
                rcases List.mem_cons.1 this with h | h
                · exact ⟨_, List.mem_cons_self .., by rw [h]; exact hx⟩
                · obtain ⟨y, hy, h⟩ := ih h
                  exact ⟨y, List.mem_cons_of_mem _ hy, h⟩
            obtain ⟨t, ht, _⟩ := hy
            exact hnh t ht
          · split at hb
            · obtain ⟨q, t, x, rfl, hq, _, ht⟩ := hb
              rcases List.mem_append.1 hm with hm | hm
              · exact hnq _ hq hm
              · exact hns x t (.inl ht) hm
            · subst hb; simp at hm
        -- so `f` is a beginning of `h1`
        have : f <+: h1 := by
          rcases List.append_eq_append_iff.1 hh with ⟨t, rfl, _⟩ | ⟨t, h', ht⟩
          · exact List.prefix_append _ _
          · cases t with
            | nil => rw [List.append_nil] at h'; exact h' ▸ List.prefix_refl _
            | cons y t =>
              simp only [List.cons_append, List.cons.injEq] at ht
              exact absurd (by rw [h', ← ht.1]; simp) hnf
        obtain ⟨g, rfl⟩ := this
        exact ⟨f, g, rfl, hf⟩
    · have h := h4 hl
      change cmdDown c w {} = _ at h
      rw [h] at hh
      have : e ∈ [(ifaceCheck, w [] ifaceCheck)] := by
        have : e ∈ h1 ++ e :: h2 := by simp
        rw [← hh] at this; exact this
      rw [List.mem_singleton] at this
      exact absurd this.symm (hfirst _ rfl)

/-! Concrete runs. -/

/-- As `exCfg`, with `SaveConfig = true`, `MTU`, `Table` and hooks. -/
def exSaveCfg : Cfg := { exCfg with opts := { exOpts with mtu := b!"1400", table := b!"off", saveConfig := true, preDown := [b!"bye %i"], postDown := [b!"gone"] } }

/-- An interface that is up. -/
def exUpWorld : World := fun h c =>
  if c = ifaceCheck then ⟨0, b!"wg1 wg0\n", false⟩
  else if c = .query [b!"ip", b!"-all", b!"-brief", b!"address", b!"show", b!"dev", b!"wg0"] then
    ⟨0, b!"wg0              UNKNOWN        10.0.0.2/24 fd00::2/64 \n", false⟩
  else if c = .query [b!"resolvconf", b!"-l", b!"wg0"] then ⟨0, b!"nameserver 10.0.0.1\nsearch corp\n", false⟩
  else if c = .query [b!"ip", b!"link", b!"show", b!"dev", b!"wg0"] then ⟨0, b!"5: wg0: <UP> mtu 1380 qdisc noqueue\n", false⟩
  else if c = .query [b!"wg", b!"showconf", b!"wg0"] then ⟨0, b!"[Interface]\nListenPort = 5\n\n[Peer]\nPublicKey = k\n", false⟩
  else exWorld h c

/-- What is saved. -/
def exSaved : List UInt8 :=
  b!"[Interface]\nAddress = 10.0.0.2/24\nAddress = fd00::2/64\nDNS = 10.0.0.1\nMTU = 1380\nTable = off\nSaveConfig = true\nPostUp = ping %i\nPreDown = bye %i\nPostDown = gone\nListenPort = 5\n\n[Peer]\nPublicKey = k\n"

/-- The hypotheses of `c52_saved` are met. -/
example : (cmdSave exSaveCfg exUpWorld {}).1 = .ok () ∧
    acts (cmdSave exSaveCfg exUpWorld {}).2.hist =
      [.act [b!"write", b!"077", b!"/etc/wireguard/wg0.conf.tmp"] exSaved, cmd [b!"sync", b!"/etc/wireguard/wg0.conf.tmp"],
       cmd [b!"mv", b!"/etc/wireguard/wg0.conf.tmp", b!"/etc/wireguard/wg0.conf"]] := by decide +kernel

/-- The hypotheses of `c58_success` are met. -/
example : (cmdDown exSaveCfg exUpWorld {}).1 = .ok () ∧ acts (cmdDown exSaveCfg exUpWorld {}).2.hist =
      [.hook b!"bye wg0", .act [b!"write", b!"077", b!"/etc/wireguard/wg0.conf.tmp"] exSaved, cmd [b!"sync", b!"/etc/wireguard/wg0.conf.tmp"],
       cmd [b!"mv", b!"/etc/wireguard/wg0.conf.tmp", b!"/etc/wireguard/wg0.conf"], deleteAct exSaveCfg,
       cmd [b!"resolvconf", b!"-d", b!"wg0", b!"-f"], .hook b!"gone"] := by decide +kernel

/-- A failing PreDown hook leaves everything in place. -/
example : (cmdDown exSaveCfg (fun h c => if c = .hook b!"bye wg0" then ⟨3, [], false⟩ else exUpWorld h c) {}).1 = .exit 3 ∧
    acts (cmdDown exSaveCfg (fun h c => if c = .hook b!"bye wg0" then ⟨3, [], false⟩ else exUpWorld h c) {}).2.hist = [.hook b!"bye wg0"] := by
  decide +kernel

/-- The hypotheses of `c58_not_listed` are met: `wg show interfaces` lists other names only. -/
example : (exUpWorld [] ifaceCheck).sig = false ∧ ¬ Listed { exSaveCfg with iface := b!"wg" } (exUpWorld [] ifaceCheck).out := by
  refine ⟨rfl, fun h => ?_⟩
  have := hasInfix_iff.2 h
  revert this; decide +kernel

end WG
