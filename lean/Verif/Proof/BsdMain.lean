import Verif.Model.BsdMain
import Verif.Spec.BsdMain
import Verif.Proof.BsdUpEnd
/-! The beginning and the end of the script on the BSDs. -/
namespace WG.Bsd
open WG.Quick (Call Reply Ev World Out calm chomp chomp_eq parseConf ifaceOf isName isName_iff Parsed)
open WG.Spec WG.Spec.Quick WG.Spec.Bsd

variable {c : Cfg} {w : World}

theorem bind_call_eq {β : Type} (q : Call) (f : Reply → Sh β) (s : St) :
    ((call q).bind f) w s = if (w s.hist q).sig = true then (.signal (w s.hist q).status, push s q (w s.hist q)) else f (w s.hist q) w (push s q (w s.hist q)) := by
  unfold Sh.bind
  rw [call_eq]
  by_cases h : (w s.hist q).sig = true
  · rw [if_pos h, if_pos h]
  · rw [if_neg h, if_neg h]

theorem makeTemp_cases (s0 : St) (h0 : s0.hist = []) : (makeTemp w s0).2.trap = s0.trap ∧
    match makeTemp w s0 with
    | (.ok _, s) => ∃ r t, t.status = 0 ∧ s.tmp = chomp r.out ∧ s.hist = [(act [b!"mktemp", b!"-d"], r), (.query [b!"test", b!"-d", chomp r.out], t)]
    | (.exit m, s) => m = 1 ∧ OnlyTemp.TempNotMade (.exit 1) s.hist
    | (.signal _, s) => OnlyTemp.TempNotMade .killed s.hist
    | (.running, _) => False := by
  unfold makeTemp
  rw [bind_call_eq]
  generalize hr : w s0.hist (act [b!"mktemp", b!"-d"]) = r
  by_cases h1 : r.sig = true
  · rw [if_pos h1]
    exact ⟨rfl, .inr ⟨r, by show s0.hist ++ _ = _; rw [h0]; rfl, h1, rfl⟩⟩
  · rw [if_neg h1, bind_call_eq]
    generalize ht : w (push s0 (act [b!"mktemp", b!"-d"]) r).hist (.query [b!"test", b!"-d", chomp r.out]) = t
    have hh : (push (push s0 (act [b!"mktemp", b!"-d"]) r) (.query [b!"test", b!"-d", chomp r.out]) t).hist = [(act [b!"mktemp", b!"-d"], r), (.query [b!"test", b!"-d", chomp r.out], t)] := by
      show (s0.hist ++ _) ++ _ = _; rw [h0]; rfl
    by_cases h2 : t.sig = true
    · rw [if_pos h2]
      exact ⟨rfl, .inl ⟨r, t, by rw [hh, chomp_eq]; rfl, .inr ⟨h2, rfl⟩⟩⟩
    · rw [if_neg h2]
      by_cases h3 : t.status ≠ 0
      · rw [if_pos h3]
        exact ⟨rfl, rfl, .inl ⟨r, t, by rw [← chomp_eq]; exact hh, .inl ⟨by simpa using h2, h3, rfl⟩⟩⟩
      · rw [if_neg h3]
        exact ⟨rfl, r, t, by simpa using h3, rfl, hh⟩

/-- What the beginning of the script does. -/
theorem begin_inv {o : Out Unit} {s : St} (h : commands c (Sh.pure ()) w (St.start c) = (o, s)) :
    (o = .ok () ∧ TempStep c s.tmp s.hist ∧ s.trap = restTrap c) ∨
    (c.plat = .freebsd ∧ s.trap = .none ∧
      ((o = .exit 1 ∧ OnlyTemp.TempNotMade (.exit 1) s.hist) ∨ ((∃ n, o = .signal n) ∧ OnlyTemp.TempNotMade .killed s.hist))) := by
  unfold commands at h
  by_cases hp : c.plat = .freebsd
  · rw [if_pos hp] at h
    have hm := makeTemp_cases (w := w) (St.start c) rfl
    rcases e : makeTemp w (St.start c) with ⟨o1, s1⟩
    rw [e] at hm
    unfold Sh.bind at h
    rw [e] at h
    obtain ⟨ht, hm⟩ := hm
    cases o1 with
    | ok u =>
      obtain ⟨r, t, h1, h2, h3⟩ := hm
      change (setTrap (restTrap c)).bind (fun _ => Sh.pure ()) w s1 = (o, s) at h
      rw [setTrap_bind] at h
      unfold Sh.pure at h
      simp only [Prod.mk.injEq] at h
      refine .inl ⟨h.1.symm, ?_, by rw [← h.2]⟩
      rw [← h.2]
      unfold TempStep
      rw [if_pos hp]
      exact ⟨r, t, by rw [h2, chomp_eq], h1, by rw [h3, h2]; rfl⟩
    | exit m =>
      obtain ⟨rfl, hm⟩ := hm
      simp only [Prod.mk.injEq] at h
      rw [← h.1, ← h.2]
      exact .inr ⟨hp, ht, .inl ⟨rfl, hm⟩⟩
    | signal m =>
      simp only [Prod.mk.injEq] at h
      rw [← h.1, ← h.2]
      exact .inr ⟨hp, ht, .inr ⟨⟨m, rfl⟩, hm⟩⟩
    | running => exact hm.elim
  · rw [if_neg hp, pure_bind, setTrap_bind] at h
    unfold Sh.pure at h
    simp only [Prod.mk.injEq] at h
    refine .inl ⟨h.1.symm, ?_, by rw [← h.2]⟩
    rw [← h.2]
    unfold TempStep
    rw [if_neg hp]
    rfl

theorem bind_assoc' {α β γ : Type} (m : Sh α) (f : α → Sh β) (g : β → Sh γ) : (m.bind f).bind g = m.bind fun a => (f a).bind g := by
  funext w s
  unfold Sh.bind
  rcases m w s with ⟨o, s1⟩
  cases o <;> rfl

theorem commands_bind (op : Sh Unit) : commands c op = (commands c (Sh.pure ())).bind fun _ => op := by
  unfold commands
  rw [bind_assoc']
  rfl

/-- The whole script, if it does nothing. -/
theorem idle_ends {op : Sh Unit} {k : Nat} (hop : (k = 0 ∧ op = Sh.pure ()) ∨ op = exitWith k) {e : End} {s : St} (h : script c op w = (e, s)) :
    OnlyTemp c k (started c w = true) e s.hist := by
  unfold script at h
  rw [commands_bind] at h
  rcases e1 : commands c (Sh.pure ()) w (St.start c) with ⟨o, s1⟩
  have hst : started c w = true ↔ o = .ok () := by
    unfold started
    rw [e1]
    cases o <;> simp
  unfold OnlyTemp
  rw [hst]
  rcases begin_inv e1 with ⟨rfl, h1, h2⟩ | ⟨hp, ht, hb⟩
  · rw [bind_of_ok e1] at h
    have h : exitTrap (trapBody c) trapStatus k w s1 = (e, s) := by
      rcases hop with ⟨rfl, rfl⟩ | rfl
      · exact h
      · exact h
    obtain ⟨l, h3, h4⟩ := exitTrap_rest h2 h
    exact .inl ⟨rfl, _, _, l, h4, h1, h3⟩
  · unfold Sh.bind at h
    rw [e1] at h
    rcases hb with ⟨rfl, hb⟩ | ⟨⟨n, rfl⟩, hb⟩
    · simp only [finish, exitTrap] at h
      rw [ht] at h
      simp only [Prod.mk.injEq] at h
      rw [← h.1, ← h.2]
      exact .inr ⟨by simp, hp, hb⟩
    · simp only [finish] at h
      rw [ht] at h
      simp only [Prod.mk.injEq] at h
      rw [← h.1, ← h.2]
      exact .inr ⟨by simp, hp, hb⟩

/-! ### The file -/

theorem searchLoop_inv (ex : CStr → Bool) (arg : CStr) : ∀ (ds : List CStr) (cur : CStr), ex (searchLoop ex arg cur ds) = true → ds ≠ [] →
    ∃ before dir after, ds = before ++ dir :: after ∧ searchLoop ex arg cur ds = dir ++ b!"/" ++ arg ++ b!".conf" ∧ ∀ d ∈ before, ex (d ++ b!"/" ++ arg ++ b!".conf") = false
  | [], _, _, h => absurd rfl h
  | d :: ds, cur, h, _ => by
    unfold searchLoop at h ⊢
    dsimp only at h ⊢
    by_cases hd : ex (d ++ b!"/" ++ arg ++ b!".conf") = true
    · rw [if_pos hd] at h ⊢
      exact ⟨[], d, ds, rfl, rfl, by simp⟩
    · rw [if_neg hd] at h ⊢
      by_cases h0 : ds = []
      · subst h0
        exact absurd h hd
      obtain ⟨b, x, a, h1, h2, h3⟩ := searchLoop_inv ex arg ds _ h h0
      refine ⟨d :: b, x, a, by rw [h1]; rfl, h2, fun y hy => ?_⟩
      rcases List.mem_cons.1 hy with rfl | hy
      · simpa using hd
      · exact h3 y hy

theorem searchLoop_found (ex : CStr → Bool) (arg : CStr) (dir : CStr) (after : List CStr) (hx : ex (dir ++ b!"/" ++ arg ++ b!".conf") = true) :
    ∀ (before : List CStr) (cur : CStr), (∀ d ∈ before, ex (d ++ b!"/" ++ arg ++ b!".conf") = false) → searchLoop ex arg cur (before ++ dir :: after) = dir ++ b!"/" ++ arg ++ b!".conf"
  | [], cur, _ => by
    show searchLoop ex arg cur (dir :: after) = _
    unfold searchLoop
    dsimp only
    rw [if_pos hx]
  | d :: ds, cur, h => by
    show searchLoop ex arg cur (d :: (ds ++ dir :: after)) = _
    unfold searchLoop
    dsimp only
    rw [if_neg (by rw [h d (by simp)]; decide)]
    exact searchLoop_found ex arg dir after hx ds _ fun x hx => h x (List.mem_cons_of_mem _ hx)

theorem searchPaths_eq (p : Plat) : searchPaths p = confDirs p := by cases p <;> rfl

theorem confPath_fileOf {h : Host} {arg : CStr} (hx : h.fs.exists_ (confPath h arg) = true) : FileOf h.plat (fun p => h.fs.exists_ p = true) arg (confPath h arg) := by
  refine ⟨hx, fun hn => ?_, fun hn => ?_⟩
  · unfold confPath at hx ⊢
    rw [if_pos ((isName_iff arg).2 hn)] at hx ⊢
    obtain ⟨b, d, a, h1, h2, h3⟩ := searchLoop_inv h.fs.exists_ arg _ _ hx (by cases h.plat <;> simp [searchPaths])
    exact ⟨b, d, a, by rw [← searchPaths_eq]; exact h1, h2, fun x hx e => absurd (Eq.trans (Eq.symm e) (h3 x hx)) (by decide)⟩
  · unfold confPath
    rw [if_neg fun h => hn ((isName_iff arg).1 h)]

theorem fileOf_confPath {h : Host} {arg path : CStr} (hx : FileOf h.plat (fun p => h.fs.exists_ p = true) arg path) : confPath h arg = path := by
  obtain ⟨h1, h2, h3⟩ := hx
  unfold confPath
  by_cases hn : IsIfaceName arg
  · rw [if_pos ((isName_iff arg).2 hn)]
    obtain ⟨b, d, a, h4, rfl, h5⟩ := h2 hn
    rw [searchPaths_eq, h4]
    exact searchLoop_found _ _ _ _ h1 b _ fun x hx => by simpa using h5 x hx
  · rw [if_neg fun h => hn ((isName_iff arg).1 h)]
    exact (h3 hn).symm

theorem pathParts (path : CStr) : PathParts path (beforeLastSlash path) (afterLastSlash path) := by
  unfold PathParts beforeLastSlash afterLastSlash
  by_cases hs : c!"/" ∈ path
  · rw [if_pos hs]
    left
    have hne : ∀ x ∈ path.reverse.takeWhile (· ≠ c!"/"), x ≠ c!"/" := fun x hx => by simpa using List.mem_takeWhile_imp hx
    have e := List.takeWhile_append_dropWhile (p := (· ≠ c!"/")) (l := path.reverse)
    generalize path.reverse.takeWhile (· ≠ c!"/") = a at e hne
    have hd : ∃ t, path.reverse.dropWhile (· ≠ c!"/") = c!"/" :: t := by
      rcases hx : path.reverse.dropWhile (· ≠ c!"/") with _ | ⟨x, t⟩
      · rw [hx, List.append_nil] at e
        exact absurd rfl (hne _ (by rw [e]; simpa using hs))
      · have := List.head?_dropWhile_not (p := fun x => decide (x ≠ c!"/")) path.reverse
        rw [hx] at this
        simp at this
        exact ⟨t, by rw [this]⟩
    obtain ⟨t, ht⟩ := hd
    rw [ht] at e ⊢
    refine ⟨?_, fun hm => hne _ (List.mem_reverse.1 hm) rfl⟩
    have := congrArg List.reverse e
    rw [List.reverse_reverse] at this
    rw [← this]
    simp
  · rw [if_neg hs]
    refine .inr ⟨hs, rfl, ?_⟩
    rw [List.takeWhile_eq_self_iff.2, List.reverse_reverse]
    intro x hx
    have : x ≠ c!"/" := fun e => hs (by rw [← e]; exact List.mem_reverse.1 hx)
    simpa using this

theorem pathParts_unique {path d1 l1 d2 l2 : CStr} (h1 : PathParts path d1 l1) (h2 : PathParts path d2 l2) : d1 = d2 ∧ l1 = l2 := by
  rcases h1 with ⟨h1, h1'⟩ | ⟨h1, rfl, rfl⟩ <;> rcases h2 with ⟨h2, h2'⟩ | ⟨h2, rfl, rfl⟩
  · rw [h1] at h2
    rcases List.append_eq_append_iff.1 h2 with ⟨a, e1, e2⟩ | ⟨a, e1, e2⟩
    · cases a with
      | nil => simp at e1 e2; exact ⟨e1.symm, e2⟩
      | cons x a =>
        rw [List.cons_append, List.cons.injEq] at e2
        exact absurd (by rw [e2.2]; simp) h1'
    · cases a with
      | nil => simp at e1 e2; exact ⟨e1, e2.symm⟩
      | cons x a =>
        rw [List.cons_append, List.cons.injEq] at e2
        exact absurd (by rw [e2.2]; simp) h2'
  · exact absurd (by rw [h1]; simp) h2
  · exact absurd (by rw [h2]; simp) h1
  · exact ⟨rfl, rfl⟩

theorem resolved_iff (h : Host) (path file : CStr) : resolved h path = some file ↔ ReadAs h.plat h.fs.resolve h.fs.cd path file := by
  unfold resolved ReadAs
  cases h.plat with
  | darwin =>
    dsimp only
    constructor
    · intro e
      obtain ⟨d, h1, h2⟩ := Option.map_eq_some_iff.1 e
      exact ⟨_, _, d, pathParts path, h1, h2.symm⟩
    · rintro ⟨dir, last, d, h1, h2, rfl⟩
      obtain ⟨rfl, rfl⟩ := pathParts_unique h1 (pathParts path)
      rw [h2]; rfl
  | freebsd => dsimp only; rw [Option.some.injEq]; exact eq_comm
  | openbsd => dsimp only; rw [Option.some.injEq]; exact eq_comm

/-- What `parse_options` makes of its argument. -/
structure ParsesTo (h : Host) (arg : CStr) (p : Parsed) (path : CStr) (content : List UInt8) : Prop where
  file : FileOf h.plat (fun p => h.fs.exists_ p = true) arg path
  name : ifaceOf path = some p.iface
  reads : ReadAs h.plat h.fs.resolve h.fs.cd path p.configFile
  text : h.fs.content p.configFile = some content
  opts : parseConf content = some p.opts

theorem parseOptions_iff (h : Host) (arg : CStr) (p : Parsed) : parseOptions h arg = some p ↔ ∃ path content, ParsesTo h arg p path content := by
  constructor
  · intro e
    unfold parseOptions at e
    dsimp only at e
    split at e
    swap
    · cases e
    rename_i hx
    split at e
    · cases e
    rename_i iface hi
    split at e
    · cases e
    rename_i file hf
    split at e
    · cases e
    rename_i content hc
    split at e
    · cases e
    rename_i o ho
    cases e
    exact ⟨_, content, confPath_fileOf hx, hi, (resolved_iff _ _ _).1 hf, hc, ho⟩
  · rintro ⟨path, content, h1, h2, h3, h4, h5⟩
    have e := fileOf_confPath h1
    unfold parseOptions
    dsimp only
    rw [e, if_pos h1.1, h2, (resolved_iff _ _ _).2 h3]
    dsimp only
    rw [h4]
    dsimp only
    rw [h5]

end WG.Bsd
