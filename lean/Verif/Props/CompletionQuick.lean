import Verif.Model.CompletionQuick
import Verif.Props.Completion
import Verif.Props.QuickMain
import Verif.Spec.BsdMain
/-!
C100 (src/completion/wg-quick.bash-completion): what is offered for a command line of `wg-quick`.
-/
namespace WG.Props
open WG.CompletionQuick WG.Spec WG.Spec.Completion

namespace CompletionQuick

/-- Names the shell finds nothing in and that are one word. -/
def PlainFile (n : CStr) : Prop := n ≠ [] ∧ ∀ c ∈ n, isPlain c = true ∧ ¬ (c = 32 ∨ c = 9 ∨ c = 10)

/-- `n` names a file `n`EXT of the directory, and does not begin with a dot. -/
def InDir (env : CompletionQuick.Env) (dir ext n : CStr) : Prop := n ++ ext ∈ env.names dir ∧ n.head? ≠ some c!"."

theorem isSuffixOf_iff (a b : CStr) : a.isSuffixOf b = true ↔ ∃ t, b = t ++ a := by
  rw [List.isSuffixOf_iff_suffix]
  exact ⟨fun ⟨t, h⟩ => ⟨t, h.symm⟩, fun ⟨t, h⟩ => ⟨t, h.symm⟩⟩

theorem without_append (n ext : CStr) : without ext (n ++ ext) = n := by simp [without]

theorem expand_plain {env : CompletionQuick.Env} (he : Expands env.expand) {n : CStr} (h : PlainFile n) (cur : CStr) :
    compgenW env n cur = if cur.isPrefixOf n then [n] else [] := by
  rw [compgenW, he n (fun c hc => (h.2 c hc).1)]
  have : blankWords n [] = [n] := by
    have key : ∀ (m acc : CStr), (∀ c ∈ m, ¬ (c = 32 ∨ c = 9 ∨ c = 10)) → acc ++ m ≠ [] → blankWords m acc = [acc ++ m] := by
      intro m
      induction m with
      | nil => intro acc _ h; simp at h; simp [blankWords, h]
      | cons c m ih =>
        intro acc h1 _
        rw [blankWords, if_neg (h1 c (by simp)), ih _ (fun d hd => h1 d (by simp [hd])) (by simp)]
        simp
    simpa using key n [] (fun c hc => (h.2 c hc).2) (by simpa using h.1)
  rw [this]
  by_cases hp : cur.isPrefixOf n <;> simp [hp]

theorem glob_mem {env : CompletionQuick.Env} (he : Expands env.expand) (dir ext cur : CStr) (_ : ext.head? = some c!".")
    (hp : ∀ n, InDir env dir ext n → PlainFile n) (w : CStr) :
    w ∈ ((glob env dir ext).flatMap fun n => compgenW env (without ext n) cur) ↔ InDir env dir ext w ∧ cur <+: w := by
  have dot : ∀ n : CStr, (n ++ ext).head? ≠ some c!"." → n.head? ≠ some c!"." := by
    intro n h hn
    cases n with
    | nil => cases hn
    | cons c n => exact h hn
  simp only [List.mem_flatMap, glob, List.mem_filter, Bool.and_eq_true, bne_iff_ne, ne_eq]
  constructor
  · rintro ⟨f, ⟨h1, h2, h3⟩, hw⟩
    obtain ⟨n, rfl⟩ := (isSuffixOf_iff _ _).1 h2
    have hd : InDir env dir ext n := ⟨h1, dot n h3⟩
    rw [without_append, expand_plain he (hp n hd)] at hw
    split at hw
    · rename_i hpre
      simp only [List.mem_singleton] at hw
      subst hw
      exact ⟨hd, List.isPrefixOf_iff_prefix.1 hpre⟩
    · cases hw
  · rintro ⟨hd, hpre⟩
    have hne := (hp w hd).1
    refine ⟨w ++ ext, ⟨hd.1, (isSuffixOf_iff _ _).2 ⟨w, rfl⟩, ?_⟩, ?_⟩
    · have := hd.2
      cases w with
      | nil => exact absurd rfl hne
      | cons c w => exact this
    · rw [without_append, expand_plain he (hp w hd), if_pos (List.isPrefixOf_iff_prefix.2 hpre)]
      simp

end CompletionQuick
open CompletionQuick

/-- C100. After `wg-quick up`: offered are the names of the configurations in the directories wg-quick looks into, the files here that end with `.conf`, and directories. -/
theorem c100_up (env : CompletionQuick.Env) (he : Expands env.expand) (cur : CStr) (hp : ∀ dir n, InDir env dir b!".conf" n → PlainFile n) (w : CStr) :
    w ∈ complete env [b!"wg-quick", b!"up", cur] 2 ↔
      (∃ dir ∈ searchPaths env, InDir env dir b!".conf" w ∧ cur <+: w) ∨ (w ∈ env.files cur ∧ ∃ t, w = t ++ b!".conf") ∨ w ∈ env.directories cur := by
  have e : complete env [b!"wg-quick", b!"up", cur] 2 = ((searchPaths env).flatMap fun p => (glob env p b!".conf").flatMap fun n => compgenW env (without b!".conf" n) cur) ++
        (env.files cur).filter (fun f => b!".conf".isSuffixOf f) ++ env.directories cur := rfl
  rw [e]
  simp only [List.mem_append, List.mem_flatMap (l := searchPaths env), List.mem_filter, isSuffixOf_iff, or_assoc]
  refine or_congr ?_ Iff.rfl
  exact exists_congr fun dir => and_congr Iff.rfl (glob_mem he dir b!".conf" cur rfl (hp dir) w)

theorem contains_iff (t part : CStr) : contains t part = true ↔ part <:+: t := by
  induction t with
  | nil => simp [contains]
  | cons c r ih => simp only [contains, Bool.or_eq_true, List.isPrefixOf_iff_prefix, ih, List.infix_cons_iff]

theorem contains_false (t part : CStr) : contains t part = false ↔ ¬ part <:+: t := by
  rw [← contains_iff, Bool.not_eq_true]

/-- The system named by `$OSTYPE`. -/
def IsOs (ostype : CStr) : Bsd.Plat → Prop
  | .freebsd => b!"freebsd" <:+: ostype ∧ ¬ b!"openbsd" <:+: ostype ∧ ¬ b!"darwin" <:+: ostype
  | .openbsd => b!"openbsd" <:+: ostype ∧ ¬ b!"freebsd" <:+: ostype ∧ ¬ b!"darwin" <:+: ostype
  | .darwin => b!"darwin" <:+: ostype ∧ ¬ b!"freebsd" <:+: ostype ∧ ¬ b!"openbsd" <:+: ostype

/-- C100. The directories are those the script of each system looks into. -/
theorem c100_paths (env : CompletionQuick.Env) :
    (∀ plat, IsOs env.ostype plat → searchPaths env = Spec.Bsd.confDirs plat) ∧
    (¬ b!"freebsd" <:+: env.ostype → ¬ b!"darwin" <:+: env.ostype → searchPaths env = [b!"/etc/wireguard"]) := by
  refine ⟨?_, ?_⟩
  · intro plat h
    cases plat <;> simp only [IsOs, ← contains_iff] at h <;> simp [searchPaths, h, Spec.Bsd.confDirs]
  · intro h1 h2
    rw [← contains_false] at h1 h2
    simp [searchPaths, h1, h2]

/-- C100. On Linux: a valid name of an interface that is offered from there has a file, and `wg-quick up` reads that file; every name with a file that does not begin with a dot is offered. -/
theorem c100_accepted (env : CompletionQuick.Env) (he : Expands env.expand) (hos : ¬ b!"freebsd" <:+: env.ostype ∧ ¬ b!"darwin" <:+: env.ostype)
    (fs : Quick.Fs) (hfs : ∀ n, b!"/" <+: n ∨ (fs.exists_ (b!"/etc/wireguard/" ++ n) = true ↔ n ∈ env.names b!"/etc/wireguard"))
    (cur : CStr) (hp : ∀ dir n, InDir env dir b!".conf" n → PlainFile n) (n : CStr) (hn : Quick.IsIfaceName n) :
    (InDir env b!"/etc/wireguard" b!".conf" n → ∃ path, fileFor n path ∧ fs.exists_ path = true ∧ NamedIn path n) ∧
    ((∃ path, fileFor n path ∧ fs.exists_ path = true) → n.head? ≠ some c!"." → cur <+: n → n ∈ complete env [b!"wg-quick", b!"up", cur] 2) := by
  have hslash : ¬ b!"/" <+: n ++ b!".conf" := by
    rintro ⟨t, ht⟩
    cases n with
    | nil => exact absurd hn.1 (by simp)
    | cons c r =>
      have := hn.2.2 c (by simp)
      simp only [List.cons_append, List.nil_append, List.cons.injEq] at ht
      rw [← ht.1] at this
      exact absurd this (by decide)
  have hex := (hfs (n ++ b!".conf")).resolve_left hslash
  constructor
  · intro hd
    refine ⟨b!"/etc/wireguard/" ++ n ++ b!".conf", ⟨fun _ => rfl, fun h => absurd hn h⟩, ?_, hn, .inr ⟨b!"/etc/wireguard", by simp⟩⟩
    rw [List.append_assoc]
    exact hex.2 hd.1
  · rintro ⟨path, hf, hx⟩ hdot hpre
    rw [hf.1 hn, List.append_assoc] at hx
    refine (c100_up env he cur hp n).2 (.inl ⟨_, ?_, ⟨hex.1 hx, hdot⟩, hpre⟩)
    rw [(c100_paths env).2 hos.1 hos.2]
    simp

/-- C100. After `wg-quick down`: on OpenBSD and macOS the interfaces whose names wg-quick has noted in `/var/run/wireguard`; elsewhere those `wg show interfaces` prints. -/
theorem c100_down (env : CompletionQuick.Env) (he : Expands env.expand) (cur : CStr) :
    ((b!"openbsd" <:+: env.ostype ∨ b!"darwin" <:+: env.ostype) → (∀ n, InDir env b!"/var/run/wireguard" b!".name" n → PlainFile n) →
      ∀ w, w ∈ complete env [b!"wg-quick", b!"down", cur] 2 ↔ InDir env b!"/var/run/wireguard" b!".name" w ∧ cur <+: w) ∧
    (¬ b!"openbsd" <:+: env.ostype → ¬ b!"darwin" <:+: env.ostype →
      ∀ (senv : ShowEnv) (ipc : ShowIpc) (names : List CStr), (∀ n ∈ names, PlainFile n) → ipc.list = some names → env.interfaces = (showMain senv ipc [b!"interfaces"]).out →
        complete env [b!"wg-quick", b!"down", cur] 2 = startingWith cur names) := by
  have e : complete env [b!"wg-quick", b!"down", cur] 2 = if contains env.ostype b!"openbsd" ∨ contains env.ostype b!"darwin" then
        (glob env b!"/var/run/wireguard" b!".name").flatMap fun n => compgenW env (without b!".name" n) cur
      else compgenW env (Completion.substituted env.interfaces) cur := rfl
  constructor
  · intro hos hp w
    rw [← contains_iff, ← contains_iff] at hos
    rw [e, if_pos hos]
    exact glob_mem he _ _ cur rfl hp w
  · intro h1 h2 senv ipc names hn hl ho
    rw [← contains_false] at h1 h2
    rw [e, if_neg (by simp [h1, h2])]
    have := c97_interfaces ⟨env.interfaces, fun _ => [], env.expand⟩ he senv ipc names (fun n h => hn n h) hl ho b!"set" cur (by decide)
    rw [if_neg (by decide), List.append_nil] at this
    have h3 : Completion.complete ⟨env.interfaces, fun _ => [], env.expand⟩ [b!"wg", b!"set", cur] 2 =
        .words (compgenW env (Completion.substituted env.interfaces ++ []) cur) := rfl
    rw [List.append_nil] at h3
    rw [h3] at this
    exact Completion.Offer.words.inj this

/-- C100. The operations offered are operations of wg-quick. -/
theorem c100_operations (env : CompletionQuick.Env) (he : Expands env.expand) (cur : CStr) :
    complete env [b!"wg-quick", cur] 1 = startingWith cur [b!"up", b!"down"] ∧ ∀ op ∈ [b!"up", b!"down"], IsOperation op := by
  constructor
  · show compgenW env _ _ = _
    rw [compgenW, he _ (by decide)]
    rfl
  · intro op h
    simp only [List.mem_cons, List.not_mem_nil, or_false] at h
    rcases h with rfl | rfl
    · exact .inl rfl
    · exact .inr (.inl rfl)

/-! ### Findings -/

/-- C100 is not all one could wish: two operations of wg-quick are never offered, nor anything after them. -/
theorem c100_counterexample_operations (env : CompletionQuick.Env) (he : Expands env.expand) (cur : CStr) : ∀ op ∈ [b!"save", b!"strip"],
    IsOperation op ∧ op ∉ complete env [b!"wg-quick", []] 1 ∧ complete env [b!"wg-quick", op, cur] 2 = [] := by
  intro op h
  rw [(c100_operations env he []).1]
  simp only [List.mem_cons, List.not_mem_nil, or_false] at h
  rcases h with rfl | rfl
  · exact ⟨.inr (.inr (.inl rfl)), by decide, rfl⟩
  · exact ⟨.inr (.inr (.inr rfl)), by decide, rfl⟩

/-- A file of the current directory is offered under its name, but with up to fifteen characters wg-quick takes that for the name of an interface and reads another file. -/
theorem c100_counterexample_here (env : CompletionQuick.Env) (cur : CStr) (h : b!"wg0.conf" ∈ env.files cur) :
    b!"wg0.conf" ∈ complete env [b!"wg-quick", b!"up", cur] 2 ∧ ∀ path, fileFor b!"wg0.conf" path → path = b!"/etc/wireguard/wg0.conf.conf" := by
  constructor
  · show _ ∈ _ ++ _ ++ _
    simp only [List.mem_append, List.mem_filter]
    exact .inl (.inr ⟨h, by decide⟩)
  · intro path hf
    exact hf.1 ((Quick.isName_iff _).1 (by decide))

/-- A configuration whose name is too long for an interface is offered, but wg-quick looks for a file of that name in the current directory. -/
theorem c100_counterexample_long (env : CompletionQuick.Env) (he : Expands env.expand) (n : CStr) (hp : ∀ dir n, InDir env dir b!".conf" n → PlainFile n)
    (hd : InDir env b!"/etc/wireguard" b!".conf" n) (hl : 15 < n.length) :
    n ∈ complete env [b!"wg-quick", b!"up", []] 2 ∧ ∀ path, fileFor n path → path = n := by
  refine ⟨(c100_up env he [] hp n).2 (.inl ⟨_, by simp [searchPaths], hd, by simp⟩), ?_⟩
  intro path hf
  exact hf.2 fun h => absurd h.2.1 (by omega)

/-- The name of a file in `/etc/wireguard` is given to the shell for expansion: the command in it is run. -/
theorem c100_counterexample_expansion (env : CompletionQuick.Env) (h : b!"$(reboot).conf" ∈ env.names b!"/etc/wireguard") :
    ∀ w ∈ env.expand b!"$(reboot)", w ∈ complete env [b!"wg-quick", b!"up", []] 2 := by
  intro w hw
  show _ ∈ _ ++ _ ++ _
  simp only [List.mem_append, List.mem_flatMap]
  refine .inl (.inl ⟨b!"/etc/wireguard", by simp [searchPaths], b!"$(reboot).conf", ?_, ?_⟩)
  · simp only [glob, List.mem_filter]
    exact ⟨h, by decide⟩
  · rw [compgenW, show without b!".conf" b!"$(reboot).conf" = b!"$(reboot)" by decide]
    simpa using hw

/-- An interface whose name contains `=`, at which bash breaks words, is not completed from there on. -/
theorem c100_counterexample_equals (env : CompletionQuick.Env) : Quick.IsIfaceName b!"a=b" ∧
    complete env (b!"wg-quick" :: b!"up" :: wordsOf usualBreaks b!"a=b") 4 = [] := ⟨(Quick.isName_iff _).1 (by decide), rfl⟩

/-! ### Examples -/

/-- `/etc/wireguard` with two configurations and another file. -/
def exQuickComp : CompletionQuick.Env where
  ostype := b!"linux-gnu"
  names d := if d = b!"/etc/wireguard" then [b!"home.conf", b!"keys", b!"work.conf"] else []
  files _ := []
  directories _ := []
  interfaces := b!"wg0 wg1\n"
  expand t := blankWords t []

theorem exQuickComp_plain : ∀ dir n, InDir exQuickComp dir b!".conf" n → PlainFile n := by
  rintro dir n ⟨h, -⟩
  simp only [exQuickComp] at h
  split at h
  · simp only [List.mem_cons, List.not_mem_nil, or_false] at h
    rcases h with h | h | h
    · rw [show n = b!"home" from List.append_cancel_right (bs := b!".conf") h]; unfold PlainFile; decide
    · have := congrArg (fun l : CStr => l.getLast?) h
      simp at this
    · rw [show n = b!"work" from List.append_cancel_right (bs := b!".conf") h]; unfold PlainFile; decide
  · cases h

example : complete exQuickComp [b!"wg-quick", b!"up", b!"w"] 2 = [b!"work"] ∧ complete exQuickComp [b!"wg-quick", b!"up", []] 2 = [b!"home", b!"work"] ∧
    complete exQuickComp [b!"wg-quick", b!"down", b!"wg"] 2 = [b!"wg0", b!"wg1"] := by decide +kernel

example : ¬ b!"freebsd" <:+: exQuickComp.ostype ∧ ¬ b!"darwin" <:+: exQuickComp.ostype ∧ IsOs b!"freebsd14.1" .freebsd ∧ IsOs b!"darwin23" .darwin ∧
    IsOs b!"openbsd7.5" .openbsd := by
  unfold IsOs; decide

end WG.Props
