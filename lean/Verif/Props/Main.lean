import Verif.Model.Main
/-!
C45: the command line of `wg`.
-/
namespace WG

/-- The words that name subcommands (wg.8). -/
def commandWords : List CStr := [b!"show", b!"showconf", b!"set", b!"setconf", b!"addconf", b!"syncconf", b!"genkey", b!"genpsk", b!"pubkey"]

/-- C45. Without arguments, `wg` does what `wg show` does. -/
theorem c45_default_is_show (m : MainEnv) (prog : CStr) : wgMain m prog [] = wgMain m prog [b!"show"] := rfl

/-- C45. Each subcommand's name runs it, with the arguments that follow (`addconf` and `syncconf` run the code of `setconf` and `genpsk` that
of `genkey`, told apart by the name). -/
theorem c45_subcommands (m : MainEnv) (prog : CStr) (args : List CStr) :
    wgMain m prog (b!"show" :: args) = .show (showMain m.showEnv m.showIpc args) ∧
    wgMain m prog (b!"showconf" :: args) = .show (showconfMain m.out m.showIpc args) ∧
    wgMain m prog (b!"set" :: args) = .config (setMain m.env m.ipc (b!"set" :: args)) ∧
    wgMain m prog (b!"setconf" :: args) = .config (setconfMain m.env m.sort m.ipc (b!"setconf" :: args)) ∧
    wgMain m prog (b!"addconf" :: args) = .config (setconfMain m.env m.sort m.ipc (b!"addconf" :: args)) ∧
    wgMain m prog (b!"syncconf" :: args) = .config (setconfMain m.env m.sort m.ipc (b!"syncconf" :: args)) ∧
    wgMain m prog (b!"genkey" :: args) = .key (genkeyMain m.rand m.mode m.junk m.strerr prog (b!"genkey" :: args)) ∧
    wgMain m prog (b!"genpsk" :: args) = .key (genkeyMain m.rand m.mode m.junk m.strerr prog (b!"genpsk" :: args)) ∧
    wgMain m prog (b!"pubkey" :: args) = .key (pubkeyMain m.generatePublic m.env.sc prog m.stdin (b!"pubkey" :: args)) := by
  refine ⟨?_, ?_, ?_, ?_, ?_, ?_, ?_, ?_, ?_⟩ <;>
  · simp only [wgMain]
    rw [if_neg (by rintro ⟨-, h⟩; revert h; decide), if_neg (by rintro ⟨-, h⟩; revert h; decide)]
    rfl

theorem findSub_none (w : CStr) (h : w ∉ commandWords) : findSub w subcommands = none := by
  simp only [commandWords, List.mem_cons, List.not_mem_nil, or_false, not_or] at h
  obtain ⟨h1, h2, h3, h4, h5, h6, h7, h8, h9⟩ := h
  simp only [subcommands, findSub, if_neg h1, if_neg h2, if_neg h3, if_neg h4, if_neg h5, if_neg h6, if_neg h7, if_neg h8, if_neg h9]

/-- C45. The version and the usage are printed for exactly the documented words, alone on the command line. -/
theorem c45_version_and_help (m : MainEnv) (prog : CStr) (args : List CStr) :
    (wgMain m prog args = .text ⟨versionText, [], 0⟩ ↔ args = [b!"-v"] ∨ args = [b!"--version"] ∨ args = [b!"version"]) ∧
    (wgMain m prog args = .text ⟨mainUsage prog, [], 0⟩ ↔ args = [b!"-h"] ∨ args = [b!"--help"] ∨ args = [b!"help"]) := by
  have hne : versionText ≠ mainUsage prog := by
    intro h
    have := congrArg List.head? h
    revert this
    simp [versionText, mainUsage]
  have hsub : ∀ f argv o, runSub m prog f argv ≠ .text o := by
    intro f argv o
    cases f <;> simp [runSub]
  cases args with
  | nil => constructor <;> simp [wgMain, hsub]
  | cons w rest =>
    simp only [wgMain]
    by_cases hv : rest = [] ∧ (w = b!"-v" ∨ w = b!"--version" ∨ w = b!"version")
    · rw [if_pos hv]
      obtain ⟨rfl, hv⟩ := hv
      constructor
      · simpa using hv
      · simp only [MainRun.text.injEq, Out.mk.injEq, hne, false_and, false_iff]
        rcases hv with rfl | rfl | rfl <;> decide
    · rw [if_neg hv]
      by_cases hh : rest = [] ∧ (w = b!"-h" ∨ w = b!"--help" ∨ w = b!"help")
      · rw [if_pos hh]
        obtain ⟨rfl, hh⟩ := hh
        constructor
        · simp only [MainRun.text.injEq, Out.mk.injEq, hne.symm, false_and, false_iff]
          rcases hh with rfl | rfl | rfl <;> decide
        · simpa using hh
      · rw [if_neg hh]
        have h1 : ∀ o, (match findSub w subcommands with
            | some f => runSub m prog f (w :: rest)
            | none => .text ⟨[], b!"Invalid subcommand: `" ++ w ++ b!"'\n" ++ mainUsage prog, 1⟩) ≠ .text ⟨o, [], 0⟩ := by
          intro o
          cases findSub w subcommands with
          | none => simp
          | some f => exact hsub _ _ _
        constructor
        · refine iff_of_false (h1 _) ?_
          rintro (h | h | h) <;> · cases h; exact hv (by decide)
        · refine iff_of_false (h1 _) ?_
          rintro (h | h | h) <;> · cases h; exact hh (by decide)

/-- C45. Any other word (also the words for version and usage when more follows) is refused: the word and the usage on standard error, exit
status 1; no subcommand runs. -/
theorem c45_other_words (m : MainEnv) (prog w : CStr) (rest : List CStr) (hw : w ∉ commandWords)
    (hv : ¬ (rest = [] ∧ w ∈ [b!"-v", b!"--version", b!"version", b!"-h", b!"--help", b!"help"])) :
    wgMain m prog (w :: rest) = .text ⟨[], b!"Invalid subcommand: `" ++ w ++ b!"'\n" ++ mainUsage prog, 1⟩ := by
  simp only [wgMain]
  rw [if_neg, if_neg, findSub_none w hw]
  · rintro ⟨h1, h2⟩
    exact hv ⟨h1, by rcases h2 with rfl | rfl | rfl <;> decide⟩
  · rintro ⟨h1, h2⟩
    exact hv ⟨h1, by rcases h2 with rfl | rfl | rfl <;> decide⟩

/-- The usage names every subcommand. -/
theorem c45_usage_lists_subcommands (prog : CStr) : subcommands.map (·.1) = commandWords ∧
    ∀ s ∈ subcommands, ∃ pre post, mainUsage prog = pre ++ (b!"  " ++ s.1 ++ b!": " ++ s.2.2 ++ b!"\n") ++ post := by
  refine ⟨rfl, fun s hs => ?_⟩
  obtain ⟨a, b, h⟩ := List.append_of_mem hs
  simp only [mainUsage, h, List.flatMap_append, List.flatMap_cons]
  exact ⟨b!"Usage: " ++ prog ++ b!" <cmd> [<args>]\n\n" ++ b!"Available subcommands:\n" ++ a.flatMap (fun s => b!"  " ++ s.1 ++ b!": " ++ s.2.2 ++ b!"\n"),
    b.flatMap (fun s => b!"  " ++ s.1 ++ b!": " ++ s.2.2 ++ b!"\n") ++ b!"You may pass `--help' to any of these subcommands to view usage.\n", by simp⟩

example : b!"showconfig" ∉ commandWords ∧ ¬ (([] : List CStr) = [] ∧ b!"showconfig" ∈ [b!"-v", b!"--version", b!"version", b!"-h", b!"--help", b!"help"]) := by decide
example : b!"version" ∉ commandWords ∧ ¬ ([b!"x"] = [] ∧ b!"version" ∈ [b!"-v", b!"--version", b!"version", b!"-h", b!"--help", b!"help"]) := by decide

end WG
