import Verif.Proof.WgJsonText
import Verif.Props.Dump
/-! C91: contrib/json/wg-json. -/
namespace WG.Props
open WG WG.Spec

/-- The interfaces whose state could be read, in order. -/
def devicesRead (ipc : ShowIpc) (names : List CStr) : List Device := names.filterMap fun n => if (ipc.get n).1 < 0 then none else (ipc.get n).2

theorem showAllLoop_dump (env : ShowEnv) (ipc : ShowIpc) (names : List CStr) (ret : Nat) (hget : ∀ n ∈ names, (ipc.get n).1 < 0 ∨ (ipc.get n).2 ≠ none) :
    (showAllLoop env ipc (some b!"dump") ret names).out = (devicesRead ipc names).flatMap (dumpOf (shownTexts env)) := by
  induction names generalizing ret with
  | nil => rfl
  | cons n names ih =>
    have ih := fun r => ih r fun m hm => hget m (by simp [hm])
    by_cases h : (ipc.get n).1 < 0
    · simp only [showAllLoop, devicesRead, List.filterMap_cons, h, if_true]
      exact ih ret
    · simp only [showAllLoop, devicesRead, List.filterMap_cons, h, if_false]
      cases hd : (ipc.get n).2 with
      | none => exact absurd hd ((hget n (by simp)).resolve_left h)
      | some d =>
        simp only [List.flatMap_cons]
        rw [(c34_dump_is_table env d true).1]
        simp only [ih 0]
        rfl

/-- C91. What `wg-json` prints is one JSON text and a line feed. It means an object with one member for each interface `wg show all dump`
could read, in order, holding exactly the fields that are set — keys, port, mark; and for each peer preshared key, endpoint, handshake, counters and
keepalive — and the allowed IPs as an array of all of them in order. -/
theorem c91_json (env : ShowEnv) (ipc : ShowIpc) (names : List CStr) (hl : ipc.list = some names)
    (hget : ∀ n ∈ names, (ipc.get n).1 < 0 ∨ (ipc.get n).2 ≠ none)
    (hr : ∀ d ∈ devicesRead ipc names, JsonReady (shownTexts env) d) (hn : ((devicesRead ipc names).map (·.name)).Nodup) :
    ∃ t, WgJson.run (showMain env ipc [b!"all", b!"dump"]).out = some (t ++ b!"\n") ∧ IsJson (devicesJson (shownTexts env) (devicesRead ipc names)) t := by
  refine ⟨WgJson.devicesText (shownTexts env) (devicesRead ipc names), ?_, WgJson.devices_json hr⟩
  rw [← WgJson.run_devices _ hr hn]
  congr 1
  show (showAll env ipc (some b!"dump")).out = _
  simp only [showAll, hl]
  exact showAllLoop_dump env ipc names _ hget

/-- C91. A JSON text has an even number of quotes: used to show that a text is not JSON. -/
theorem quotes_even {v : Json} {t : List UInt8} (h : IsJson v t) : t.count 34 % 2 = 0 := by
  have ws : ∀ w, JsonWs w → w.count 34 = 0 := by
    intro w hw
    rw [List.count_eq_zero]
    intro hm
    have := hw _ hm
    revert this; decide
  have chars : ∀ s, JsonChars s → s.count 34 = 0 := by
    intro s hs
    rw [List.count_eq_zero]
    intro hm
    exact (hs _ hm).2.2.1 rfl
  have join : ∀ l : List (List UInt8), (∀ x ∈ l, x.count 34 % 2 = 0) → (joinWith b!"," l).count 34 % 2 = 0 := by
    intro l hl
    induction l with
    | nil => rfl
    | cons a l ih =>
      have ha := hl a (by simp)
      have ih := ih fun x hx => hl x (by simp [hx])
      cases l with
      | nil => exact ha
      | cons b l =>
        have c : (b!"," : List UInt8).count 34 = 0 := by decide
        simp only [joinWith, List.count_append, c] at ih ⊢
        omega
  have q : (b!"\"" : List UInt8).count 34 = 1 := by decide
  have c1 : (b!"[" : List UInt8).count 34 = 0 := by decide
  have c2 : (b!"]" : List UInt8).count 34 = 0 := by decide
  have c3 : (b!"{" : List UInt8).count 34 = 0 := by decide
  have c4 : (b!"}" : List UInt8).count 34 = 0 := by decide
  have c5 : (b!":" : List UInt8).count 34 = 0 := by decide
  induction h with
  | str s hs => simp only [List.count_append, q, chars s hs]
  | num n =>
    rw [List.count_eq_zero.2]
    intro hm
    have := decimal_digit n _ hm
    revert this; decide
  | arrEmpty w hw => simp only [List.count_append, c1, c2, ws w hw]
  | objEmpty w hw => simp only [List.count_append, c3, c4, ws w hw]
  | arr items _ hw _ ih =>
    simp only [List.count_append, c1, c2]
    have := join (items.map (·.2.all)) (by
      intro x hx
      obtain ⟨i, hi, rfl⟩ := List.mem_map.1 hx
      have := ih i hi
      simp only [Slot.all, List.count_append, ws _ (hw i hi).1, ws _ (hw i hi).2]
      omega)
    omega
  | obj items _ hw _ ih =>
    simp only [List.count_append, c3, c4]
    have := join (items.map (·.2.all)) (by
      intro x hx
      obtain ⟨i, hi, rfl⟩ := List.mem_map.1 hx
      have := ih i hi
      obtain ⟨h1, h2, h3, h4, h5⟩ := hw i hi
      simp only [Member.all, List.count_append, chars _ h1, ws _ h2, ws _ h3, ws _ h4, ws _ h5, q, c5]
      omega)
    omega

/-- C91. A quote in the name of an interface — Linux accepts it — makes the output something else than JSON. -/
theorem c91_counterexample_name :
    ∃ out, WgJson.run (dumpOf (shownTexts stdShow) { name := b!"w\"0", flags := {} }) = some out ∧ ∀ v, ¬ IsJson v out := by
  refine ⟨_, rfl, fun v h => ?_⟩
  have := quotes_even h
  revert this
  decide +kernel

/-- C91. When `wg show all dump` fails, `wg-json` prints the same as when there are no interfaces. -/
theorem c91_counterexample_failure (env : ShowEnv) (get : CStr → Int × Option Device) :
    (showMain env ⟨none, get⟩ [b!"all", b!"dump"]).end_ = .ok 1 ∧ WgJson.run (showMain env ⟨none, get⟩ [b!"all", b!"dump"]).out = some b!"{\n}\n" := by
  refine ⟨rfl, ?_⟩
  show WgJson.run [] = _
  decide

-- the hypotheses of C91 hold for two interfaces and one that cannot be read
def jsonIpc : ShowIpc where
  list := some [b!"wg0", b!"gone", b!"wg1"]
  get n := if n = b!"wg0" then (0, some showSample) else if n = b!"wg1" then (0, some { name := b!"wg1", flags := {} }) else (-19, none)

theorem jsonIpc_read : devicesRead jsonIpc [b!"wg0", b!"gone", b!"wg1"] = [showSample, { name := b!"wg1", flags := {} }] := by rfl

theorem jsonIpc_ready : ∀ d ∈ devicesRead jsonIpc [b!"wg0", b!"gone", b!"wg1"], JsonReady (shownTexts stdShow) d := by
  rw [jsonIpc_read]
  intro d hd
  simp only [List.mem_cons, List.not_mem_nil, or_false] at hd
  rcases hd with rfl | rfl
  · exact ⟨by decide, by decide +kernel, by decide +kernel, by decide +kernel⟩
  · exact ⟨by decide, by simp, by simp, by simp⟩

example : ∃ t, WgJson.run (showMain stdShow jsonIpc [b!"all", b!"dump"]).out = some (t ++ b!"\n") ∧
    IsJson (devicesJson (shownTexts stdShow) [showSample, { name := b!"wg1", flags := {} }]) t := by
  have := c91_json stdShow jsonIpc _ rfl (by decide) jsonIpc_ready (by rw [jsonIpc_read]; decide)
  rwa [jsonIpc_read] at this

end WG.Props
