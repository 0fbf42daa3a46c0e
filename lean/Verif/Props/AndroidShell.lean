import Verif.Props.AndroidUp
import Verif.Props.AndroidParse
import Verif.Spec.Shell
/-!
C88: the commands that wg-quick for Android gives to the shell.
-/
namespace WG.Android
open WG.Spec WG.Spec.Android WG.Spec.Quick
open WG.Spec.Shell (lex plain active Runs)
open WG.Quick (words_unique isNameserver isNameserver_iff mtuIn devIn endpointHost endpointHost_iff devIn_iff)

/-! ### Pieces of a command line -/

/-- `s` adds these words to a line whose last word so far is `cur`, and leaves a last word. -/
def Adds (cur : Option CStr) (s : CStr) (ws : List CStr) (cur' : Option CStr) : Prop := ∀ t, lex .bare cur (s ++ t) = (lex .bare cur' t).map (ws ++ ·)

theorem Adds.nil {cur : Option CStr} : Adds cur [] [] cur := fun t => by simp

theorem Adds.append {a b c : Option CStr} {s s' : CStr} {ws ws' : List CStr} (h : Adds a s ws b) (h' : Adds b s' ws' c) : Adds a (s ++ s') (ws ++ ws') c := by
  intro t
  rw [List.append_assoc, h, h', Option.map_map]
  congr 1
  funext x
  simp

theorem Adds.blank {cur : Option CStr} : Adds cur b!" " cur.toList none := fun t => by simp [lex]

theorem Adds.bare {w : CStr} : ∀ (_ : ∀ c ∈ w, plain c = true) {v : CStr}, Adds (some v) w [] (some (v ++ w)) := by
  induction w with
  | nil => intro _ v; simpa using Adds.nil
  | cons c w ih =>
    intro h v t
    have hc := h c (by simp)
    have : c ≠ 32 ∧ c ≠ c!"'" ∧ c ≠ c!"\"" := by revert hc; generalize c = c; revert c; apply forall_u8; decide +kernel
    have h2 := ih (fun x hx => h x (by simp [hx])) (v := v ++ [c]) t
    simp only [List.cons_append, lex, this.1, this.2.1, this.2.2, if_false, hc, if_true, Option.getD_some]
    rw [h2]; simp

theorem Adds.bare' {w : CStr} (hne : w ≠ []) (h : ∀ c ∈ w, plain c = true) {cur : Option CStr} : Adds cur w [] (some (cur.getD [] ++ w)) := by
  cases cur with
  | some v => exact Adds.bare h
  | none =>
    cases w with
    | nil => exact absurd rfl hne
    | cons c w =>
      intro t
      have hc := h c (by simp)
      have : c ≠ 32 ∧ c ≠ c!"'" ∧ c ≠ c!"\"" := by revert hc; generalize c = c; revert c; apply forall_u8; decide +kernel
      simp only [List.cons_append, lex, this.1, this.2.1, this.2.2, if_false, hc, if_true, Option.getD_none]
      have h2 := Adds.bare (fun x hx => h x (by simp [hx])) (w := w) (v := [] ++ [c]) t
      rw [h2]; simp

theorem lex_single (q : CStr) (h : c!"'" ∉ q) (t : CStr) : ∀ v, lex .single (some v) (q ++ c!"'" :: t) = lex .bare (some (v ++ q)) t := by
  induction q with
  | nil => intro v; simp [lex]
  | cons c q ih =>
    intro v
    have hc : c ≠ c!"'" := fun e => h (by simp [e])
    simp only [List.cons_append, lex, hc, if_false, Option.getD_some]
    rw [ih (fun hq => h (by simp [hq]))]; simp

theorem Adds.single {q : CStr} (h : c!"'" ∉ q) {cur : Option CStr} : Adds cur (b!"'" ++ q ++ b!"'") [] (some (cur.getD [] ++ q)) := by
  intro t
  simp only [List.append_assoc, List.cons_append, List.nil_append, lex]
  rw [if_neg (by decide), if_pos trivial, lex_single q h]; simp

theorem lex_double (q : CStr) (h : ∀ c ∈ q, c ≠ c!"\"" ∧ active c = false) (t : CStr) : ∀ v, lex .double (some v) (q ++ c!"\"" :: t) = lex .bare (some (v ++ q)) t := by
  induction q with
  | nil => intro v; simp [lex]
  | cons c q ih =>
    intro v
    obtain ⟨h1, h2⟩ := h c (by simp)
    simp only [List.cons_append, lex, h1, h2, if_false, Option.getD_some]
    rw [if_neg (by simp), ih (fun x hx => h x (by simp [hx]))]; simp

theorem Adds.double {q : CStr} (h : ∀ c ∈ q, c ≠ c!"\"" ∧ active c = false) {cur : Option CStr} : Adds cur (b!"\"" ++ q ++ b!"\"") [] (some (cur.getD [] ++ q)) := by
  intro t
  simp only [List.append_assoc, List.cons_append, List.nil_append, lex]
  rw [if_neg (by decide), if_neg (by decide), if_pos trivial, lex_double q h]; simp

/-- The shell only splits `s`. -/
def Clean (s : CStr) : Prop := ∀ cur, ∃ ws cur', Adds cur s ws cur'

theorem Clean.nil : Clean [] := fun _ => ⟨_, _, .nil⟩
theorem Clean.append {s s' : CStr} (h : Clean s) (h' : Clean s') : Clean (s ++ s') := by
  intro cur
  obtain ⟨ws, c1, h1⟩ := h cur
  obtain ⟨ws', c2, h2⟩ := h' c1
  exact ⟨_, _, h1.append h2⟩
theorem Clean.blank : Clean b!" " := fun _ => ⟨_, _, .blank⟩
theorem Clean.bare {w : CStr} (h : ∀ c ∈ w, plain c = true) : Clean w := by
  intro cur
  by_cases hw : w = []
  · subst hw; exact ⟨_, _, .nil⟩
  · exact ⟨_, _, .bare' hw h⟩
theorem Clean.single {q : CStr} (h : c!"'" ∉ q) : Clean (b!"'" ++ q ++ b!"'") := fun _ => ⟨_, _, .single h⟩
theorem Clean.double {q : CStr} (h : ∀ c ∈ q, c ≠ c!"\"" ∧ active c = false) : Clean (b!"\"" ++ q ++ b!"\"") := fun _ => ⟨_, _, .double h⟩

/-- A text of plain bytes and blanks. -/
theorem Clean.text {s : CStr} (h : s.all (fun c => plain c || c == 32) = true) : Clean s := by
  induction s with
  | nil => exact .nil
  | cons c s ih =>
    rw [List.all_cons, Bool.and_eq_true] at h
    refine Clean.append (s := [c]) ?_ (ih h.2)
    rcases (Bool.or_eq_true ..).mp h.1 with h1 | h1
    · exact .bare (by simpa using h1)
    · rw [show c = 32 by simpa using h1]; exact .blank

/-- A number. -/
theorem Clean.num (n : Nat) : Clean (showDec n) := .bare fun c hc => by
  rw [showDec_eq] at hc
  have := decimal_digit n c hc
  simp [plain, this]

/-- A line that is clean. -/
theorem Clean.words {s : CStr} (h : Clean s) : ∃ ws, WG.Spec.Shell.words s = some ws := by
  obtain ⟨ws, cur, h⟩ := h none
  have := h []
  rw [List.append_nil] at this
  exact ⟨_, this⟩

/-- A line that begins with a program. -/
theorem Clean.runs {p s : CStr} (hne : p ≠ []) (hp : ∀ c ∈ p, plain c = true) (h : Clean s) : ∃ ws, WG.Spec.Shell.words (p ++ b!" " ++ s) = some (p :: ws) := by
  obtain ⟨ws, cur, h⟩ := h none
  have h1 := ((Adds.bare' hne hp (cur := none)).append Adds.blank).append h
  have := h1 []
  rw [List.append_nil] at this
  exact ⟨ws ++ cur.toList, by rw [WG.Spec.Shell.words, this]; simp [lex]⟩

/-- Whatever the shell only splits is clean. -/
theorem clean_lex : ∀ (s : CStr) (m : WG.Spec.Shell.Mode) (cur cur2 : Option CStr), lex m cur s ≠ none →
    ∃ ws cur', ∀ t, lex m cur2 (s ++ t) = (lex .bare cur' t).map (ws ++ ·)
  | [], .bare, _, cur2, _ => ⟨[], cur2, fun t => by simp⟩
  | [], .single, _, _, h => absurd rfl h
  | [], .double, _, _, h => absurd rfl h
  | c :: s, .bare, cur, cur2, h => by
    simp only [lex] at h
    simp only [List.cons_append, lex]
    by_cases h1 : c = 32
    · simp only [h1, if_true] at h ⊢
      obtain ⟨ws, c', hw⟩ := clean_lex s .bare none none (by simpa using h)
      refine ⟨cur2.toList ++ ws, c', fun t => ?_⟩
      rw [hw, Option.map_map]
      congr 1
      funext x; simp
    rw [if_neg h1] at h
    simp only [if_neg h1]
    by_cases h2 : c = c!"'"
    · rw [if_pos h2] at h; simp only [if_pos h2]; exact clean_lex s _ _ _ h
    rw [if_neg h2] at h
    simp only [if_neg h2]
    by_cases h3 : c = c!"\""
    · rw [if_pos h3] at h; simp only [if_pos h3]; exact clean_lex s _ _ _ h
    rw [if_neg h3] at h
    simp only [if_neg h3]
    by_cases h4 : plain c = true
    · rw [if_pos h4] at h; simp only [if_pos h4]; exact clean_lex s _ _ _ h
    · rw [if_neg h4] at h; exact absurd rfl h
  | c :: s, .single, cur, cur2, h => by
    simp only [lex] at h
    simp only [List.cons_append, lex]
    by_cases h2 : c = c!"'"
    · rw [if_pos h2] at h; simp only [if_pos h2]; exact clean_lex s _ _ _ h
    · rw [if_neg h2] at h; simp only [if_neg h2]; exact clean_lex s _ _ _ h
  | c :: s, .double, cur, cur2, h => by
    simp only [lex] at h
    simp only [List.cons_append, lex]
    by_cases h2 : c = c!"\""
    · rw [if_pos h2] at h; simp only [if_pos h2]; exact clean_lex s _ _ _ h
    rw [if_neg h2] at h
    simp only [if_neg h2]
    by_cases h3 : active c = true
    · rw [if_pos h3] at h; exact absurd rfl h
    · rw [if_neg h3] at h; simp only [if_neg h3]; exact clean_lex s _ _ _ h

theorem clean_iff (s : CStr) : Clean s ↔ ∃ ws, WG.Spec.Shell.words s = some ws :=
  ⟨Clean.words, fun ⟨_, h⟩ cur => clean_lex s .bare none cur (by rw [WG.Spec.Shell.words] at h; rw [h]; simp)⟩

/-! ### The commands -/

/-- The programs that are run. -/
def programs : List CStr := [b!"ip", b!"wg", b!"iptables", b!"ip6tables", b!"iptables-save", b!"ip6tables-save", b!"ndc", b!"am"]

/-- What is run is one of these programs, with arguments, and nothing else. -/
def Tame (ev : Ev) : Prop := ∀ s, cmdOf ev = some s → ∃ p ws, p ∈ programs ∧ Runs s (p :: ws)

theorem tame {c : Call} {r : Reply} (p rest : CStr) (hc : cmdOf (c, r) = some (p ++ b!" " ++ rest)) (hp : programs.contains p = true) (h : Clean rest) : Tame (c, r) := by
  have hp' : p ∈ programs := by simpa using hp
  have hplain : p ≠ [] ∧ ∀ c ∈ p, plain c = true := by
    revert p; intro p _ _ hp; revert hp
    simp only [programs, List.mem_cons, List.not_mem_nil, or_false]
    rintro (rfl | rfl | rfl | rfl | rfl | rfl | rfl | rfl) <;> exact ⟨by decide, by decide +kernel⟩
  intro s hs
  rw [hc] at hs
  cases hs
  obtain ⟨ws, h⟩ := h.runs hplain.1 hplain.2
  exact ⟨p, ws, hp', .inl h⟩

/-- What other programs print that becomes part of commands: allowed IPs, device names, and rules. It has no meaning to the shell. -/
structure Tidy (e : Env) (iface : CStr) : Prop where
  routes : ∀ h l v ws, l ∈ linesOf (e.reply h (.read (b!"wg show " ++ iface ++ b!" allowed-ips"))).out → AfterKey l v → Words shownSep v ws →
    ∀ w ∈ ws, w = b!"(none)" ∨ ∀ c ∈ w, plain c = true
  devices : ∀ h s l d, l ∈ linesOf (e.reply h (.read s)).out → DevIn l d → ∀ c ∈ d, plain c = true
  rules : ∀ h t l args, t = b!"iptables-save" ∨ t = b!"ip6tables-save" → l ∈ linesOf (e.reply h (.read t)).out → l = b!"-A " ++ args ∨ l = b!"-A " ++ args ++ b!"\n" →
    (∃ a b, args = a ++ b!" --comment \"wireguard rule" ++ b) → ∃ ws, WG.Spec.Shell.words args = some ws

section
variable {e : Env} {iface : CStr}

/-- The bytes of an interface name. -/
theorem iface_plain (hi : IsIfaceName iface) : ∀ c ∈ iface, plain c = true := by
  intro c hc
  have h := hi.2.2 c hc
  revert h; clear hc; revert c; apply forall_u8; decide +kernel

theorem name_clean (hi : IsIfaceName iface) : Clean iface := .bare (iface_plain hi)

theorem comment_clean (hi : IsIfaceName iface) : Clean (ruleComment iface) := by
  have : ruleComment iface = b!" -m comment --comment " ++ (b!"\"" ++ (b!"wireguard rule " ++ iface) ++ b!"\"") := by simp [ruleComment]
  rw [this]
  refine (Clean.text (by decide +kernel)).append (.double fun c hc => ?_)
  rcases List.mem_append.1 hc with hc | hc
  · have h : ∀ c ∈ b!"wireguard rule ", c ≠ c!"\"" ∧ active c = false := by decide +kernel
    exact h c hc
  · have h : ∀ c : UInt8, plain c = true → c ≠ c!"\"" ∧ active c = false := by apply forall_u8; decide +kernel
    exact h c (iface_plain hi c hc)

/-- Replies as they can come. -/
abbrev Came (e : Env) (c : Call) (r : Reply) : Prop := ∃ h, r = e.reply h c
theorem came : ∀ h c, Came e c (e.reply h c) := fun h _ => ⟨h, rfl⟩

theorem tame_firstLine {s : CStr} (h : ∀ r, Tame (.read s, r)) : Safe e Tame (fun _ => True) (firstLine s) :=
  Safe.mono (Safe.firstLine (K := Came e) came fun r _ => h r) (fun _ h => h) fun _ _ => trivial

theorem tame_popen {s : CStr} (h : ∀ r, Tame (.read s, r)) : Safe e Tame (fun r => Came e (.read s) r) (popen s) := Safe.popen (K := Came e) came fun r _ => h r

theorem tame_ndc {s : CStr} (h : Clean s) : Safe e Tame (fun _ => True) (cndc s) := .cndc fun r => tame b!"ndc" s (by rfl) (by decide +kernel) h

theorem tame_wg {s : CStr} (h : Clean s) (r : Reply) : Tame (.read (b!"wg " ++ s), r) := tame b!"wg" s (by rfl) (by decide +kernel) h

theorem tame_setConfig (hi : IsIfaceName iface) (config : CStr) : Safe e Tame (fun _ => True) (setConfig iface config) := by
  refine Safe.bind (Safe.call' fun _ => tame b!"wg" (b!"setconf " ++ iface ++ b!" /proc/self/fd/0") (by rfl) (by decide +kernel)
    (((Clean.text (by decide +kernel)).append (name_clean hi)).append (.text (by decide +kernel)))) fun r _ => ?_
  split
  · exact Safe.exit
  · split
    · exact Safe.pure trivial
    · exact Safe.exit
    · exact Safe.exit

theorem tame_ip {x : Bool} {s : CStr} (h : Clean s) : Safe e Tame (fun _ => True) (cmd x (b!"ip " ++ s)) := .cmd fun _ => tame b!"ip" s (by rfl) (by decide +kernel) h

theorem tame_listenPort (hi : IsIfaceName iface) : Safe e Tame (fun _ => True) (listenPort iface) := by
  have hn := name_clean hi
  refine Safe.bind (tame_ip (s := b!"link set up dev " ++ iface) ((Clean.text (by decide +kernel)).append hn)) fun _ _ => Safe.bind (Q := fun _ => True) ?_ fun v _ =>
    Safe.bind (tame_ip (s := b!"link set down dev " ++ iface) ((Clean.text (by decide +kernel)).append hn)) fun _ _ => Safe.pure trivial
  exact tame_firstLine (tame_wg (s := b!"show " ++ iface ++ b!" listen-port") (((Clean.text (by decide +kernel)).append hn).append (.text (by decide +kernel))))

theorem tame_endpoints (hi : IsIfaceName iface) : ∀ r, Tame (.read (b!"wg show " ++ iface ++ b!" endpoints"), r) :=
  tame_wg (s := b!"show " ++ iface ++ b!" endpoints") (((Clean.text (by decide +kernel)).append (name_clean hi)).append (.text (by decide +kernel)))

theorem tame_upIf (hi : IsIfaceName iface) (port : Nat) : Safe e Tame (fun _ => True) (upIf iface port) := by
  have hn := name_clean hi
  have hc := comment_clean hi
  refine Safe.bind (Safe.getEnv (Q := fun _ => True) trivial) fun env _ => ?_
  split
  · exact Safe.running
  · rename_i netid _
    have h4 : ∀ (t s : CStr), t = b!"iptables" ∨ t = b!"ip6tables" → Clean s → ∀ r, Tame (.system (t ++ b!" " ++ s), r) := fun t s ht hs r =>
      tame t s rfl (by rcases ht with rfl | rfl <;> decide +kernel) hs
    refine Safe.bind (.cmd fun _ => tame b!"wg" (b!"set " ++ iface ++ b!" fwmark 0x20000") (by rfl) (by decide +kernel)
        (((Clean.text (by decide +kernel)).append hn).append (.text (by decide +kernel)))) fun _ _ =>
      Safe.bind (.cmd (h4 b!"iptables" (b!"-I OUTPUT 1 -m mark --mark 0x20000 -j ACCEPT" ++ ruleComment iface) (.inl rfl) ((Clean.text (by decide +kernel)).append hc))) fun _ _ =>
      Safe.bind (.cmd (h4 b!"ip6tables" (b!"-I OUTPUT 1 -m mark --mark 0x20000 -j ACCEPT" ++ ruleComment iface) (.inr rfl) ((Clean.text (by decide +kernel)).append hc))) fun _ _ =>
      Safe.bind (Q := fun _ => True) ?_ fun _ _ =>
      Safe.bind (tame_ip (s := b!"link set up dev " ++ iface) ((Clean.text (by decide +kernel)).append hn)) fun _ _ =>
      Safe.bind (tame_ndc ?_) fun _ _ =>
      Safe.bind (tame_ndc (((((Clean.text (by decide +kernel)).append (.num netid)).append .blank).append hn))) fun _ _ => Safe.pure trivial
    · split
      · refine Safe.bind (.cmd (h4 b!"iptables" (b!"-I INPUT 1 -p udp --dport " ++ showDec port ++ b!" -j ACCEPT" ++ ruleComment iface) (.inl rfl) ?_)) fun _ _ =>
          Safe.bind (Q := fun _ => True) (Safe.bind (tame_popen (tame_endpoints hi)) fun _ _ => Safe.bind Safe.atEof fun _ _ => Safe.pure trivial) fun block _ =>
          .cmd (h4 b!"ip6tables" (b!"-I INPUT 1 -p udp --dport " ++ showDec port ++ b!" -j " ++ (if block then b!"DROP" else b!"ACCEPT") ++ ruleComment iface) (.inr rfl) ?_)
        · exact (((Clean.text (by decide +kernel)).append (.num port)).append (.text (by decide +kernel))).append hc
        · refine ((((Clean.text (by decide +kernel)).append (.num port)).append (.text (by decide +kernel))).append ?_).append hc
          split <;> exact .text (by decide +kernel)
      · exact Safe.pure trivial
    · refine ((Clean.text (by decide +kernel)).append (.num netid)).append ?_
      split <;> exact .text (by decide +kernel)

theorem quoted_clean {w : CStr} (h : unquoted w = true) : c!"'" ∉ w := fun hm => (unquoted_iff w).1 h (.inl hm)

theorem tame_setAddr (hi : IsIfaceName iface) (addrs : CStr) : Safe e Tame (fun _ => True) (setAddr iface addrs) := by
  have hn := name_clean hi
  refine Safe.forEach fun a ha => ?_
  have hq := quoted_clean (List.mem_filter.1 ha).2
  unfold addAddr
  split
  · refine Safe.bind (tame_ndc (((Clean.text (by decide +kernel)).append hn).append (.text (by decide +kernel)))) fun _ _ => .cmd fun _ =>
      tame b!"ip" (b!"-6 addr add " ++ (b!"'" ++ a ++ b!"'") ++ b!" dev " ++ iface) ?_ (by decide +kernel) ?_
    · simp [cmdOf]
    · exact (((Clean.text (by decide +kernel)).append (.single hq)).append (.text (by decide +kernel))).append hn
  · have key : ∀ n r, Tame (.read (b!"ndc " ++ (b!"interface setcfg " ++ iface ++ b!" '" ++ a.takeWhile (· ≠ c!"/") ++ b!"' " ++ showDec n)), r) := fun n r => by
      refine tame b!"ndc" (b!"interface setcfg " ++ iface ++ b!" " ++ (b!"'" ++ a.takeWhile (· ≠ c!"/") ++ b!"'") ++ b!" " ++ showDec n) (by simp [cmdOf]) (by decide +kernel) ?_
      exact (((((Clean.text (by decide +kernel)).append hn).append .blank).append (.single fun h => hq (List.takeWhile_subset _ h))).append .blank).append (.num _)
    exact .cndc fun r => key _ r

/-- The servers in quotes. -/
theorem servers_clean {es : List CStr} {text : CStr} (h : Quoted es text) (hq : ∀ w ∈ es, c!"'" ∉ w) : Clean text := by
  rcases h with rfl | ⟨w, rfl, rfl⟩
  · induction es with
    | nil => exact .nil
    | cons w es ih =>
      rw [List.flatMap_cons, show b!"'" ++ w ++ b!"' " = (b!"'" ++ w ++ b!"'") ++ b!" " by simp]
      exact ((Clean.single (hq w (by simp))).append .blank).append (ih fun x hx => hq x (by simp [hx]))
  · exact .single (hq w (by simp))

/-- The domains in quotes, in quotes: one word. -/
theorem domains_adds {es : List CStr} {text : CStr} (h : Quoted es text) (hq : ∀ w ∈ es, ∀ c ∈ w, plain c = true) :
    ∃ v, (v = es.flatMap (· ++ b!" ") ∨ es = [v]) ∧ Adds none (b!"'" ++ text ++ b!"'") [] (some v) := by
  have one : ∀ (w : CStr), (∀ c ∈ w, plain c = true) → ∀ v, Adds (some v) w [] (some (v ++ w)) := fun w hw v => .bare hw
  rcases h with rfl | ⟨w, rfl, rfl⟩
  · refine ⟨_, .inl rfl, ?_⟩
    have key : ∀ (es : List CStr), (∀ w ∈ es, ∀ c ∈ w, plain c = true) → ∀ (x : CStr), c!"'" ∉ x → ∀ cur : Option CStr,
        Adds cur (b!"'" ++ x ++ es.flatMap (fun w => b!"'" ++ w ++ b!"' ") ++ b!"'") [] (some (cur.getD [] ++ x ++ es.flatMap (· ++ b!" "))) := by
      intro es
      induction es with
      | nil => intro _ x hx cur; simpa using Adds.single hx (cur := cur)
      | cons w es ih =>
        intro hw x hx cur
        have h1 := ((Adds.single hx (cur := cur)).append (one w (hw w (by simp)) _)).append (ih (fun y hy => hw y (by simp [hy])) b!" " (by decide) (some (cur.getD [] ++ x ++ w)))
        simpa using h1
    simpa using key es hq [] (by simp) none
  · refine ⟨w, .inr rfl, ?_⟩
    have h1 := ((Adds.single (q := []) (by simp) (cur := none)).append (one w (hq w (by simp)) _)).append (Adds.single (q := []) (by simp) (cur := some ([] ++ w)))
    simpa using h1

/-- Search domains, if servers and domains are passed to the shell, are words without a meaning to it. -/
def DomainsPlain (list : CStr) : Prop := ∀ es, Entries list es → ∀ w ∈ es, IsNameserver w ∨ ∀ c ∈ w, plain c = true

theorem tame_setDnses (netid : Nat) {dnses : CStr} (hd : DomainsPlain dnses) : Safe e Tame (fun _ => True) (setDnses netid dnses) := by
  have hb : ∀ c r', cmdOf (c, r') = none → Safe e Tame (fun _ => True) (binderCall c) := fun c r' hc => by
    refine Safe.bind (Safe.call' fun r s hs => ?_) fun r _ => ?_
    · cases c <;> simp [cmdOf] at hs hc
    split
    · exact Safe.pure trivial
    · exact Safe.exit
  unfold setDnses
  split
  · exact Safe.pure trivial
  · dsimp only
    split
    · rename_i hany
      have hne : dnses ≠ [] := by rintro rfl; simp [strtok, strtokAux] at hany
      obtain ⟨d, g1, g2, g3, g4, g5⟩ := dnsLoop_entries dnses hne
      rw [g1]
      dsimp only
      refine Safe.bind (Safe.call' fun r s hs => by simp [cmdOf] at hs) fun r _ => ?_
      split
      · exact Safe.bind (hb _ {} rfl) fun _ _ => hb _ {} rfl
      · refine .cndc fun _ => tame b!"ndc" (b!"resolver setnetdns " ++ showDec netid ++ b!" " ++ (b!"'" ++ d.shellDomains ++ b!"'") ++ b!" " ++ d.shellServers) ?_ (by decide +kernel) ?_
        · simp [cmdOf]
        · have hin := hd _ (entries_ok dnses)
          refine (Clean.append ?_ .blank).append (servers_clean g2 fun w hw => quoted_clean (List.mem_filter.1 (List.mem_filter.1 hw).1).2)
          obtain ⟨v, _, hv⟩ := domains_adds g3 fun w hw => by
            obtain ⟨h1, h2⟩ := List.mem_filter.1 hw
            rcases hin w h1 with h3 | h3
            · rw [← isNameserver_iff] at h3; rw [h3] at h2; cases h2
            · exact h3
          intro cur
          have h1 : Clean (b!"resolver setnetdns " ++ showDec netid) := (Clean.text (by decide +kernel)).append (.num _)
          obtain ⟨ws, c1, h1⟩ := h1 cur
          exact ⟨_, _, (h1.append .blank).append hv⟩
    · exact Safe.pure trivial

theorem tame_setRoutes (hi : IsIfaceName iface) (ht : Tidy e iface) (netid : Nat) : Safe e Tame (fun _ => True) (setRoutes iface netid) := by
  have hn := name_clean hi
  refine Safe.forLines (K := Came e) came (fun r _ => tame_wg (s := b!"show " ++ iface ++ b!" allowed-ips") (((Clean.text (by decide +kernel)).append hn).append (.text (by decide +kernel))) r) ?_
  rintro r ⟨h, rfl⟩ l hl
  rw [linesOf_eq] at hl
  refine Safe.forEach fun a ha => tame_ndc ?_
  refine (((((Clean.text (by decide +kernel)).append (.num netid)).append .blank).append hn).append .blank).append ?_
  unfold routesIn at ha
  cases hv : l.dropWhile (· ≠ 9) with
  | nil => rw [hv] at ha; cases ha
  | cons c v =>
    rw [hv] at ha
    obtain ⟨h1, h2⟩ := List.mem_filter.1 ha
    rcases ht.routes h l v (strtok blankSeps v) hl ((afterKey_iff l v).1 (by rw [hv])) (by rw [← blankSeps_eq]; exact strtok_words _ _) a h1 with h3 | h3
    · rw [h3] at h2; simp at h2
    · exact .bare h3

theorem tame_routeMtu (ht : Tidy e iface) {x : CStr} (hx : ∀ c ∈ x, plain c = true) : Safe e Tame (fun _ => True) (routeMtu x) := by
  have h1 : ∀ r, Tame (.read ((if x = b!"default" then b!"ip -o route show " else b!"ip -o route get ") ++ x), r) := by
    intro r
    split
    · exact tame b!"ip" (b!"-o route show " ++ x) (by rfl) (by decide +kernel) ((Clean.text (by decide +kernel)).append (.bare hx))
    · exact tame b!"ip" (b!"-o route get " ++ x) (by rfl) (by decide +kernel) ((Clean.text (by decide +kernel)).append (.bare hx))
  refine Safe.bind (Safe.firstLine (K := Came e) came fun r _ => h1 r) fun l hl => ?_
  split
  · exact Safe.pure trivial
  · rename_i route
    obtain ⟨r, ⟨h, rfl⟩, hr⟩ := hl route rfl
    split
    · exact Safe.pure trivial
    · split
      · exact Safe.pure trivial
      · rename_i dev hdev
        have hplain := ht.devices h _ route dev (by rw [← linesOf_eq]; exact List.mem_of_head? hr) ((devIn_iff _ _).1 hdev)
        refine Safe.bind (tame_firstLine fun r => tame b!"ip" (b!"-o link show dev " ++ dev) (by rfl) (by decide +kernel) ((Clean.text (by decide +kernel)).append (.bare hplain)))
          fun l _ => ?_
        split
        · exact Safe.pure trivial
        · split <;> exact Safe.pure trivial

theorem host_plain {l host : CStr} (h : endpointHost l = some host) : ∀ c ∈ host, plain c = true := by
  obtain ⟨o, cl, port, _, _, _, _, hh, _⟩ := (endpointHost_iff l host).1 h
  have key : ∀ c : UInt8, addrByte c = true → plain c = true := by apply forall_u8; decide +kernel
  exact fun c hc => key c (hh c hc)

theorem tame_mtuLoop (ht : Tidy e iface) (r : Reply) : ∀ (ls : List CStr) (m : Int), Safe e Tame (fun _ => True) (mtuLoop r m ls)
  | [], m => Safe.bind Safe.atEof fun _ _ => Safe.pure trivial
  | l :: ls, m => by
    simp only [mtuLoop]
    split
    · exact tame_mtuLoop ht r ls m
    · rename_i host hh
      exact Safe.bind (tame_routeMtu ht (host_plain hh)) fun _ _ => tame_mtuLoop ht r ls _

theorem int_clean (i : Int) : Clean (showInt i) := by
  unfold showInt
  split
  · exact (Clean.text (by decide +kernel)).append (.num _)
  · exact .num _

theorem tame_setMtu (hi : IsIfaceName iface) (ht : Tidy e iface) (mtu : Nat) : Safe e Tame (fun _ => True) (setMtu iface mtu) := by
  have hset : Clean (b!"interface setmtu " ++ iface ++ b!" ") := ((Clean.text (by decide +kernel)).append (name_clean hi)).append .blank
  unfold setMtu
  split
  · exact tame_ndc (hset.append (.num _))
  · exact Safe.bind (tame_routeMtu ht (by decide +kernel)) fun _ _ => Safe.bind (tame_popen (tame_endpoints hi)) fun _ _ => Safe.bind (tame_mtuLoop ht _ _ _) fun _ _ =>
      tame_ndc (hset.append (int_clean _))

theorem joined_clean : ∀ (l : List CStr), (∀ a ∈ l, Clean a) → Clean (joined l)
  | [], _ => .nil
  | [a], h => h a (by simp)
  | a :: b :: l, h => ((h a (by simp)).append .blank).append (joined_clean (b :: l) fun x hx => h x (by simp [hx]))

theorem range_clean (r : Nat × Nat) : Clean (showRange r) := by
  unfold showRange
  split
  · exact .num _
  · exact ((Clean.num _).append (.text (by decide +kernel))).append (.num _)

theorem ranges_clean (x : Bool) (us : List Nat) : ∀ a ∈ userRanges x us, Clean a := by
  intro a ha
  unfold userRanges at ha
  split at ha
  · simp only [List.mem_append, List.mem_map] at ha
    rcases ha with ⟨r, _, rfl⟩ | ha
    · exact range_clean r
    · split at ha
      · rw [List.mem_singleton] at ha
        subst ha
        exact (Clean.num _).append (.text (by decide +kernel))
      · cases ha
  · obtain ⟨u, _, rfl⟩ := List.mem_map.1 ha
    exact .num _

theorem tame_setUsers (netid : Nat) (ex inc : Option CStr) : Safe e Tame (fun _ => True) (setUsers netid ex inc) := by
  unfold setUsers
  split
  · exact Safe.exit
  · refine Safe.bind (Safe.getEnv (Q := fun _ => True) trivial) fun env _ => ?_
    split
    · exact Safe.exit
    · exact Safe.ub
    · rename_i uids _
      refine Safe.forEach fun l hl => tame_ndc ((((Clean.text (by decide +kernel)).append (.num netid)).append .blank).append (joined_clean l fun a ha => ranges_clean (ex.isSome || !inc.isSome) uids a ?_))
      rw [← (batches_ok _ (userRanges (ex.isSome || !inc.isSome) uids) (Nat.lt_succ_self _)).1]
      exact List.mem_flatten.2 ⟨l, hl, ha⟩

theorem tame_broadcast : Safe e Tame (fun _ => True) broadcast := by
  refine Safe.bind (Safe.getEnv (Q := fun _ => True) trivial) fun env _ => ?_
  split
  · exact Safe.pure trivial
  · exact .cmd fun _ => tame b!"am" b!"broadcast -a com.wireguard.android.action.REFRESH_TUNNEL_STATES com.wireguard.android" (by rfl) (by decide +kernel) (.text (by decide +kernel))

theorem tame_alone {s : CStr} (hs : s = b!"iptables-save" ∨ s = b!"ip6tables-save") (r : Reply) : Tame (.read s, r) := by
  intro s' h
  cases h
  refine ⟨s, [], by rcases hs with rfl | rfl <;> decide +kernel, .inl ?_⟩
  rcases hs with rfl | rfl <;> decide +kernel

theorem ruleArgs_shape {items : List Item} {l r : CStr} (h : ruleArgs items l = some r) :
    (l = b!"-A " ++ r ∨ l = b!"-A " ++ r ++ b!"\n") ∧ ∃ a b, r = a ++ b!" --comment \"wireguard rule" ++ b := by
  unfold ruleArgs at h
  have hbody : l = (if l.getLast? = some 10 then l.dropLast else l) ∨ l = (if l.getLast? = some 10 then l.dropLast else l) ++ b!"\n" := by
    by_cases hl : l.getLast? = some 10
    · right
      rw [if_pos hl]
      obtain ⟨a, rfl⟩ := List.getLast?_eq_some_iff.1 hl
      simp
    · left; rw [if_neg hl]
  dsimp only at h
  generalize (if l.getLast? = some 10 then l.dropLast else l) = body at h hbody
  split at h
  · rename_i hc
    rw [Bool.and_eq_true, List.any_eq_true] at hc
    obtain ⟨h1, t, h2, h3⟩ := hc
    obtain rfl : _ = r := Option.some.inj h
    rw [prefix_drop] at h1
    rw [← show body = b!"-A " ++ List.drop 3 body from h1]
    refine ⟨hbody, ?_⟩
    obtain ⟨a, ha⟩ := WG.Quick.mem_suffixes.1 h2
    rw [Bool.and_eq_true, prefix_drop] at h3
    exact ⟨a, _, by rw [ha, List.append_assoc, ← h3.1]⟩
  · cases h

theorem tame_delIf (hi : IsIfaceName iface) (ht : Tidy e iface) (x : Bool) : Safe e Tame (fun _ => True) (delIf x iface) := by
  unfold delIf
  split
  · exact Safe.exit
  · rename_i items _
    have hd : ∀ t, t = b!"iptables" ∨ t = b!"ip6tables" → Safe e Tame (fun _ => True) (dropRules x items t) := by
      intro t htt
      have hts : t ++ b!"-save" = b!"iptables-save" ∨ t ++ b!"-save" = b!"ip6tables-save" := by
        rcases htt with rfl | rfl
        · exact .inl rfl
        · exact .inr rfl
      refine Safe.forLines (K := Came e) came (fun r _ => tame_alone hts r) ?_
      rintro r ⟨h, rfl⟩ l hl
      rw [linesOf_eq] at hl
      cases hr : ruleArgs items l with
      | none => exact Safe.pure trivial
      | some args =>
        obtain ⟨h1, h2⟩ := ruleArgs_shape hr
        have := (clean_iff args).2 (ht.rules h _ l args hts hl h1 h2)
        refine .cmd fun _ => tame t (b!"-D " ++ args) ?_ (by rcases htt with rfl | rfl <;> decide +kernel) ((Clean.text (by decide +kernel)).append this)
        simp [cmdOf]
    refine Safe.bind (tame_ip (s := b!"link del " ++ iface) ((Clean.text (by decide +kernel)).append (name_clean hi))) fun _ _ => Safe.bind (hd _ (.inl rfl)) fun _ _ =>
      Safe.bind (hd _ (.inr rfl)) fun _ _ => Safe.bind (Q := fun _ => True) (Safe.bind (tame_popen fun r => tame b!"ip" b!"rule show" (by rfl) (by decide +kernel) (.text (by decide +kernel)))
        fun r _ => ?_) fun n _ => ?_
    · split
      · exact Safe.pure trivial
      · exact Safe.bind Safe.atEof fun _ _ => Safe.pure trivial
    · split
      · exact Safe.pure trivial
      · exact tame_ndc ((Clean.text (by decide +kernel)).append (.num _))

end

/-! ### The property -/

section
variable {e : Env} {files : Files} {arg : CStr} {c : Conf}

theorem conf_name (hc : parseOptions files arg = .conf c) : IsIfaceName c.iface := by
  obtain ⟨path, content, _, _, _, h, _⟩ := WG.Props.c84_accepted c hc
  exact h

/-- Bringing an interface up, whatever comes of it: each command runs one of the known programs and nothing else, whatever the configuration has as
addresses, DNS servers, applications and settings for `wg`; of the search domains it is required that they have no meaning to the shell. -/
theorem c88_up (hc : parseOptions files arg = .conf c) (ht : Tidy e c.iface) (hd : ∀ l, c.dnses = some l → DomainsPlain l) : ∀ ev ∈ (cmdUp c e []).2, Tame ev := by
  have hi := conf_name hc
  have hn := name_clean hi
  have hbody : Safe e Tame (fun _ => True) (upBody c) := by
    refine Safe.bind (tame_ip (s := b!"link add " ++ c.iface ++ b!" type wireguard") (((Clean.text (by decide +kernel)).append hn).append (.text (by decide +kernel)))) fun _ _ => ?_
    split
    · exact Safe.segv
    refine Safe.bind (tame_setConfig hi _) fun _ _ => Safe.bind (tame_listenPort hi) fun port _ => Safe.bind (tame_upIf hi port) fun netid _ => ?_
    split
    · exact Safe.segv
    refine Safe.bind (tame_setAddr hi _) fun _ _ => ?_
    split
    · exact Safe.segv
    rename_i dnses hdns
    exact Safe.bind (tame_setDnses netid (hd _ hdns)) fun _ _ => Safe.bind (tame_setRoutes hi ht netid) fun _ _ => Safe.bind (tame_setMtu hi ht _) fun _ _ =>
      Safe.bind (tame_setUsers netid _ _) fun _ _ => tame_broadcast
  have hfirst : ∀ r, Tame (.read (b!"ip link show dev " ++ c.iface ++ b!" 2>/dev/null"), r) := by
    intro r s hs
    cases hs
    obtain ⟨ws, hw⟩ := ((Clean.text (by decide +kernel)).append hn : Clean (b!"link show dev " ++ c.iface)).runs (p := b!"ip") (by decide) (by decide +kernel)
    exact ⟨b!"ip", ws, by decide +kernel, .inr ⟨b!"ip link show dev " ++ c.iface, rfl, hw⟩⟩
  have hall : Safe e Tame (fun _ => True) (cmdUp c) := by
    refine Safe.bind (tame_firstLine hfirst) fun l _ => ?_
    split
    · exact Safe.exit
    · intro h
      obtain ⟨t, h1, h2, _⟩ := hbody h
      rcases hr : upBody c e h with ⟨o, h'⟩
      rw [hr] at h1
      dsimp only at h1
      subst h1
      dsimp only
      rw [hr]
      cases o with
      | ok a => exact ⟨t, rfl, h2, by simp⟩
      | exit n =>
        obtain ⟨t', h3, h4, _⟩ := (Safe.bind (tame_delIf hi ht true) fun _ _ => (Safe.exit : Safe e Tame (fun _ => True) (exitWith n : Sh Unit))) (h ++ t)
        refine ⟨t ++ t', by rw [← List.append_assoc]; exact h3, fun ev hev => ?_, fun _ _ => trivial⟩
        rcases List.mem_append.1 hev with hev | hev
        · exact h2 ev hev
        · exact h4 ev hev
      | killed => exact ⟨t, rfl, h2, by simp⟩
      | ub => exact ⟨t, rfl, h2, by simp⟩
      | running => exact ⟨t, rfl, h2, by simp⟩
  obtain ⟨t, h1, h2, _⟩ := hall []
  rw [h1]
  exact h2

/-- So does taking it down. -/
theorem c88_down (hc : parseOptions files arg = .conf c) (ht : Tidy e c.iface) : ∀ ev ∈ (cmdDown c.iface e []).2, Tame ev := by
  have hi := conf_name hc
  have hall : Safe e Tame (fun _ => True) (cmdDown c.iface) := by
    refine Safe.bind (tame_firstLine (tame_wg (s := b!"show interfaces") (.text (by decide +kernel)))) fun l _ => ?_
    split
    · exact Safe.bind (tame_delIf hi ht false) fun _ _ => Safe.bind tame_broadcast fun _ _ => Safe.exit
    · exact Safe.exit
  obtain ⟨t, h1, h2, _⟩ := hall []
  rw [h1]
  exact h2
end

/-! ### The words -/

/-- An address is one argument, whatever it has but quotes. -/
theorem c88_address {iface addrs a : CStr} {es : List CStr} (hi : IsIfaceName iface) (he : Entries addrs es) (ha : a ∈ es) :
    Runs (b!"ip -6 addr add '" ++ a ++ b!"' dev " ++ iface) [b!"ip", b!"-6", b!"addr", b!"add", a, b!"dev", iface] ∧
    ∀ host len, host <+: a → Runs (b!"ndc interface setcfg " ++ iface ++ b!" '" ++ host ++ b!"' " ++ decimal len) [b!"ndc", b!"interface", b!"setcfg", iface, host, decimal len] := by
  obtain ⟨ws, _, hcol⟩ := he
  have hq : c!"'" ∉ a := by
    have : ∀ {ws es : List CStr}, Collected (fun w x => x = w ∧ ¬ Unquotable w) ws es → ∀ a ∈ es, c!"'" ∉ a := by
      intro ws es h
      induction h with
      | nil => intro a ha; cases ha
      | hit h _ ih =>
        intro a ha
        rcases List.mem_cons.1 ha with rfl | ha
        · exact fun hm => h.2 (.inl (h.1 ▸ hm))
        · exact ih a ha
      | miss _ _ ih => exact ih
    exact this hcol a ha
  have hne : iface ≠ [] := by rintro rfl; exact absurd hi.1 (by decide)
  have name : ∀ {cur : Option CStr}, Adds cur iface [] (some (cur.getD [] ++ iface)) := Adds.bare' hne (iface_plain hi)
  have wd : ∀ w : CStr, w ≠ [] → (∀ c ∈ w, plain c = true) → Adds none (w ++ b!" ") [w] none := fun w h1 h2 => (Adds.bare' h1 h2 (cur := none)).append .blank
  constructor
  · left
    have h1 : Adds none b!"ip -6 addr add " [b!"ip", b!"-6", b!"addr", b!"add"] none :=
      (((wd b!"ip" (by decide) (by decide +kernel)).append (wd b!"-6" (by decide) (by decide +kernel))).append (wd b!"addr" (by decide) (by decide +kernel))).append
        (wd b!"add" (by decide) (by decide +kernel))
    have h2 : ∀ v : CStr, Adds (some v) b!" dev " [v, b!"dev"] none := fun v => (Adds.blank (cur := some v)).append (wd b!"dev" (by decide) (by decide +kernel))
    have := (((h1.append (Adds.single hq (cur := none))).append (h2 _)).append name) []
    rw [WG.Spec.Shell.words]
    simpa [lex] using this
  · intro host len hh
    left
    have hq' : c!"'" ∉ host := fun h => hq (hh.subset h)
    have h1 : Adds none b!"ndc interface setcfg " [b!"ndc", b!"interface", b!"setcfg"] none :=
      ((wd b!"ndc" (by decide) (by decide +kernel)).append (wd b!"interface" (by decide) (by decide +kernel))).append (wd b!"setcfg" (by decide) (by decide +kernel))
    have hnum : ∀ {cur : Option CStr}, Adds cur (decimal len) [] (some (cur.getD [] ++ decimal len)) :=
      Adds.bare' (decimal_isDecimal len).1 fun c hc => by simp [plain, decimal_digit len c hc]
    have := (((((h1.append name).append Adds.blank).append (Adds.single hq' (cur := none))).append Adds.blank).append hnum) []
    rw [WG.Spec.Shell.words]
    simpa [lex] using this

/-- Search domains without a meaning to the shell are one argument, and the servers, whatever they have but quotes, are one each. -/
theorem c88_resolver {netid : Nat} {domains servers : List CStr} {ds ss : CStr} (hd : Quoted domains ds) (hs : Quoted servers ss)
    (hp : ∀ w ∈ domains, ∀ c ∈ w, plain c = true) (hq : ∀ w ∈ servers, c!"'" ∉ w) :
    ∃ v, (v = domains.flatMap (· ++ b!" ") ∨ domains = [v]) ∧
      Runs (b!"ndc resolver setnetdns " ++ decimal netid ++ b!" '" ++ ds ++ b!"' " ++ ss) ([b!"ndc", b!"resolver", b!"setnetdns", decimal netid, v] ++ servers) := by
  obtain ⟨v, hv, hv2⟩ := domains_adds hd hp
  refine ⟨v, hv, .inl ?_⟩
  have wd : ∀ w : CStr, w ≠ [] → (∀ c ∈ w, plain c = true) → Adds none (w ++ b!" ") [w] none := fun w h1 h2 => (Adds.bare' h1 h2 (cur := none)).append .blank
  have h1 : Adds none b!"ndc resolver setnetdns " [b!"ndc", b!"resolver", b!"setnetdns"] none :=
    ((wd b!"ndc" (by decide) (by decide +kernel)).append (wd b!"resolver" (by decide) (by decide +kernel))).append (wd b!"setnetdns" (by decide) (by decide +kernel))
  have h2 := wd (decimal netid) (decimal_isDecimal netid).1 fun c hc => by simp [plain, decimal_digit netid c hc]
  have h3 : lex .bare none ss = some servers := by
    rcases hs with rfl | ⟨w, rfl, rfl⟩
    · clear hv hv2 hd hp
      induction servers with
      | nil => rfl
      | cons w es ih =>
        have h4 := ((Adds.single (hq w (by simp)) (cur := none)).append Adds.blank) (es.flatMap (fun w => b!"'" ++ w ++ b!"' "))
        rw [ih fun x hx => hq x (by simp [hx])] at h4
        rw [List.flatMap_cons]
        simpa using h4
    · have := Adds.single (hq w (by simp)) (cur := none) []
      simpa [lex] using this
  have := ((((h1.append h2).append hv2).append Adds.blank)) ss
  rw [h3] at this
  rw [WG.Spec.Shell.words]
  simpa using this

/-! ### Examples and defects -/

theorem upEnv_tidy : Tidy (upEnv [] []) b!"wg0" := by
  refine ⟨?_, ?_, ?_⟩
  · intro h l v ws hl hv hw
    have hws : strtok blankSeps v = ws := WG.Quick.words_unique (by rw [blankSeps_eq] at *; exact strtok_words _ _) hw
    have hl' : l = b!"k1=\t10.0.0.0/24 fd00::/64\n" ∨ l = b!"k2=\t(none)\n" := by
      have e : linesOf ((upEnv [] []).reply h (.read (b!"wg show " ++ b!"wg0" ++ b!" allowed-ips"))).out = [b!"k1=\t10.0.0.0/24 fd00::/64\n", b!"k2=\t(none)\n"] := by
        show linesOf b!"k1=\t10.0.0.0/24 fd00::/64\nk2=\t(none)\n" = _
        decide +kernel
      rw [e] at hl
      simpa using hl
    have hv' := (afterKey_iff l v).2 hv
    subst hws
    rcases hl' with rfl | rfl
    · obtain rfl : b!"10.0.0.0/24 fd00::/64\n" = v := by simpa using hv'
      decide +kernel
    · obtain rfl : b!"(none)\n" = v := by simpa using hv'
      decide +kernel
  · have key : ∀ out : List UInt8, (linesOf out).all (fun l => match devIn l with
        | none => true
        | some d => d.all plain) = true → ∀ l d, l ∈ linesOf out → DevIn l d → ∀ c ∈ d, plain c = true := by
      intro out ho l d hl hd
      have := List.all_eq_true.1 ho l hl
      rw [(devIn_iff l d).2 hd] at this
      exact List.all_eq_true.1 this
    intro h s l d
    simp only [upEnv, upShows]
    split
    · exact key _ (by decide +kernel) l d
    split
    · exact key _ (by decide +kernel) l d
    split
    · exact key _ (by decide +kernel) l d
    split
    · exact key _ (by decide +kernel) l d
    split
    · exact key _ (by decide +kernel) l d
    split
    · exact key _ (by decide +kernel) l d
    simp only [fine]
    split
    · exact key _ (by decide +kernel) l d
    · exact key _ (by decide +kernel) l d
  · rintro h t l args (rfl | rfl) hl
    · have : linesOf ((upEnv [] []).reply h (.read b!"iptables-save")).out = [] := rfl
      rw [this] at hl; cases hl
    · have : linesOf ((upEnv [] []).reply h (.read b!"ip6tables-save")).out = [] := rfl
      rw [this] at hl; cases hl

/-- A configuration with this DNS setting. -/
def dnsFile (dns : CStr) : Files := WG.Props.exAndroidFiles b!"/data/misc/wireguard/wg0.conf" (b!"[Interface]\nPrivateKey = x\nDNS = " ++ dns ++ b!"\n")

def dnsConf (dns : CStr) : Conf := { iface := b!"wg0", config := some b!"[Interface]\nPrivateKey = x\n", addrs := some [], dnses := some dns }

/-- The hypotheses are met: addresses may have anything but quotes. -/
example : ∀ ev ∈ (cmdUp (dnsConf b!"1.1.1.1,home.lan") (upEnv [] []) []).2, Tame ev := by
  refine c88_up (files := dnsFile b!"1.1.1.1, home.lan") (arg := b!"wg0") (by decide +kernel) upEnv_tidy ?_
  intro l hl es he
  cases hl
  obtain ⟨ws, h1, h2⟩ := he
  obtain rfl : strtok listSeps b!"1.1.1.1,home.lan" = ws := WG.Quick.words_unique (by rw [listSeps_eq]; exact strtok_words _ _) h1
  have hsub : ∀ {ws es : List CStr}, Collected (fun w x => x = w ∧ ¬ Unquotable w) ws es → ∀ a ∈ es, a ∈ ws := by
    intro ws es h
    induction h with
    | nil => intro a ha; cases ha
    | hit h _ ih =>
      intro a ha
      rcases List.mem_cons.1 ha with rfl | ha
      · rw [h.1]; simp
      · exact List.mem_cons_of_mem _ (ih a ha)
    | miss _ _ ih => exact fun a ha => List.mem_cons_of_mem _ (ih a ha)
  intro w hw
  have hm := hsub h2 w hw
  rw [show strtok listSeps b!"1.1.1.1,home.lan" = [b!"1.1.1.1", b!"home.lan"] by decide +kernel] at hm
  simp only [List.mem_cons, List.not_mem_nil, or_false] at hm
  rcases hm with rfl | rfl
  · exact .inl ((isNameserver_iff _).1 (by decide +kernel))
  · exact .inr (by decide +kernel)

example : parseOptions (dnsFile b!"1.1.1.1, home.lan") b!"wg0" = .conf (dnsConf b!"1.1.1.1,home.lan") := by decide +kernel

/-- Search domains are not quoted: the quotes around each end those around all. A domain `;reboot;` in the configuration is run as a command. -/
theorem c88_counterexample_domain : parseOptions (dnsFile b!"1.1.1.1, ;reboot;") b!"wg0" = .conf (dnsConf b!"1.1.1.1,;reboot;") ∧
    b!"ndc resolver setnetdns 5000 ''" ++ b!";" ++ b!"reboot" ++ b!";" ++ b!"' ' '1.1.1.1' " ∈ cmdsOf (cmdUp (dnsConf b!"1.1.1.1,;reboot;") (upEnv [] []) []).2 ∧
    WG.Spec.Shell.words b!"ndc resolver setnetdns 5000 ''" = some [b!"ndc", b!"resolver", b!"setnetdns", b!"5000", []] ∧
    WG.Spec.Shell.words b!"reboot" = some [b!"reboot"] ∧ WG.Spec.Shell.words b!"' ' '1.1.1.1' " = some [b!" ", b!"1.1.1.1"] := by
  decide +kernel

end WG.Android
