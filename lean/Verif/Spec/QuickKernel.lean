import Verif.Spec.QuickRun
import Mathlib.Logic.Function.Basic
/-!
What the system does with the commands that wg-quick runs, as far as routing rules and the firewall are concerned: the state that
is shared with other interfaces and programs, how it is listed, and how commands change it.
-/
namespace WG.Spec.Quick
open WG.Quick (Call Reply Ev Cfg Opts)

/-! ### Routing rules -/

/-- A routing rule as `ip rule show` prints it: what precedes the table to look up (priority and selector), the table, if it has
one, and the rest of the line. -/
structure IpRule where
  sel : List UInt8
  table : Option (List UInt8)
  rest : List UInt8
deriving DecidableEq

def IpRule.line (r : IpRule) : List UInt8 :=
  r.sel ++ (match r.table with | some t => b!"lookup " ++ t | none => []) ++ r.rest

/-- The lines are such that the table can be told from them: `lookup ` occurs only before the table, which is one word. -/
structure IpRule.WF (r : IpRule) : Prop where
  once : ∀ a b, r.line = a ++ b!"lookup " ++ b → r.table ≠ none ∧ a = r.sel
  clean : ∀ c ∈ r.line, c ≠ 10 ∧ c ≠ 0
  table : ∀ t, r.table = some t → ∀ c ∈ t, c ≠ 32
  rest : r.rest = [] ∨ r.rest.head? = some 32

/-- The rule ignores default routes of the main table. -/
def IpRule.Suppress (r : IpRule) : Prop := r.table = some b!"main" ∧ b!" suppress_prefixlength 0" <+: r.rest

/-- The routing rules of each family (`-4`, `-6`). -/
abbrev IpRules := List UInt8 → List IpRule

/-- `ip rule show`. -/
def ruleListing (rs : List IpRule) : List UInt8 := unlines (rs.map IpRule.line)

/-- The rules that the arguments of `ip rule delete` select. -/
def Selected (args : List (List UInt8)) (r : IpRule) : Prop :=
  (∃ t, args = [b!"table", t] ∧ r.table = some t) ∨ (args = [b!"table", b!"main", b!"suppress_prefixlength", b!"0"] ∧ r.Suppress)

/-- The rule that the arguments of `ip rule add` make. -/
def Made (args : List (List UInt8)) (r : IpRule) : Prop :=
  (∃ t, args = [b!"not", b!"fwmark", t, b!"table", t] ∧ r.table = some t) ∨
  (args = [b!"table", b!"main", b!"suppress_prefixlength", b!"0"] ∧ r.Suppress ∧ b!"from all " <:+ r.sel)

/-- `ip FAMILY rule …` -/
def IsRuleCall (c : Call) : Prop := ∃ fam args, (∃ t, c = .act (b!"ip" :: fam :: b!"rule" :: args) t) ∨ c = .query (b!"ip" :: fam :: b!"rule" :: args)

/-- How the rules change in a history: `show` lists them, `delete` removes the first one that is selected or fails, `add` inserts
one (anywhere) or fails, and nothing else touches them. -/
inductive RulesRun : IpRules → List Ev → IpRules → Prop
  | nil {R} : RulesRun R [] R
  | listed {R fam r h R'} : r.out = ruleListing (R fam) → RulesRun R h R' →
      RulesRun R ((.query [b!"ip", fam, b!"rule", b!"show"], r) :: h) R'
  | deleted {R fam args a x b r h R'} : R fam = a ++ x :: b → (∀ y ∈ a, ¬ Selected args y) → Selected args x → r.status = 0 →
      RulesRun (Function.update R fam (a ++ b)) h R' → RulesRun R ((cmd ([b!"ip", fam, b!"rule", b!"delete"] ++ args), r) :: h) R'
  | missing {R fam args r h R'} : (∀ y ∈ R fam, ¬ Selected args y) → r.status ≠ 0 → RulesRun R h R' →
      RulesRun R ((cmd ([b!"ip", fam, b!"rule", b!"delete"] ++ args), r) :: h) R'
  | added {R fam args a x b r h R'} : R fam = a ++ b → Made args x → x.WF → r.status = 0 →
      RulesRun (Function.update R fam (a ++ x :: b)) h R' → RulesRun R ((cmd ([b!"ip", fam, b!"rule", b!"add"] ++ args), r) :: h) R'
  | rejected {R fam args r h R'} : r.status ≠ 0 → RulesRun R h R' → RulesRun R ((cmd ([b!"ip", fam, b!"rule", b!"add"] ++ args), r) :: h) R'
  | other {R e h R'} : ¬ IsRuleCall e.1 → RulesRun R h R' → RulesRun R (e :: h) R'

/-- The rules that have nothing to do with an interface with the mark `n`: they do not look up its table and do not suppress default
routes of the main table. -/
def Foreign (n : Nat) (r : IpRule) : Prop := r.table ≠ some (showDec n) ∧ ¬ r.Suppress

/-! ### nftables -/

/-- A table, shown as `table FAMILY NAME`. -/
structure NftTable where
  fam : List UInt8
  name : List UInt8
deriving DecidableEq

def NftTable.text (t : NftTable) : List UInt8 := b!"table " ++ t.fam ++ b!" " ++ t.name

/-- Both are words. -/
structure NftTable.WF (t : NftTable) : Prop where
  ne : t.name ≠ []
  fam : ∀ c ∈ t.fam, c ≠ 32 ∧ c ≠ 9 ∧ c ≠ 10 ∧ c ≠ 0
  name : ∀ c ∈ t.name, c ≠ 32 ∧ c ≠ 9 ∧ c ≠ 10 ∧ c ≠ 0

/-- The table of an interface. -/
def NftTable.Own (c : Cfg) (t : NftTable) : Prop := t.name = b!"wg-quick-" ++ c.iface

/-- How the tables change in a history: `nft list tables` lists them, `nft -f` adds those with a line `add table …` and deletes
those with a line `delete table …` (a script has only one of the two), or fails without any effect; nothing else touches them. -/
inductive TablesRun : Set NftTable → List Ev → Set NftTable → Prop
  | nil {T} : TablesRun T [] T
  | listed {T} {ts : List NftTable} {r h T'} : (∀ t, t ∈ ts ↔ t ∈ T) → r.out = unlines (ts.map NftTable.text) → TablesRun T h T' →
      TablesRun T ((.query [b!"nft", b!"list", b!"tables"], r) :: h) T'
  | done {T lines r h T'} : r.status = 0 → (∀ l ∈ lines, (10 : UInt8) ∉ l) →
      TablesRun {t | (t ∈ T ∨ (t.WF ∧ b!"add " ++ t.text ∈ lines)) ∧ b!"delete " ++ t.text ∉ lines} h T' →
      TablesRun T ((.act [b!"nft", b!"-f"] (unlines lines), r) :: h) T'
  | failed {T text r h T'} : r.status ≠ 0 → TablesRun T h T' → TablesRun T ((.act [b!"nft", b!"-f"] text, r) :: h) T'
  | other {T e h T'} : (∀ args t, e.1 ≠ .act (b!"nft" :: args) t) → (∀ args, e.1 ≠ .query (b!"nft" :: args)) → TablesRun T h T' → TablesRun T (e :: h) T'

/-! ### iptables -/

/-- A table of iptables: its name, the lines for its chains, and its rules (without the `-A `). -/
structure IptTable where
  name : List UInt8
  chains : List (List UInt8)
  rules : List (List UInt8)
deriving DecidableEq

/-- The lines of one table. -/
def IptTable.lines (t : IptTable) : List (List UInt8) := [b!"*" ++ t.name] ++ t.chains ++ t.rules.map (b!"-A " ++ ·) ++ [b!"COMMIT"]

/-- The table without the rules of an interface. -/
def IptTable.without (c : Cfg) [DecidablePred (OwnRule c)] (t : IptTable) : IptTable :=
  { t with rules := t.rules.filter fun r => decide (¬ OwnRule c (b!"-A " ++ r)) }

/-- The output of `iptables-save`: lines without blanks at their ends; apart from comments, those of the tables, where chains have a
colon in front. -/
def IptListing (ts : List IptTable) (out : List UInt8) : Prop :=
  ∃ lines, out = unlines lines ∧ (∀ l ∈ lines, Trimmed spaceTab l l ∧ ∀ c ∈ l, c ≠ 10 ∧ c ≠ 0) ∧
    lines.filter (fun l => decide (l.head? ≠ some c!"#")) = ts.flatMap IptTable.lines ∧ (ts.map IptTable.name).Nodup ∧
    ∀ t ∈ ts, ∀ l ∈ t.chains, l.head? = some c!":"

/-- One line for `iptables-restore -n`, given the table it applies to: `*TABLE` selects a table, `-D RULE` deletes the first equal
rule of it, `-I RULE` inserts a rule, which is listed in a normalized form that has the same comment. -/
inductive RestoreLine : Option (List UInt8) → List IptTable → List UInt8 → Option (List UInt8) → List IptTable → Prop
  | select {cur ts n} : RestoreLine cur ts (b!"*" ++ n) (some n) ts
  | delete {n a t b r} : t.name = n → r ∈ t.rules → (∀ t' ∈ a, t'.name ≠ n) →
      RestoreLine (some n) (a ++ t :: b) (b!"-D " ++ r) (some n) (a ++ { t with rules := t.rules.erase r } :: b)
  | insert {n a t b r y} : t.name = n → (∀ c, OwnRule c (b!"-A " ++ r) ↔ OwnRule c (b!"-A " ++ y)) →
      RestoreLine (some n) (a ++ t :: b) (b!"-I " ++ y) (some n) (a ++ { t with rules := r :: t.rules } :: b)
  | commit {cur ts} : RestoreLine cur ts b!"COMMIT" none ts

/-- All lines in order. -/
inductive Restore : Option (List UInt8) → List IptTable → List (List UInt8) → List IptTable → Prop
  | nil {cur ts} : Restore cur ts [] ts
  | cons {cur ts l cur' ts' ls ts''} : RestoreLine cur ts l cur' ts' → Restore cur' ts' ls ts'' → Restore cur ts (l :: ls) ts''

/-- The tables of `iptables` and of `ip6tables`. -/
abbrev IptTables := List UInt8 → List IptTable

/-- How the tables change in a history: `iptables-save` lists them, `iptables-restore -n` changes them as its lines say, or fails
after a part of the lines; nothing else touches them. -/
inductive IptRun : IptTables → List Ev → IptTables → Prop
  | nil {S} : IptRun S [] S
  | listed {S ipt r h S'} : IptListing (S ipt) r.out → IptRun S h S' → IptRun S ((.query [ipt ++ b!"-save"], r) :: h) S'
  | restored {S ipt lines ts r h S'} : r.status = 0 → (∀ l ∈ lines, (10 : UInt8) ∉ l) → Restore none (S ipt) lines ts →
      IptRun (Function.update S ipt ts) h S' → IptRun S ((.act [ipt ++ b!"-restore", b!"-n"] (unlines lines), r) :: h) S'
  | failed {S ipt lines rest ts r h S'} : r.status ≠ 0 → (∀ l ∈ lines ++ rest, (10 : UInt8) ∉ l) → Restore none (S ipt) lines ts →
      IptRun (Function.update S ipt ts) h S' → IptRun S ((.act [ipt ++ b!"-restore", b!"-n"] (unlines (lines ++ rest)), r) :: h) S'
  | other {S e h S'} : (∀ ipt, e.1 ≠ .query [ipt ++ b!"-save"]) → (∀ ipt t, e.1 ≠ .act [ipt ++ b!"-restore", b!"-n"] t) →
      IptRun S h S' → IptRun S (e :: h) S'

end WG.Spec.Quick
