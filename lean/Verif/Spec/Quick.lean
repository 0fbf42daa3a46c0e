import Verif.Spec.ConfigFile
import Verif.Spec.Values
/-!
What a wg-quick configuration file says, independent of the script: lines, keys, values, the [Interface] section, and which
lines are wg-quick's own.
-/
namespace WG.Spec.Quick
open WG.Spec

/-- `p` is the part of `s` before the first byte `c` (all of `s` if it has none). -/
def Before (c : UInt8) (s p : List UInt8) : Prop := c ∉ p ∧ (s = p ∨ ∃ rest, s = p ++ c :: rest)

/-- `t` is `s` without the leading and trailing bytes satisfying `blank`. -/
def Trimmed (blank : UInt8 → Bool) (s t : List UInt8) : Prop :=
  ∃ l r, s = l ++ t ++ r ∧ (∀ c ∈ l, blank c) ∧ (∀ c ∈ r, blank c) ∧
    (∀ c, t.head? = some c → blank c = false) ∧ (∀ c, t.getLast? = some c → blank c = false)

/-- Space or tab. -/
def spaceTab (c : UInt8) : Bool := c = 32 ∨ c = 9

/-- The lines of a file as wg-quick sees them: NUL bytes do not count, lines end at line feeds, spaces and tabs around a line
do not count, and a last line without line feed counts if something is left of it. -/
def ScriptLines (content : List UInt8) (lines : List (List UInt8)) : Prop :=
  ∃ (segs : List (List UInt8)) (last : List UInt8) (ls : List (List UInt8)) (t : List UInt8),
    content.filter (· ≠ 0) = segs.flatMap (· ++ [10]) ++ last ∧
    (∀ s ∈ segs, (10 : UInt8) ∉ s) ∧ (10 : UInt8) ∉ last ∧
    List.Forall₂ (Trimmed spaceTab) segs ls ∧ Trimmed spaceTab last t ∧
    lines = if t = [] then ls else ls ++ [t]

/-- The key of a line: what stands before the first `=` of the part before the first `#`, without surrounding white space. -/
def HasKey (line key : List UInt8) : Prop :=
  ∃ code lhs, Before c!"#" line code ∧ Before c!"=" code lhs ∧ Trimmed isSpace lhs key

/-- The value of a line: what stands between the first `=` and the first `#` (all that stands before the `#` when there is
no `=` there), without surrounding white space. -/
def HasValue (line value : List UInt8) : Prop :=
  ∃ code, Before c!"#" line code ∧
    ((∃ lhs rhs, code = lhs ++ c!"=" :: rhs ∧ c!"=" ∉ lhs ∧ Trimmed isSpace rhs value) ∨
     (c!"=" ∉ code ∧ Trimmed isSpace code value))

/-- After these lines we are in an [Interface] section: there is a line `[Interface]` after which no line's key opens a
section. -/
def InInterface (lines : List (List UInt8)) : Prop :=
  ∃ pre header post, lines = pre ++ header :: post ∧ (∃ k, HasKey header k ∧ EqNoCase k b!"[interface]") ∧
    ∀ l ∈ post, ∀ k, HasKey l k → k.head? ≠ some c!"["

/-- wg-quick's own keys (wg-quick(8)), in lower case. -/
def ownKeys : List (List UInt8) :=
  [b!"address", b!"mtu", b!"dns", b!"table", b!"preup", b!"predown", b!"postup", b!"postdown", b!"saveconfig"]

/-- The line `l` after the lines `before` gives wg-quick's own setting `k` the value `v`. -/
def OwnLine (before : List (List UInt8)) (l k v : List UInt8) : Prop :=
  InInterface (before ++ [l]) ∧ k ∈ ownKeys ∧ (∃ k', HasKey l k' ∧ EqNoCase k' k) ∧ HasValue l v

/-- The lines consist of `kept` and of wg-quick's own settings `sets`, each in order. -/
inductive Says : (lines kept : List (List UInt8)) → (sets : List (List UInt8 × List UInt8)) → Prop
  | nil : Says [] [] []
  | own {lines kept sets l k v} : Says lines kept sets → OwnLine lines l k v → Says (lines ++ [l]) kept (sets ++ [(k, v)])
  | keep {lines kept sets l} : Says lines kept sets → (∀ k v, ¬ OwnLine lines l k v) →
      Says (lines ++ [l]) (kept ++ [l]) sets

/-- `ws` are the maximal runs of bytes of `s` that are no separators. -/
inductive Words (sep : UInt8 → Bool) : List UInt8 → List (List UInt8) → Prop
  | nil {g} : (∀ c ∈ g, sep c) → Words sep g []
  | cons {g w rest ws} : (∀ c ∈ g, sep c) → w ≠ [] → (∀ c ∈ w, sep c = false) →
      (∀ c, rest.head? = some c → sep c) → Words sep rest ws → Words sep (g ++ w ++ rest) (w :: ws)

/-- List separators: comma, space, tab, line feed. -/
def listSep (c : UInt8) : Bool := c = c!"," ∨ c = 32 ∨ c = 9 ∨ c = 10

/-- The values given to the setting `k`, in order. -/
def valuesOf (k : List UInt8) (sets : List (List UInt8 × List UInt8)) : List (List UInt8) :=
  (sets.filter fun p => p.1 = k).map (·.2)

/-- All words of the values given to the setting `k`, in order. -/
def WordsOf (k : List UInt8) (sets : List (List UInt8 × List UInt8)) (ws : List (List UInt8)) : Prop :=
  ∃ wss, List.Forall₂ (Words listSep) (valuesOf k sets) wss ∧ ws = wss.flatten

/-- An entry of `DNS` that is an address rather than a search domain: only digits and dots, or containing a colon. -/
def IsNameserver (w : List UInt8) : Prop :=
  (w ≠ [] ∧ ∀ c ∈ w, isDigit c ∨ c = c!".") ∨ c!":" ∈ w

/-- A valid interface name: one to fifteen ASCII letters, digits or `_=+.-`. -/
def IsIfaceName (s : List UInt8) : Prop :=
  1 ≤ s.length ∧ s.length ≤ 15 ∧ ∀ c ∈ s, isAlpha c ∨ isDigit c ∨ c ∈ b!"_=+.-"

end WG.Spec.Quick
