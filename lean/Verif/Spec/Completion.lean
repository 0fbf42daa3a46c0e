import Verif.Model.Completion
import Verif.Spec.Encoding
/-!
What bash makes of a command line that is being typed, what `wg set` takes, and what is to be offered.
-/
namespace WG.Spec.Completion

/-- The words of bash: an argument is broken before and after every run of the characters of COMP_WORDBREAKS. -/
def wordsOf (brk : UInt8 → Bool) : CStr → List CStr
  | [] => []
  | [c] => [[c]]
  | c :: d :: r =>
    match wordsOf brk (d :: r) with
    | g :: gs => if brk c = brk d then (c :: g) :: gs else [c] :: g :: gs
    | [] => [[c]]

/-- Settings of COMP_WORDBREAKS: blanks apart, no letter, digit, or `-`, `/`, `+`, `_`, `.` is in it; `=` and `:` may be or not. -/
def Usual (brk : UInt8 → Bool) : Prop := ∀ c, isAlpha c ∨ isDigit c ∨ c ∈ b!"-/+_." → brk c = false

/-- The words of a text that are separated by blanks. -/
def blankWords : CStr → CStr → List CStr
  | [], w => if w = [] then [] else [w]
  | c :: r, w => if c = 32 ∨ c = 9 ∨ c = 10 then (if w = [] then [] else [w]) ++ blankWords r [] else blankWords r (w ++ [c])

/-- Characters that mean nothing to the shell. -/
def isPlain (c : UInt8) : Bool := isAlpha c ∨ isDigit c ∨ c ∈ b!"-/+_.= \t\n"

/-- In a text of such characters the shell finds nothing to expand. -/
def Expands (expand : CStr → List CStr) : Prop := ∀ t : CStr, (∀ c ∈ t, isPlain c = true) → expand t = blankWords t []

/-- An option of a peer: its name, and its value; `remove` has none. -/
abbrev PeerOpt := CStr × Option CStr

/-- A command line for `wg set` after the name of the interface. -/
structure Line where
  dev : List (CStr × CStr)
  peers : List (Key × List PeerOpt)

def devNames : List CStr := [b!"listen-port", b!"fwmark", b!"private-key"]
def peerNames : List CStr := [b!"preshared-key", b!"endpoint", b!"allowed-ips", b!"persistent-keepalive"]

/-- The arguments. -/
def Line.args (l : Line) : List CStr :=
  (l.dev.flatMap fun o => [o.1, o.2]) ++ l.peers.flatMap fun p => b!"peer" :: rfc4648 p.1.toList :: p.2.flatMap fun o => o.1 :: o.2.toList

/-- A value that does not begin or end with a character words are broken at. -/
def Inner (brk : UInt8 → Bool) (v : CStr) : Prop := ∃ c d, v.head? = some c ∧ v.getLast? = some d ∧ brk c = false ∧ brk d = false

/-- The options are those there are, and have values; no value of a peer ends with the word that begins a peer. -/
structure Line.Proper (brk : UInt8 → Bool) (l : Line) : Prop where
  dev : ∀ o ∈ l.dev, o.1 ∈ devNames ∧ Inner brk o.2
  opts : ∀ p ∈ l.peers, ∀ o ∈ p.2, (o.1 = b!"remove" ∧ o.2 = none) ∨ (o.1 ∈ peerNames ∧ ∃ v, o.2 = some v ∧ Inner brk v ∧ ¬ b!"peer" <:+ v)

/-- The words of bash for `wg set INTERFACE ARGUMENTS CURRENT`. -/
def typed (brk : UInt8 → Bool) (iface : CStr) (args : List CStr) (cur : CStr) : List CStr :=
  b!"wg" :: b!"set" :: iface :: args.flatMap (wordsOf brk) ++ [cur]

/-- The index of the current one. -/
def cursor (brk : UInt8 → Bool) (args : List CStr) : Nat := 3 + (args.flatMap (wordsOf brk)).length

/-- The names of the options that can be next: those not yet given, for the interface or for the last peer. -/
def nextNames (l : Line) : List CStr :=
  match l.peers.getLast? with
  | none => (devNames.filter fun n => n ∉ l.dev.map (·.1)) ++ [b!"peer"]
  | some p =>
    if b!"remove" ∈ p.2.map (·.1) then [b!"peer"]
    else (peerNames.filter fun n => n ∉ p.2.map (·.1)) ++ [b!"remove", b!"peer"]

/-- Those that begin with what has been typed. -/
def startingWith (cur : CStr) (l : List CStr) : List CStr := l.filter fun w => cur.isPrefixOf w

end WG.Spec.Completion
