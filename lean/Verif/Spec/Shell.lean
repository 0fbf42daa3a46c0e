import Verif.Spec.Values
/-!
How the shell takes a command line apart, as far as it is a simple command: blanks, quotes, and bytes without a meaning to the shell.
-/
namespace WG.Spec.Shell
open WG.Spec

/-- Bytes that mean nothing to the shell within the arguments of a command. -/
def plain (c : UInt8) : Bool := isAlpha c || isDigit c || (b!"_=+.-/:,@%!").contains c

/-- Bytes that mean something to the shell between double quotes, besides these. -/
def active (c : UInt8) : Bool := (b!"$`\\").contains c

inductive Mode
  | bare
  | single
  | double

/-- The words of the rest of a line; `cur` is the word that has begun. There are none if anything else than splitting is to be done. -/
def lex : Mode → (cur : Option (List UInt8)) → List UInt8 → Option (List (List UInt8))
  | .bare, cur, [] => some cur.toList
  | .single, _, [] => none
  | .double, _, [] => none
  | .bare, cur, c :: t =>
    if c = 32 then (lex .bare none t).map (cur.toList ++ ·)
    else if c = c!"'" then lex .single (some (cur.getD [])) t
    else if c = c!"\"" then lex .double (some (cur.getD [])) t
    else if plain c then lex .bare (some (cur.getD [] ++ [c])) t
    else none
  | .single, cur, c :: t => if c = c!"'" then lex .bare cur t else lex .single (some (cur.getD [] ++ [c])) t
  | .double, cur, c :: t =>
    if c = c!"\"" then lex .bare cur t
    else if active c then none
    else lex .double (some (cur.getD [] ++ [c])) t

/-- The words of a line. -/
def words (s : List UInt8) : Option (List (List UInt8)) := lex .bare none s

/-- The line runs one program, with these words as its name and arguments, and nothing else; its error messages may be discarded. -/
def Runs (s : List UInt8) (ws : List (List UInt8)) : Prop := words s = some ws ∨ ∃ s', s = s' ++ b!" 2>/dev/null" ∧ words s' = some ws

end WG.Spec.Shell
