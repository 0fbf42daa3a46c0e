import Verif.Spec.Quick
import Verif.Model.Uapi
import Mathlib.Data.List.DropRight
/-!
What wg-quick reads from the output of other commands, independent of the script: captured output, lines, fields, and the places
in the text it looks for.
-/
namespace WG.Spec.Quick
open WG.Spec

/-- The value of `$(command)`: the output without NUL bytes and without the line feeds at its end. -/
def captured (out : List UInt8) : List UInt8 := (out.filter (· ≠ 0)).rdropWhile (· = 10)

/-- The lines that are ended by a line feed, without spaces and tabs around them. -/
def EndedLines (content : List UInt8) (lines : List (List UInt8)) : Prop :=
  ∃ (segs : List (List UInt8)) (last : List UInt8), content.filter (· ≠ 0) = segs.flatMap (· ++ [10]) ++ last ∧
    (∀ s ∈ segs, (10 : UInt8) ∉ s) ∧ (10 : UInt8) ∉ last ∧ List.Forall₂ (Trimmed spaceTab) segs lines

/-- The first line, ended or not, without spaces and tabs around it. -/
def FirstLine (content line : List UInt8) : Prop :=
  ∃ s, Before 10 (content.filter (· ≠ 0)) s ∧ Trimmed spaceTab s line

/-- What follows the first word of a line. -/
def Remainder (line x : List UInt8) : Prop :=
  ∃ w g, line = w ++ g ++ x ∧ (∀ c ∈ w, spaceTab c = false) ∧ (∀ c ∈ g, spaceTab c) ∧
    (∀ c, x.head? = some c → spaceTab c = false) ∧ (g = [] → x = [])

/-- The remainders of the lines of a listing with one item per line. -/
def Remainders (content : List UInt8) (xs : List (List UInt8)) : Prop :=
  ∃ lines, EndedLines content lines ∧ List.Forall₂ Remainder lines xs

/-- The first place in `s` where `word` is followed by a byte of the class `p`; `d` is the whole run of such bytes there. -/
def FirstArg (word : List UInt8) (p : UInt8 → Bool) (s d : List UInt8) : Prop :=
  ∃ a b, s = a ++ word ++ d ++ b ∧ d ≠ [] ∧ (∀ x ∈ d, p x) ∧ (∀ x, b.head? = some x → p x = false) ∧
    ∀ a' x b', s = a' ++ word ++ x :: b' → p x → a.length ≤ a'.length

/-- `mtu N` in the output of `ip`. -/
def MtuIn (s : List UInt8) (n : Nat) : Prop := ∃ d, FirstArg b!"mtu " isDigit s d ∧ n = decVal d

/-- `dev NAME` in the output of `ip`. -/
def DevIn (s name : List UInt8) : Prop := FirstArg b!"dev " (fun c => decide (c ≠ 32)) s name

/-- A byte of a numeric address (or of a name in lower case). -/
def addrByte (c : UInt8) : Bool := isDigit c || (97 ≤ c && c ≤ 122) || c = c!":" || c = c!"."

/-- `host:port` or `[host]:port` with a numeric port. -/
def EndpointHost (e host : List UInt8) : Prop :=
  ∃ o cl port, e = o ++ host ++ cl ++ b!":" ++ port ∧ (o = [] ∨ o = b!"[") ∧ (cl = [] ∨ cl = b!"]") ∧
    host ≠ [] ∧ (∀ c ∈ host, addrByte c) ∧ port ≠ [] ∧ ∀ c ∈ port, isDigit c

/-- The line `PREFIX*` of resolvconf's interface-order file. -/
def OrderLine (line pre : List UInt8) : Prop := line = pre ++ b!"*" ∧ pre ≠ [] ∧ ∀ c ∈ pre, isAlpha c ∨ isDigit c ∨ c = c!"-"

/-- A network `address/prefix length` among the allowed IPs. -/
def IsRoute (w : List UInt8) : Prop :=
  ∃ a n, w = a ++ b!"/" ++ n ∧ a ≠ [] ∧ (∀ c ∈ a, addrByte c) ∧ n ≠ [] ∧ ∀ c ∈ n, isDigit c

/-- Spaces, tabs and line feeds. -/
def blankSep (c : UInt8) : Bool := c = 32 ∨ c = 9 ∨ c = 10

/-- The results `ys` of those `xs` that have one, in order. -/
inductive Collected {α β : Type} (R : α → β → Prop) : List α → List β → Prop
  | nil : Collected R [] []
  | hit {x y xs ys} : R x y → Collected R xs ys → Collected R (x :: xs) (y :: ys)
  | miss {x xs ys} : (∀ y, ¬ R x y) → Collected R xs ys → Collected R (x :: xs) ys

/-- The networks in the output of `wg show INTERFACE allowed-ips`, in order: of every line but the first word all words that are
networks. -/
def RoutesShown (out : List UInt8) (rs : List (List UInt8)) : Prop :=
  ∃ xs wss, Remainders out xs ∧ List.Forall₂ (Words blankSep) xs wss ∧ Collected (fun w r => r = w ∧ IsRoute w) wss.flatten rs

/-- A byte of an address as `ip` prints it. -/
def hexAddrByte (c : UInt8) : Bool := isDigit c || (97 ≤ c && c ≤ 102) || c = c!":" || c = c!"."

/-- The address after `inet` or `inet6` in a line of `ip -o addr show`: the last place where one is followed by `/` and a digit. -/
def InetAt (line x a : List UInt8) : Prop :=
  ∃ k d y, line = x ++ k ++ a ++ b!"/" ++ d :: y ∧ (k = b!"inet " ∨ k = b!"inet6 ") ∧ a ≠ [] ∧ (∀ c ∈ a, hexAddrByte c) ∧ isDigit d

def InetAddr (line a : List UInt8) : Prop := ∃ x, InetAt line x a ∧ ∀ x' a', InetAt line x' a' → x'.length ≤ x.length

/-- The addresses in the output of `ip -o addr show`. -/
def InetAddrs (out : List UInt8) (as : List (List UInt8)) : Prop := ∃ lines, EndedLines out lines ∧ Collected InetAddr lines as

end WG.Spec.Quick
