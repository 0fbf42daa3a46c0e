import Verif.Model.Show
import Verif.Model.Libc
import Verif.Spec.Encoding
/-!
Model of contrib/extract-handshakes/extract-handshakes.sh, which makes the kernel print the keys of every handshake and shows them. Line numbers are
those of the script.

`OFFSETS` and `ENDIAN` are what offset-finder prints (offset-finder.c:31-45), for each name an offset and maybe another one; reading these numbers as text
is not modelled. `base64` is that of RFC 4648; it breaks lines only after 76 characters. How `=~` chooses among matches is a parameter. `turn_off`, the
traps, and failures to write to the files of the kernel are not modelled.
-/
namespace WG.Handshakes

inductive Endian where
  | little
  | big
deriving DecidableEq

/-- An entry of `OFFSETS`; `"${!OFFSETS[@]}"` gives them in the same order every time. -/
structure Source where
  name : CStr
  offset : Nat
  indirection : Option Nat
deriving DecidableEq

/-- 33: `${key,,}$i` -/
def argName (s : Source) (i : Nat) : CStr := s.name.map tolowerC ++ showDec i

/-- 28-33: one element of `ARGS`. -/
def argText (reg : CStr) (s : Source) (i : Nat) : CStr :=
  let value := match s.indirection with
    | some ind => b!"+" ++ showDec ind ++ b!"(" ++ reg ++ b!")"
    | none => reg
  argName s i ++ b!"=" ++ (b!"+" ++ showDec (i * 8 + s.offset) ++ b!"(" ++ value ++ b!")") ++ b!":x64"

/-- 24-36, 47: the line written to `kprobe_events`. -/
def probeText (reg : CStr) (srcs : List Source) : CStr :=
  b!"p:wireguard/idxadd index_hashtable_insert " ++
    ((srcs.flatMap fun s => (List.range 4).map fun i => argText reg s i).intersperse b!" ").flatten

/-- 34: the names in `REGEX`, in order. -/
def regexNames (srcs : List Source) : List CStr := srcs.flatMap fun s => (List.range 4).map fun i => argName s i

/-- 50-66: what `unpack_u64` prints: escapes for `printf`. -/
def unpack : Endian → CStr → CStr
  | .big, s =>
    let x := List.replicate (16 - s.length) c!"0" ++ s
    (List.range 8).flatMap fun i => b!"\\x" ++ (x.drop (i * 2)).take 2
  | .little, s =>
    let x := if s.length % 2 = 1 then c!"0" :: s else s
    let x := x ++ List.replicate 16 c!"0"
    (List.range 8).flatMap fun i => b!"\\x" ++ (x.drop ((7 - i) * 2)).take 2

def hexVal (c : UInt8) : Option Nat :=
  if 48 ≤ c ∧ c ≤ 57 then some (c.toNat - 48) else if 97 ≤ c ∧ c ≤ 102 then some (c.toNat - 87) else none

/-- 77: `printf` with `\xHH`; no other escapes occur, and no `%`. -/
def printfBytes : CStr → List UInt8
  | c :: x :: a :: b :: r =>
    if c = 92 ∧ x = c!"x" then
      match hexVal a, hexVal b with
      | some h, some l => UInt8.ofNat (h * 16 + l) :: printfBytes r
      | _, _ => c :: x :: a :: b :: printfBytes r
    else c :: printfBytes (x :: a :: b :: r)
  | l => l

/-- 68-79: what is printed for a line from `trace_pipe`; `re` is `=~ $REGEX` and gives `BASH_REMATCH[1]`, …. -/
def shown (e : Endian) (re : List CStr → CStr → Option (List CStr)) (srcs : List Source) (line : CStr) : List CStr :=
  match re (regexNames srcs) line with
  | none => []
  | some caps =>
    b!"New handshake session:" :: srcs.zipIdx.map fun (s, j) =>
      b!"  " ++ s.name ++ b!" = " ++
        Spec.rfc4648 (printfBytes ((List.range 4).flatMap fun i => unpack e (caps.getD (4 * j + i) [])))

end WG.Handshakes
