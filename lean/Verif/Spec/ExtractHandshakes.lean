import Verif.Model.ExtractHandshakes
import Verif.Spec.Show
/-!
The kernel's side of contrib/extract-handshakes (kprobe tracing), matching a regular expression, and the keys there are.
-/
namespace WG.Spec.Handshakes
open WG.Handshakes

/-- The machine when the probe is hit: its memory and the register that holds the address of the handshake; pointers have `ptr` bytes. -/
structure Machine where
  endian : Endian
  ptr : Nat
  mem : Nat → UInt8
  reg : Nat

def bytesAt (m : Machine) (a n : Nat) : List UInt8 := (List.range n).map fun i => m.mem (a + i)

/-- The number whose bytes these are, the lowest first. -/
def value : List UInt8 → Nat
  | [] => 0
  | b :: r => b.toNat + 256 * value r

/-- A number of `n` bytes in memory. -/
def load (m : Machine) (n a : Nat) : Nat :=
  match m.endian with
  | .little => value (bytesAt m a n)
  | .big => value (bytesAt m a n).reverse

/-- What the kernel can be asked for: the register, or the memory `off` bytes after an address. -/
inductive Fetch where
  | reg
  | deref (off : Nat) (f : Fetch)

/-- Documentation/trace/kprobetrace.rst: `+OFFS(FETCHARG)`. -/
def Fetch.text (reg : CStr) : Fetch → CStr
  | .reg => reg
  | .deref off f => b!"+" ++ decimal off ++ b!"(" ++ f.text reg ++ b!")"

/-- The value of an argument of `n` bytes. -/
def Fetch.eval (m : Machine) : Fetch → Nat → Nat
  | .reg, _ => m.reg
  | .deref off f, n => load m n (f.eval m m.ptr + off)

/-- The line that defines the probe, for these arguments. -/
def probe (reg : CStr) (args : List (CStr × Fetch)) : CStr :=
  b!"p:wireguard/idxadd index_hashtable_insert " ++ ((args.map fun (n, f) => n ++ b!"=" ++ f.text reg ++ b!":x64").intersperse b!" ").flatten

def fields (names : List CStr) (values : List CStr) : CStr := ((names.zip values).map fun (n, v) => b!" " ++ n ++ b!"=0x" ++ v).flatten

/-- A line of `trace_pipe`: process, time, the probe, where it is, and the arguments. -/
def traceLine (m : Machine) (args : List (CStr × Fetch)) (header place : CStr) : CStr :=
  header ++ b!": idxadd: " ++ place ++ fields (args.map (·.1)) (args.map fun a => hexadecimal (a.2.eval m 8))

def IsHex (v : CStr) : Prop := v ≠ [] ∧ ∀ c ∈ v, (48 ≤ c ∧ c ≤ 57) ∨ (97 ≤ c ∧ c ≤ 102)

/-- `.*: idxadd: .* name=0x([0-9a-f]+) …` matches the beginning of the line with these groups, and leaves `rest`. -/
def Matches (names : List CStr) (line : CStr) (caps : List CStr) (rest : CStr) : Prop :=
  caps.length = names.length ∧ (∀ v ∈ caps, IsHex v) ∧ ∃ a b, line = a ++ b!": idxadd: " ++ b ++ fields names caps ++ rest

/-- A match is found if there is one, and it is a longest one. -/
def Posix (re : List CStr → CStr → Option (List CStr)) : Prop :=
  ∀ names line, match re names line with
    | none => ∀ caps rest, ¬ Matches names line caps rest
    | some caps => ∃ rest, Matches names line caps rest ∧ ∀ caps' rest', Matches names line caps' rest' → rest.length ≤ rest'.length

/-- Where the key is: at an offset from the handshake, or from what a pointer in the handshake points to. -/
def place (m : Machine) (s : Source) : Nat :=
  match s.indirection with
  | some ind => load m m.ptr (m.reg + ind) + s.offset
  | none => m.reg + s.offset

/-- The address the offset is added to. -/
def base (s : Source) : Fetch :=
  match s.indirection with
  | some ind => .deref ind .reg
  | none => .reg

/-- What is to be fetched: four numbers of 8 bytes for every key. -/
def wanted (srcs : List Source) : List (CStr × Fetch) :=
  srcs.flatMap fun s => [0, 1, 2, 3].map fun i => (argName s i, .deref (i * 8 + s.offset) (base s))

/-- The key of 32 bytes. -/
def keyAt (m : Machine) (s : Source) : List UInt8 := bytesAt m (place m s) 32

/-- What is to be printed. -/
def report (srcs : List Source) (key : Source → List UInt8) : List CStr :=
  b!"New handshake session:" :: srcs.map fun s => b!"  " ++ s.name ++ b!" = " ++ rfc4648 (key s)

/-- What comes out instead of 8 bytes on a little-endian machine: the zeros at the end are moved to the front. -/
def shifted (g : List UInt8) : List UInt8 :=
  let n := (g.reverse.takeWhile (· = 0)).length
  List.replicate n 0 ++ g.take (8 - n)

/-- … of each 8 bytes of a key. -/
def shiftedKey (k : List UInt8) : List UInt8 := [0, 1, 2, 3].flatMap fun i => shifted ((k.drop (8 * i)).take 8)

end WG.Spec.Handshakes
