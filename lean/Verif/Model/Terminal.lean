import Verif.Model.Ctype
/-! Model of src/terminal.c. Memory accesses are checked: `none` is an access outside the buffer. -/
namespace WG

/-- Read `str[i]`. -/
def rd (buf : List UInt8) (i : Nat) : Option UInt8 := buf[i]?

/-- `str[i] = v`. -/
def wr (buf : List UInt8) (i : Nat) (v : UInt8) : Option (List UInt8) := if i < buf.length then some (buf.set i v) else none

/-- terminal.c:18-32 `color_mode`: WG_COLOR_MODE and whether standard output is a terminal. -/
def colorMode (var : Option CStr) (isatty : Bool) : Bool :=
  if var = some b!"always" then true else if var = some b!"never" then false else isatty

/-- terminal.c:49-54: from `j` (with `n = len - j` steps left), zero the bytes before the next letter, and the letter (or the
byte at `len`). -/
def blankSeq (sc : Bool) : Nat → Nat → List UInt8 → Option (List UInt8)
  | 0, j, buf => wr buf j 0
  | n + 1, j, buf => do
    let c ← rd buf j
    if isAlphaC sc c then wr buf j 0
    else
      let buf ← wr buf j 0
      blankSeq sc n (j + 1) buf

/-- terminal.c:46-56: the loop over `i`, with `n = len - 2 - i` steps left. -/
def blankLoop (sc : Bool) (len : Nat) : Nat → Nat → List UInt8 → Option (List UInt8)
  | 0, _, buf => some buf
  | n + 1, i, buf => do
    let c ← rd buf i
    if c = 27 then
      let d ← rd buf (i + 1)
      if d = c!"[" then
        let buf ← wr buf (i + 1) 0
        let buf ← wr buf i 0
        let buf ← blankSeq sc (len - (i + 2)) (i + 2) buf
        blankLoop sc len n (i + 1) buf
      else blankLoop sc len n (i + 1) buf
    else blankLoop sc len n (i + 1) buf

/-- `strlen(&buf[i])` and the bytes read: up to the first NUL, which must be inside the buffer. -/
def strAt (buf : List UInt8) (i : Nat) : Option CStr :=
  let s := (buf.drop i).takeWhile (· ≠ 0)
  if i + s.length < buf.length then some s else none

/-- terminal.c:60-63: skip NULs from `j`, with `n = len - j` steps left. -/
def skipNul (buf : List UInt8) : Nat → Nat → Option Nat
  | 0, j => some j
  | n + 1, j => do
    let c ← rd buf j
    if c ≠ 0 then some j else skipNul buf n (j + 1)

/-- terminal.c:58-64: the loop that prints the strings between NULs (`fuel`: iterations left, at most `len`). -/
def putLoop (buf : List UInt8) (len : Nat) : Nat → Nat → Option (List UInt8)
  | 0, i => if i < len then none else some []
  | fuel + 1, i =>
    if i < len then do
      let s ← strAt buf i
      let j ← skipNul buf (len - (i + s.length)) (i + s.length)
      let rest ← putLoop buf len fuel j
      return s ++ rest
    else some []

/-- terminal.c:34-67 `filter_ansi` for the formatted text `text` (failure of `vasprintf` is not modelled): what is written to
standard output. -/
def filterAnsi (sc : Bool) (color : Bool) (text : CStr) : Option (List UInt8) :=
  if color then some text
  else do
    let buf := text ++ [0]
    let len := text.length
    let buf ← if len ≥ 2 then blankLoop sc len (len - 2) 0 buf else some buf
    putLoop buf len len 0

end WG
