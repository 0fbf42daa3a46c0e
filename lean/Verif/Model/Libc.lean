import Verif.Model.Types
/-! Models of the libc functions the parsers use, in the "C" locale (the tools never call setlocale). -/
namespace WG

/-- `tolower` of one byte in the C locale. -/
def tolowerC (c : UInt8) : UInt8 := if 65 ≤ c ∧ c ≤ 90 then c + 32 else c

/-- `!strcasecmp(a, b)`. -/
def strcaseeq (a b : CStr) : Bool := a.map tolowerC == b.map tolowerC

/-- `!strncasecmp(a, b, n)`: equality of the first `n` characters ignoring case. -/
def strncaseeq (a b : CStr) (n : Nat) : Bool := (a.take n).map tolowerC == (b.take n).map tolowerC

/-- `isspace` in the C locale. -/
def isspaceLibc (c : UInt8) : Bool := c == 32 || (9 ≤ c && c ≤ 13)

/-- The value of a character as a digit (0-35), as `strtoul` reads it. -/
def digitVal (c : UInt8) : Option Nat :=
  if 48 ≤ c ∧ c ≤ 57 then some (c.toNat - 48)
  else if 97 ≤ c ∧ c ≤ 122 then some (c.toNat - 87)
  else if 65 ≤ c ∧ c ≤ 90 then some (c.toNat - 55)
  else none

/-- Is the character a digit in the given base? -/
def isDigitOf (base : Nat) (c : UInt8) : Bool :=
  match digitVal c with
  | some d => d < base
  | none => false

/-- Value of a digit string, most significant digit first. -/
def digitsVal (base : Nat) (l : List UInt8) : Nat :=
  l.foldl (fun n c => n * base + (digitVal c).getD 0) 0

/-- The sign part of `strtoul`. -/
def strtoulSign : CStr → Bool × CStr
  | 45 :: t => (true, t)
  | 43 :: t => (false, t)
  | s => (false, s)

/-- The `0x` prefix part of `strtoul` for base 16; glibc skips it only if a hex digit follows. -/
def strtoulPrefix (base : Nat) (s : CStr) : CStr :=
  match s with
  | 48 :: x :: d :: t => if base = 16 && (x == 120 || x == 88) && isDigitOf 16 d then d :: t else s
  | _ => s

/-- `strtoul(s, &end, base)` for base 10 or 16 (C17 7.22.1.4): skip white space, optional sign, optional `0x` for base
16, the longest digit run; the result saturates at `ULONG_MAX`, a minus sign negates modulo `ULONG_MAX + 1`. Returns the
value and the unread rest (`end`); no digits: value 0 and `end = s`. -/
def strtoul (ulongMax : Nat) (base : Nat) (s : CStr) : Nat × CStr :=
  let (neg, s2) := strtoulSign (s.dropWhile isspaceLibc)
  let s3 := strtoulPrefix base s2
  let ds := s3.takeWhile (isDigitOf base)
  if ds = [] then (0, s)
  else
    let v := digitsVal base ds
    let v := if v > ulongMax then ulongMax else if neg then (ulongMax + 1 - v) % (ulongMax + 1) else v
    (v, s3.dropWhile (isDigitOf base))

/-- Splitting with `strsep(&p, sep)` until it returns NULL: the pieces between separators (at least one piece). -/
def strsepAll (sep : UInt8) : CStr → List CStr
  | [] => [[]]
  | c :: t => if c = sep then [] :: strsepAll sep t
              else match strsepAll sep t with
                   | p :: ps => (c :: p) :: ps
                   | [] => [[c]]

/-- One `strsep(&p, sep)`: the text before the first separator, and what `p` becomes (NULL when there was none). -/
def strsepOne (sep : UInt8) (s : CStr) : CStr × Option CStr :=
  (s.takeWhile (· ≠ sep), match s.dropWhile (· ≠ sep) with | [] => none | _ :: t => some t)

/-- Outcome of a C function that can return failure, call `exit(1)`, hit undefined behaviour, or still be running when
the observer stops looking (endless name-resolution retries). -/
inductive Res (α : Type) where
  | ok (a : α)
  | fail
  | exit1
  | ub
  | running
deriving DecidableEq

namespace Res
@[reducible] def bind {α β : Type} (r : Res α) (f : α → Res β) : Res β :=
  match r with
  | ok a => f a
  | fail => fail
  | exit1 => exit1
  | ub => ub
  | running => running
instance : Monad Res where
  pure := ok
  bind := bind
/-- `if (!x) goto error` -/
def ofOption {α : Type} : Option α → Res α
  | some a => ok a
  | none => fail
end Res

/-- What `getaddrinfo` returns: an error (with `EAI_NONAME`, `EAI_FAIL`, `EAI_NODATA` being permanent),
or a first result: a `sockaddr_in`/`sockaddr_in6` of the right length, or anything else. -/
inductive Gai where
  | permanent
  | transient
  | found (e : Endpoint)
deriving DecidableEq

/-- A file as `fopen(path, "r")` sees it: its bytes, whether reading stops with an I/O error after
`errAt` bytes, and whether the stream has a position (`ftell` returns -1 on a pipe). -/
structure FileObj where
  content : List UInt8
  errAt : Option Nat := none
  seekable : Bool := true

/-- The bytes that can be read before end of file or error. -/
def FileObj.bytes (f : FileObj) : List UInt8 := match f.errAt with | none => f.content | some n => f.content.take n

/-- The answers of the platform and operating system. All theorems quantify over this structure.
* `sc`: `char` is signed; `ulongMax`: `ULONG_MAX`.
* `pton4`/`pton6`: `inet_pton` (1 and the address bytes, or failure).
* `gaiPort`: `getaddrinfo(NULL, service, AI_PASSIVE)`.
* `gai n host service`: the `n`-th `getaddrinfo(host, service)` call of the process: its answer may change over time.
* `retriesVar`: `getenv("WG_ENDPOINT_RESOLUTION_RETRIES")`.
* `patience`: how many attempts of one endless retry loop the observer waits for before reporting `running`. -/
structure Env where
  sc : Bool
  ulongMax : Nat
  pton4 : CStr → Option IP4
  pton6 : CStr → Option IP6
  gaiPort : CStr → Gai
  gai : Nat → CStr → CStr → Gai
  file : CStr → Option FileObj
  retriesVar : Option CStr
  patience : Nat

end WG
