import Verif.Model.Libc
/-!
Concrete models of glibc's `inet_pton` and `inet_ntop` (resolv/inet_pton.c, resolv/inet_ntop.c of glibc, not part of
/repo), and of numeric-only `getaddrinfo`/`getnameinfo`. The tools link against them; the general theorems quantify over
arbitrary system answers, these concrete functions discharge the laws ("parsing a printed address gives it back") that
round-trip theorems need, and serve in examples.
-/
namespace WG

/-- glibc resolv/inet_ntop.c `inet_ntop4`: `%u.%u.%u.%u`; decimal digits of a byte. -/
def decByte (b : UInt8) : CStr :=
  let n := b.toNat
  if n < 10 then [UInt8.ofNat (48 + n)]
  else if n < 100 then [UInt8.ofNat (48 + n / 10), UInt8.ofNat (48 + n % 10)]
  else [UInt8.ofNat (48 + n / 100), UInt8.ofNat (48 + n / 10 % 10), UInt8.ofNat (48 + n % 10)]

/-- glibc `inet_ntop(AF_INET, ...)`. -/
def ntop4 (a : IP4) : CStr :=
  decByte a[0] ++ c!"." :: decByte a[1] ++ c!"." :: decByte a[2] ++ c!"." :: decByte a[3]

/-- State of glibc's `inet_pton4` loop: finished octets, current octet, whether a digit of it was seen. -/
def pton4Loop : List UInt8 → Nat → Bool → CStr → Option (List UInt8)
  | done, cur, saw, [] =>
    if saw ∧ done.length = 3 then some (done ++ [UInt8.ofNat cur]) else none
  | done, cur, saw, c :: s =>
    if 48 ≤ c ∧ c ≤ 57 then
      let new := cur * 10 + (c.toNat - 48)
      if saw ∧ cur = 0 then none
      else if new > 255 then none
      else pton4Loop done new true s
    else if c = c!"." ∧ saw then
      if done.length = 3 then none
      else pton4Loop (done ++ [UInt8.ofNat cur]) 0 false s
    else none

/-- glibc `inet_pton(AF_INET, ...)`. -/
def pton4 (s : CStr) : Option IP4 :=
  (pton4Loop [] 0 false s).bind fun l => if h : l.length = 4 then some ⟨l.toArray, by simpa using h⟩ else none

/-- Hex digits of a 16-bit group without leading zeros (`%x`). -/
def hexGroup (n : Nat) : CStr :=
  let d (x : Nat) : UInt8 := if x < 10 then UInt8.ofNat (48 + x) else UInt8.ofNat (87 + x)
  if n < 16 then [d n]
  else if n < 256 then [d (n / 16), d (n % 16)]
  else if n < 4096 then [d (n / 256), d (n / 16 % 16), d (n % 16)]
  else [d (n / 4096), d (n / 256 % 16), d (n / 16 % 16), d (n % 16)]

/-- The eight 16-bit groups of an address. -/
def groupsOf (a : IP6) : List Nat :=
  (List.range 8).map fun i => (a.toList.getD (2 * i) 0).toNat * 256 + (a.toList.getD (2 * i + 1) 0).toNat

/-- Length of the run of zeros at the head. -/
def zeroRun : List Nat → Nat
  | 0 :: l => zeroRun l + 1
  | _ => 0

/-- glibc `inet_ntop6`: the first longest run of at least two zero groups, as (start, length). -/
def bestRun (ws : List Nat) : Option (Nat × Nat) :=
  (List.range 8).foldl (fun best i =>
    let n := zeroRun (ws.drop i)
    if 2 ≤ n then
      match best with
      | none => some (i, n)
      | some (_, m) => if m < n then some (i, n) else best
    else best) none

/-- Groups separated by colons. -/
def colonJoin : List CStr → CStr
  | [] => []
  | [x] => x
  | x :: xs => x ++ c!":" :: colonJoin xs

/-- The dotted-quad tail of an address. -/
def quadTail (a : IP6) : CStr :=
  decByte a[12] ++ c!"." :: decByte a[13] ++ c!"." :: decByte a[14] ++ c!"." :: decByte a[15]

/-- glibc `inet_ntop(AF_INET6, ...)`: `::` for the best run; an IPv4-compatible or IPv4-mapped address gets a dotted
quad. -/
def ntop6 (a : IP6) : CStr :=
  let ws := groupsOf a
  match bestRun ws with
  | none => colonJoin (ws.map hexGroup)
  | some (b, n) =>
    if b = 0 ∧ n = 6 then b!"::" ++ quadTail a
    else if b = 0 ∧ n = 5 ∧ ws.getD 5 0 = 0xffff then b!"::ffff:" ++ quadTail a
    else colonJoin ((ws.take b).map hexGroup) ++ b!"::" ++ colonJoin ((ws.drop (b + n)).map hexGroup)

/-- glibc `hex_digit_value`. -/
def hexDigitValue (c : UInt8) : Option Nat :=
  if 48 ≤ c ∧ c ≤ 57 then some (c.toNat - 48)
  else if 97 ≤ c ∧ c ≤ 102 then some (c.toNat - 87)
  else if 65 ≤ c ∧ c ≤ 70 then some (c.toNat - 55)
  else none

/-- End of glibc `inet_pton6`: expand the `::` at byte offset `colonp`. -/
def pton6Finish (out : List UInt8) (colonp : Option Nat) : Option (List UInt8) :=
  match colonp with
  | none => if out.length = 16 then some out else none
  | some k =>
    if out.length ≥ 16 then none
    else some (out.take k ++ List.replicate (16 - out.length) 0 ++ out.drop k)

/-- Loop of glibc `inet_pton6`: bytes written, current value, hex digits seen, offset of `::`, text of the current token,
remaining text. -/
def pton6Loop (out : List UInt8) (val seen : Nat) (colonp : Option Nat) (curtok : CStr) : CStr → Option (List UInt8)
  | [] =>
    if seen > 0 then
      if out.length + 2 > 16 then none
      else pton6Finish (out ++ [UInt8.ofNat (val / 256), UInt8.ofNat (val % 256)]) colonp
    else pton6Finish out colonp
  | c :: s =>
    match hexDigitValue c with
    | some d =>
      if seen = 4 then none
      else if val * 16 + d > 0xffff then none
      else pton6Loop out (val * 16 + d) (seen + 1) colonp curtok s
    | none =>
      if c = c!":" then
        if seen = 0 then
          if colonp.isSome then none
          else pton6Loop out val seen (some out.length) s s
        else if s = [] then none
        else if out.length + 2 > 16 then none
        else pton6Loop (out ++ [UInt8.ofNat (val / 256), UInt8.ofNat (val % 256)]) 0 0 colonp s s
      else if c = c!"." ∧ out.length + 4 ≤ 16 then
        match pton4 curtok with
        | some q => pton6Finish (out ++ q.toList) colonp
        | none => none
      else none

/-- glibc `inet_pton(AF_INET6, ...)`. -/
def pton6 (s : CStr) : Option IP6 :=
  let r := match s with
    | [] => none
    | 58 :: 58 :: t => pton6Loop [] 0 0 none (58 :: t) (58 :: t)
    | 58 :: _ => none
    | s => pton6Loop [] 0 0 none s s
  r.bind fun l => if h : l.length = 16 then some ⟨l.toArray, by simpa using h⟩ else none

/-- Numeric port text: decimal digits, at most 65535 (`getaddrinfo` also knows service names; not modelled here). -/
def portNum (s : CStr) : Option UInt16 :=
  if s ≠ [] ∧ s.all (fun c => 48 ≤ c ∧ c ≤ 57) ∧ digitsVal 10 s ≤ 65535 then some (UInt16.ofNat (digitsVal 10 s)) else none

/-- A concrete system: 64-bit, signed char, glibc address parsing, numeric getaddrinfo only, no files. -/
def stdEnv : Env where
  sc := true
  ulongMax := 2 ^ 64 - 1
  pton4 := pton4
  pton6 := pton6
  gaiPort s := match portNum s with | some p => .found (.in4 (Vector.replicate 4 0) p) | none => .permanent
  gai _ host service :=
    match portNum service with
    | none => .permanent
    | some p =>
      match pton4 host with
      | some a => .found (.in4 a p)
      | none => match pton6 host with
        | some a => .found (.in6 a p 0 0)
        | none => .permanent
  file _ := none
  retriesVar := none
  patience := 100

end WG
