import Verif.Model.QuickParse
import Verif.Model.Uapi
/-!
Model of the configuration reader of wg-quick for Android, src/wg-quick/android.c:1169-1272 `parse_options`, and of the list of
application uids, android.c:741-835. Line numbers are those of android.c.
-/
namespace WG.Android
open WG.Quick (isNameByte isName)

/-- `strtol(s, NULL, 10)` with a 64-bit `long`, and the conversion to `int` of `atoi`. -/
def atoi (s : CStr) : Int :=
  let (neg, s2) := strtoulSign (s.dropWhile isspaceLibc)
  let v : Int := (digitsVal 10 (s2.takeWhile (isDigitOf 10)) : Nat)
  let v := if neg then max (-2 ^ 63) (-v) else min (2 ^ 63 - 1) v
  (v + 2 ^ 31) % 2 ^ 32 - 2 ^ 31

/-- The conversion of an `int` to `unsigned int`. -/
def toUnsigned (i : Int) : Nat := (i % 2 ^ 32).toNat

/-- 32-34 `WG_CONFIG_SEARCH_PATHS`, as `strtok(paths, " ")` splits it. -/
def searchPaths : List CStr := [b!"/data/misc/wireguard", b!"/data/data/com.wireguard.android/files"]

/-- 1185, 1212: the leftmost longest match of `/?([a-zA-Z0-9_=+.-]{1,15})\.conf$`: what is before `.conf` must end in name bytes; of
these at most fifteen are taken. -/
def ifaceOf (path : CStr) : Option CStr :=
  if b!".conf" <:+ path then
    let n := (((path.take (path.length - 5)).reverse.takeWhile isNameByte).take 15).reverse
    if n = [] then none else some n
  else none

/-- The variables of `main` that `parse_options` sets; `none` is NULL. -/
structure Conf where
  iface : CStr := []
  config : Option CStr := none
  mtu : Nat := 0
  addrs : Option CStr := none
  dnses : Option CStr := none
  excluded : Option CStr := none
  included : Option CStr := none
deriving DecidableEq

/-- 102-112 `concat_and_free`. -/
def concatAndFree (orig : Option CStr) (delim new : CStr) : Option CStr :=
  match orig with
  | none => some new
  | some o => some (o ++ delim ++ new)

/-- 1231-1237: the line without white space. `isspace` is that of the C locale. -/
def cleanOf (line : CStr) : CStr := line.filter fun c => !isspaceLibc c

/-- 1239-1242 -/
def sectionAfter (sec : Bool) (clean : CStr) : Bool :=
  if strcaseeq clean b!"[Interface]" then true else if clean.head? = some c!"[" then false else sec

/-- 1243-1260: the settings; `none`: the line is none of them. -/
def ownSetting (c : Conf) (clean : CStr) : Option Conf :=
  if strncaseeq clean b!"Address=" 8 && clean.length > 8 then some { c with addrs := concatAndFree c.addrs b!"," (clean.drop 8) }
  else if strncaseeq clean b!"DNS=" 4 && clean.length > 4 then some { c with dnses := concatAndFree c.dnses b!"," (clean.drop 4) }
  else if strncaseeq clean b!"ExcludedApplications=" 21 && clean.length > 4 then some { c with excluded := concatAndFree c.excluded b!"," (clean.drop 21) }
  else if strncaseeq clean b!"IncludedApplications=" 21 && clean.length > 4 then some { c with included := concatAndFree c.included b!"," (clean.drop 21) }
  else if strncaseeq clean b!"MTU=" 4 && clean.length > 4 then some { c with mtu := toUnsigned (atoi (clean.drop 4)) }
  else none

/-- 1228-1261: one line. -/
def parseLine (sec : Bool) (c : Conf) (line : CStr) : Bool × Conf :=
  let clean := cleanOf line
  let sec := sectionAfter sec clean
  (sec, match (if sec then ownSetting c clean else none) with
    | some c => c
    | none => { c with config := concatAndFree c.config [] line })

/-- 1264-1271 -/
def orEmpty (c : Conf) : Conf :=
  { c with config := some (c.config.getD []), addrs := some (c.addrs.getD []), dnses := some (c.dnses.getD []) }

/-- 1227-1271: the loop and what follows it. A line of more than 65536 bytes ends the function at once. -/
def parseLoop : Bool → Conf → List CStr → Conf
  | _, c, [] => orEmpty c
  | sec, c, l :: ls => if l.length > 65536 then c else let r := parseLine sec c l; parseLoop r.1 r.2 ls

/-- How `parse_options` ends: with `exit`, or with the variables set. -/
inductive Parse where
  | refused (status : Nat)
  | conf (c : Conf)
deriving DecidableEq

/-- `fopen`: the content or an error number. -/
abbrev Files := CStr → Except Nat (List UInt8)

/-- 1187-1202: the file in the search path; `e` is the last error. -/
def searchLoop (files : Files) (arg : CStr) : Nat → List CStr → Except Nat (CStr × List UInt8)
  | e, [] => .error e
  | _, d :: ds => match files (d ++ b!"/" ++ arg ++ b!".conf") with
    | .ok content => .ok (d ++ b!"/" ++ arg ++ b!".conf", content)
    | .error e => searchLoop files arg e ds

/-- 1187-1210 -/
def openConf (files : Files) (arg : CStr) : Except Nat (CStr × List UInt8) :=
  if isName arg then searchLoop files arg 0 searchPaths
  else match files arg with
    | .ok content => .ok (arg, content)
    | .error e => .error e

/-- 1169-1272 `parse_options`. Not modelled: failing `fstat` and the warning about permissions, failing allocations. The status of a
refusal for want of a file is the error number of the last `fopen`; EINVAL is 22. A read error is the end of the file. -/
def parseOptions (files : Files) (arg : CStr) : Parse :=
  match openConf files arg with
  | .error e => .refused e
  | .ok (path, content) => match ifaceOf path with
    | none => .refused 22
    | some iface => .conf (parseLoop false { iface := iface } ((getlines content).map cstr))

/-! ### Applications -/

/-- 753-754: the size of the array: two and one more for each comma after the first byte. The search begins with the second byte even
if there is only the terminator: `none` is a read outside the string. -/
def uidCap (sel : CStr) : Option Nat :=
  match sel with
  | [] => none
  | _ :: t => some (2 + t.count c!",")

/-- 776-781: the loop over the list. `mem` is the memory from `start` on; it goes on behind the terminator of the list. `none` is a read
outside of `mem`. -/
def tokens : (fuel : Nat) → List UInt8 → Option (List CStr)
  | 0, _ => none
  | fuel + 1, mem =>
    let tok := mem.takeWhile fun c => c ≠ c!"," ∧ c ≠ 0
    match mem.drop tok.length with
    | [] => none
    | c :: rest =>
      if tok = [] ∧ c = 0 then some []
      else (tokens fuel rest).map fun ts => tok :: ts

/-- 766-774: name and uid of a line of the package list; `none` is `continue`. A 64-bit `unsigned long` is converted to 32 bits. -/
def packageOf (raw : List UInt8) : Option (CStr × Nat) :=
  let line := cstr raw
  match line.dropWhile (· ≠ 32) with
  | [] => none
  | _ :: rest =>
    let s := rest.takeWhile (· ≠ 32)
    let r := strtoul (2 ^ 64 - 1) 10 s
    let uid := r.1 % 2 ^ 32
    if uid = 0 ∨ s = [] ∨ r.2 ≠ [] then none else some (line.takeWhile (· ≠ 32), uid)

/-- How `get_uid_list` ends: `ub` is an access outside of an array or of a string. -/
inductive Uids where
  | ok (l : List Nat)
  | exit (status : Nat)
  | ub
deriving DecidableEq

/-- 763-782 for all lines: the uids stored. -/
def storedUids (toks : List CStr) (packages : List UInt8) : List Nat :=
  (getlines packages).flatMap fun raw => match packageOf raw with
    | none => []
    | some (name, uid) => (toks.filter fun t => t ≠ [] ∧ t = name).map fun _ => uid

/-- Whether the loop over the list is entered at all. -/
def anyPackage (packages : List UInt8) : Bool := (getlines packages).any fun raw => (packageOf raw).isSome

/-- 736-739 `compare_uid`: the difference as an `int`. -/
def compareUid (a b : Nat) : Int := ((a : Int) - b + 2 ^ 31) % 2 ^ 32 - 2 ^ 31

/-- 741-785 `get_uid_list`: `residue` is what is in memory behind the terminator of the list, `sort` is `qsort` with `compare_uid`. The
array ends with its first zero; `ub` if there is none left. -/
def getUidList (packages : Except Nat (List UInt8)) (residue : List UInt8) (sort : List Nat → List Nat) (sel : Option CStr) : Uids :=
  match sel with
  | none => .ok []
  | some sel => match uidCap sel with
    | none => .ub
    | some cap => match packages with
      | .error e => .exit e
      | .ok content =>
        if anyPackage content then
          match tokens ((sel ++ 0 :: residue).length + 1) (sel ++ 0 :: residue) with
          | none => .ub
          | some toks =>
            let l := storedUids toks content
            if l.length < cap then .ok (sort l) else .ub
        else .ok []

/-- 803-816: the ranges between the uids; the last number is the first uid that is not yet in a range. `unsigned int` wraps. -/
def gaps : Nat → List Nat → List (Nat × Nat) × Nat
  | start, [] => ([], start)
  | start, u :: us =>
    let r := gaps ((u + 1) % 2 ^ 32) us
    (if start > u - 1 then r.1 else (start, u - 1) :: r.1, r.2)

/-- 806-809 `snprintf(range, …)` -/
def showRange (r : Nat × Nat) : CStr := if r.1 = r.2 then showDec r.1 else showDec r.1 ++ b!"-" ++ showDec r.2

/-- 811-815, 825-829, 833-834: eighteen arguments for each command. -/
def batches : (fuel : Nat) → List CStr → List (List CStr)
  | 0, _ => []
  | fuel + 1, l => if l = [] then [] else l.take 18 :: batches fuel (l.drop 18)

/-- Texts with a space between them. -/
def joined : List CStr → CStr
  | [] => []
  | [w] => w
  | w :: ws => w ++ b!" " ++ joined ws

/-- 801-834: the arguments of `network users add`; `true` for excluded applications. -/
def userRanges (exclude : Bool) (uids : List Nat) : List CStr :=
  if exclude then
    let g := gaps 0 uids
    g.1.map showRange ++ (if g.2 < 99999 then [showDec g.2 ++ b!"-99999"] else [])
  else uids.map showDec

end WG.Android
