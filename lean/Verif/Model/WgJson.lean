import Verif.Model.Show
/-!
Model of contrib/json/wg-json, a bash script that turns the output of `wg show all dump` into JSON. Line numbers are those of the script.

The variables `last_device`, `end` and `IFS` are not set in the environment. The input has no NUL bytes (bash drops them). The words of the
`for` loop (37) have no globbing characters. Numbers are what `$(( ))` takes for a decimal or hexadecimal constant, modulo 2^64 as bash
computes and `%u` prints; any other expression is `none`.
-/
namespace WG.WgJson

/-- The bytes of the default `IFS`. -/
def isIfs (c : UInt8) : Bool := c == 32 || c == 9 || c == 10

/-- Without white space at the end. -/
def trimEnd (s : CStr) : CStr := (s.reverse.dropWhile isIfs).reverse

/-- `read -r -d $'\t' device` (9): the text before the next tab, without white space at its ends, and what follows; `none`: no tab. -/
def readTab (input : List UInt8) : Option (CStr × List UInt8) :=
  match input.dropWhile (· ≠ 9) with
  | [] => none
  | _ :: rest => some (trimEnd ((input.takeWhile (· ≠ 9)).dropWhile isIfs), rest)

/-- How `read` splits a line for `n` variables: the last one gets the rest. -/
def fields : Nat → CStr → List CStr
  | 0, _ => []
  | 1, s => [trimEnd (s.dropWhile isIfs)]
  | n + 2, s =>
    let s := s.dropWhile isIfs
    s.takeWhile (!isIfs ·) :: fields (n + 1) (s.dropWhile (!isIfs ·))

/-- `read -r` with `n` variables (13, 23): their values, and what follows the line. -/
def readVars (n : Nat) (input : List UInt8) : List CStr × List UInt8 := (fields n (input.takeWhile (· ≠ 10)), (input.dropWhile (· ≠ 10)).drop 1)

/-- The value of digits in a base. -/
def valueOf (base : Nat) (digit : UInt8 → Option Nat) : Nat → CStr → Option Nat
  | v, [] => some v
  | v, c :: t => (digit c).bind fun d => valueOf base digit (v * base + d) t

def decDigit (c : UInt8) : Option Nat := if 48 ≤ c ∧ c ≤ 57 then some (c.toNat - 48) else none
def hexDigit (c : UInt8) : Option Nat :=
  if 48 ≤ c ∧ c ≤ 57 then some (c.toNat - 48) else if 97 ≤ c ∧ c ≤ 102 then some (c.toNat - 87)
  else if 65 ≤ c ∧ c ≤ 70 then some (c.toNat - 55) else none

/-- `printf %u $(( $s ))` for a constant; octal numbers (a leading 0) are not modelled. -/
def number (s : CStr) : Option CStr :=
  match s with
  | [] => none
  | c :: t =>
    if c = c!"0" then
      match t with
      | x :: d :: h => if x = c!"x" then (valueOf 16 hexDigit 0 (d :: h)).map fun v => showDec (v % 2 ^ 64) else none
      | [] => some b!"0"
      | _ => none
    else (valueOf 10 decDigit 0 s).map fun v => showDec (v % 2 ^ 64)

/-- `[[ … ]] || { printf '%s…' "$delim" …; delim=$',\n'; }`: `acc` is what was printed and `delim`. -/
def emit (skip : Bool) (body : CStr) (acc : CStr × CStr) : CStr × CStr := if skip then acc else (acc.1 ++ acc.2 ++ body, b!",\n")

/-- The same with a number. -/
def emitNum (skip : Bool) (name value : CStr) (acc : CStr × CStr) : Option (CStr × CStr) :=
  if skip then some acc else (number value).map fun v => (acc.1 ++ acc.2 ++ name ++ v, b!",\n")

/-- `for ip in $allowed_ips` with `IFS=,` (36-37): splitting at commas; an empty last part is no word. -/
def commaParts : CStr → List CStr
  | [] => [[]]
  | c :: t => if c = c!"," then [] :: commaParts t else match commaParts t with
    | p :: ps => (c :: p) :: ps
    | [] => [[c]]

def commaWords (s : CStr) : List CStr :=
  let ps := commaParts s
  if ps.getLast? = some [] then ps.dropLast else ps

/-- 14-20: the line about a device; what is printed. -/
def devicePart (device : CStr) (v : List CStr) : Option CStr :=
  let priv := v.getD 0 []; let pub := v.getD 1 []; let port := v.getD 2 []; let mark := v.getD 3 []
  let acc := emit (priv = b!"(none)") (b!"\t\t\"privateKey\": \"" ++ priv ++ b!"\"") (b!"\t\"" ++ device ++ b!"\": {", b!"\n")
  let acc := emit (pub = b!"(none)") (b!"\t\t\"publicKey\": \"" ++ pub ++ b!"\"") acc
  (emitNum (port = b!"0") b!"\t\t\"listenPort\": " port acc).bind fun acc =>
  (emitNum (mark = b!"off") b!"\t\t\"fwmark\": " mark acc).map fun acc =>
  acc.1 ++ acc.2 ++ b!"\t\t\"peers\": {"

/-- 20: `end` -/
def endText : CStr := b!"\n\t\t}\n\t}"

/-- 24-45: the line about a peer; what is printed. -/
def peerPart (delim : CStr) (v : List CStr) : Option CStr :=
  let pub := v.getD 0 []; let psk := v.getD 1 []; let endpoint := v.getD 2 []; let ips := v.getD 3 []
  let hs := v.getD 4 []; let rx := v.getD 5 []; let tx := v.getD 6 []; let ka := v.getD 7 []
  let acc := emit (psk = b!"(none)") (b!"\t\t\t\t\"presharedKey\": \"" ++ psk ++ b!"\"") (delim ++ b!"\t\t\t\"" ++ pub ++ b!"\": {", b!"\n")
  let acc := emit (endpoint = b!"(none)") (b!"\t\t\t\t\"endpoint\": \"" ++ endpoint ++ b!"\"") acc
  (emitNum (hs = b!"0") b!"\t\t\t\t\"latestHandshake\": " hs acc).bind fun acc =>
  (emitNum (rx = b!"0") b!"\t\t\t\t\"transferRx\": " rx acc).bind fun acc =>
  (emitNum (tx = b!"0") b!"\t\t\t\t\"transferTx\": " tx acc).bind fun acc =>
  (emitNum (ka = b!"off") b!"\t\t\t\t\"persistentKeepalive\": " ka acc).map fun acc =>
  let out := acc.1 ++ acc.2 ++ b!"\t\t\t\t\"allowedIps\": ["
  let ipsOut : CStr := if ips = b!"(none)" then [] else
    ((commaWords ips).foldl (fun acc ip => emit false (b!"\t\t\t\t\t\"" ++ ip ++ b!"\"") acc) ([], b!"\n")).1
  out ++ ipsOut ++ b!"\n\t\t\t\t]" ++ b!"\n\t\t\t}"

/-- 9-50: the loop; `last` is `last_device`, `fin` is `end`. What is printed, with 51-52. -/
def loop : (fuel : Nat) → (last fin delim : CStr) → List UInt8 → Option CStr
  | 0, _, _, _, _ => none
  | fuel + 1, last, fin, delim, input => match readTab input with
    | none => some (fin ++ b!"\n" ++ b!"}\n")
    | some (device, input) =>
      if device ≠ last then
        let r := readVars 4 input
        (devicePart device r.1).bind fun out =>
        (loop fuel device endText b!"\n" r.2).map fun rest =>
        (if last = [] then b!"\n" else fin ++ b!",\n") ++ out ++ rest
      else
        let r := readVars 8 input
        (peerPart delim r.1).bind fun out =>
        (loop fuel last fin b!",\n" r.2).map fun rest => out ++ rest

/-- 6-52: what the script prints for the output of `wg show all dump`. -/
def run (dump : List UInt8) : Option CStr := (loop (dump.length + 1) [] [] [] dump).map fun t => b!"{" ++ t

end WG.WgJson
