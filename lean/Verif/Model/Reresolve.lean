import Verif.Model.QuickParse
/-!
Model of contrib/reresolve-dns/reresolve-dns.sh, a bash script run every half minute or so. Line numbers are those of the script. It runs
under `set -e`, `nocasematch`, `extglob` and the C locale (6-9).

The commands are an oracle: what `wg show` prints, the status of `wg set` and the time depend on everything that happened before. A public key
with other characters than letters, digits, `+`, `/` and `=` is a regular expression in line 17; what it matches is a parameter.
-/
namespace WG.Reresolve
open WG.Quick (bodyLines strippedOf keyOf valueOf)

inductive Call where
  /-- `wg show INTERFACE latest-handshakes` -/
  | handshakes (iface : CStr)
  /-- `$EPOCHSECONDS` -/
  | clock
  /-- `wg set INTERFACE peer KEY endpoint ENDPOINT` -/
  | setEndpoint (iface key endpoint : CStr)
deriving DecidableEq

structure Reply where
  out : List UInt8 := []
  status : Nat := 0
  time : Nat := 0

abbrev Ev := Call × Reply

structure Env where
  reply : List Ev → Call → Reply
  /-- The file of this name, if it can be read. -/
  file : CStr → Option (List UInt8)
  /-- The first group of the match of another regular expression. -/
  otherRe : CStr → CStr → Option CStr

/-- 12, 13: the class `[a-zA-Z0-9_=+.-]`. -/
def nameChar (c : UInt8) : Bool := (97 ≤ tolowerC c && tolowerC c ≤ 122) || (48 ≤ c && c ≤ 57) || c ∈ b!"_=+.-"

/-- 11-12: the configuration file. -/
def configFile (arg : CStr) : CStr :=
  if 1 ≤ arg.length ∧ arg.length ≤ 15 ∧ arg.all nameChar then b!"/etc/wireguard/" ++ arg ++ b!".conf" else arg

/-- 13-14: `/?([a-zA-Z0-9_=+.-]{1,15})\.conf$`; the leftmost match has as many of the characters before `.conf` as possible. -/
def interfaceOf (file : CStr) : Option CStr :=
  let n := file.length - 5
  if 5 ≤ file.length ∧ strcaseeq (file.drop n) b!".conf" then
    let w := (((file.take n).reverse.takeWhile nameChar).take 15).reverse
    if w = [] then none else some w
  else none

/-- 27-31, 16: the variables. -/
structure St where
  peer : Bool := false
  key : CStr := []
  endpoint : CStr := []

/-- Does the text start with the key, ignoring case, a tab and a digit? Then the digits. -/
def matchAt (key s : CStr) : Option CStr :=
  if strcaseeq (s.take key.length) key ∧ key.length ≤ s.length then
    match s.drop key.length with
    | 9 :: t => let d := t.takeWhile isDigitB; if d = [] then none else some d
    | _ => none
  else none
where isDigitB (c : UInt8) : Bool := 48 ≤ c && c ≤ 57

/-- The leftmost match. -/
def search (key : CStr) : CStr → Option CStr
  | [] => matchAt key []
  | c :: t => (matchAt key (c :: t)).or (search key t)

/-- Letters, digits, `+`, `/`, `=`: after `${PUBLIC_KEY//+/\\+}` they stand for themselves. -/
def literalKey (key : CStr) : Bool := key.all fun c => (97 ≤ tolowerC c && tolowerC c ≤ 122) || (48 ≤ c && c ≤ 57) || c ∈ b!"+/="

/-- 17: `[[ $(…) =~ ${PUBLIC_KEY//+/\\+}\	([0-9]+) ]]`; `$( )` drops the line feeds at the end. -/
def handshakeOf (env : Env) (out : List UInt8) (key : CStr) : Option CStr :=
  let text := (out.reverse.dropWhile (· = 10)).reverse
  if literalKey key then search key text else env.otherRe key text

/-- A constant in an arithmetic expression: octal with a leading 0 (`none`: an error), 64 bits with sign. -/
def constant (d : CStr) : Option Int :=
  let base := if d.head? = some c!"0" then 8 else 10
  if d.any fun c => c.toNat - 48 ≥ base then none
  else some (BitVec.ofNat 64 (d.foldl (fun v c => v * base + (c.toNat - 48)) 0)).toInt

/-- 18: `(( ($EPOCHSECONDS - …) > 135 ))` -/
def stale (now : Nat) (d : CStr) : Bool :=
  match constant d with
  | none => false
  | some t => decide ((BitVec.ofInt 64 (now - t)).toInt > 135)

/-- 16-22 `process_peer`: the events, the variables, and the exit status if `set -e` ends the script. -/
def processPeer (env : Env) (iface : CStr) (st : St) (tr : List Ev) : List Ev × St × Option Nat :=
  if st.peer = false ∨ st.key = [] ∨ st.endpoint = [] then (tr, st, none)
  else
    let r := env.reply tr (.handshakes iface)
    let tr := tr ++ [(.handshakes iface, r)]
    match handshakeOf env r.out st.key with
    | none => (tr, st, none)
    | some d =>
      let c := env.reply tr .clock
      let tr := tr ++ [(.clock, c)]
      if stale c.time d = false then (tr, st, none)
      else
        let call := Call.setEndpoint iface st.key st.endpoint
        let r := env.reply tr call
        let tr := tr ++ [(call, r)]
        if r.status ≠ 0 then (tr, st, some r.status) else (tr, {}, none)

/-- 31-45: the loop over the lines, and the last `process_peer`. The events and the exit status. -/
def loop (env : Env) (iface : CStr) : St → List Ev → List CStr → List Ev × Nat
  | st, tr, [] => match processPeer env iface st tr with
    | (tr, _, s) => (tr, s.getD 0)
  | st, tr, line :: rest =>
    let stripped := strippedOf line
    let key := keyOf stripped
    let value := valueOf stripped
    let next (st : St) (tr : List Ev) : List Ev × Nat :=
      let st := if strcaseeq key b!"[Peer]" then { st with peer := true } else st
      let st := if st.peer then
          if strcaseeq key b!"PublicKey" then { st with key := value }
          else if strcaseeq key b!"Endpoint" then { st with endpoint := value } else st
        else st
      loop env iface st tr rest
    if key.head? = some c!"[" then
      match processPeer env iface st tr with
      | (tr, _, some s) => (tr, s)
      | (tr, _, none) => next {} tr
    else next st tr

/-- 11-45: the whole script; a command without match ends it under `set -e` (13), and so does a file that cannot be read (43). -/
def run (env : Env) (arg : CStr) : List Ev × Nat :=
  match interfaceOf (configFile arg) with
  | none => ([], 1)
  | some iface => match env.file (configFile arg) with
    | none => ([], 1)
    | some content => loop env iface {} [] (bodyLines content)

end WG.Reresolve
