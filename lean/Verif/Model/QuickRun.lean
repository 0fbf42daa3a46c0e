import Verif.Model.QuickParse
import Verif.Model.Uapi
/-!
Model of what src/wg-quick/linux.bash does after `parse_options`: `up`, `down`, `save`, `strip`.

The script is a program over an arbitrary environment (`World`): every command it runs, and every file it looks at, is a `Call`;
the environment answers with a `Reply` (exit status, standard output, and whether SIGINT or SIGTERM reached the script during
the command) that may depend on everything that happened before, so every behaviour of the system and of other programs running
at the same time is covered. The history of calls and replies is the observable effect.

Bash semantics that is made explicit: `set -e` (a failing simple command ends the script unless it is part of a condition or of
a `&&`/`||` list before the last element, also within functions called there), `pipefail`, traps (a signal runs the trap after
the current command; `exit` in the trap runs the EXIT trap), command substitution (trailing line feeds and NUL bytes removed),
`read`.

Simplifications: messages on standard error are not modelled; signals arriving while a trap is running are not modelled; failures
of builtins (`printf`, `echo` into a pipe) are not modelled except for writing the configuration file; pathname expansion
(globbing) is not modelled; argument handling and `auto_su` are in Model/QuickMain. A file given to a command as
`<(…)` is shown as its standard input.
-/
namespace WG.Quick

/-- Something the script asks of its environment. -/
inductive Call where
  /-- A command or test run for its output or status only. -/
  | query (argv : List CStr)
  /-- A command run for its effect. -/
  | act (argv : List CStr) (stdin : List UInt8)
  /-- `(eval "$hook")`. -/
  | hook (text : CStr)
deriving DecidableEq, Repr

/-- The answer of the environment. -/
structure Reply where
  status : Nat
  out : List UInt8 := []
  sig : Bool := false
deriving DecidableEq, Repr

abbrev Ev := Call × Reply
abbrev World := List Ev → Call → Reply

/-- The state of the script: what happened so far, and `HAVE_SET_DNS`, `HAVE_SET_FIREWALL` (linux.bash:153, 211). -/
structure St where
  hist : List Ev := []
  haveDns : Bool := false
  haveFw : Bool := false
deriving DecidableEq, Repr

/-- How a piece of script ends: normally, by exiting with a status, by a signal (with the status of the last command), or not
within the observer's patience. -/
inductive Out (α : Type) where
  | ok (a : α)
  | exit (status : Nat)
  | signal (status : Nat)
  | running
deriving DecidableEq, Repr

def Sh (α : Type) : Type := World → St → Out α × St

def Sh.pure {α : Type} (a : α) : Sh α := fun _ s => (.ok a, s)

def Sh.bind {α β : Type} (m : Sh α) (f : α → Sh β) : Sh β := fun w s =>
  match m w s with
  | (.ok a, s) => f a w s
  | (.exit n, s) => (.exit n, s)
  | (.signal n, s) => (.signal n, s)
  | (.running, s) => (.running, s)

instance : Monad Sh where
  pure := Sh.pure
  bind := Sh.bind

/-- `exit n`, also reached through `die` and `set -e`. -/
def exitWith {α : Type} (n : Nat) : Sh α := fun _ s => (.exit n, s)

/-- The observer gave up. -/
def giveUp {α : Type} : Sh α := fun _ s => (.running, s)

/-- Ask the environment; a signal stops the script here (bash runs traps when the command has ended). -/
def call (c : Call) : Sh Reply := fun w s =>
  let r := w s.hist c
  let s := { s with hist := s.hist ++ [(c, r)] }
  if r.sig then (.signal r.status, s) else (.ok r, s)

/-- A simple command, with `set -e` in effect (`e = true`) or ignored. -/
def run (e : Bool) (c : Call) : Sh Unit :=
  (call c).bind fun r => if e && r.status ≠ 0 then exitWith r.status else Sh.pure ()

def getDns : Sh Bool := fun _ s => (.ok s.haveDns, s)
def getFw : Sh Bool := fun _ s => (.ok s.haveFw, s)
/-- linux.bash:159 -/
def setHaveDns : Sh Unit := fun _ s => (.ok (), { s with haveDns := true })
/-- linux.bash:246 -/
def setHaveFw : Sh Unit := fun _ s => (.ok (), { s with haveFw := true })

/-- The sequential `for x in …; do f x; done`. -/
def forEach {α : Type} (f : α → Sh Unit) : List α → Sh Unit
  | [] => Sh.pure ()
  | x :: xs => (f x).bind fun _ => forEach f xs

/-- No signals (within traps). -/
def calm (w : World) : World := fun h c => { w h c with sig := false }

/-- The end of a script whose EXIT trap is `cleanup; exit`: the status is that of before, or of a failing cleanup command. -/
def onExit (cleanup : Sh Unit) (n : Nat) : Sh Unit := fun w s =>
  match cleanup (calm w) s with
  | (.ok _, s) => (.exit n, s)
  | (o, s) => (o, s)

/-- `trap 'cleanup; exit' INT TERM EXIT; body; trap - INT TERM EXIT`. A signal runs the trap and its `exit` (or its failure)
runs it again as EXIT trap. -/
def guarded (cleanup body : Sh Unit) : Sh Unit := fun w s =>
  match body w s with
  | (.ok _, s) => (.ok (), s)
  | (.running, s) => (.running, s)
  | (.exit n, s) => onExit cleanup n w s
  | (.signal n, s) =>
    match cleanup (calm w) s with
    | (.ok _, s) => onExit cleanup n w s
    | (.exit m, s) => onExit cleanup m w s
    | (o, s) => (o, s)

/-- What the commands work on: the result of `parse_options`; the userspace implementation's command (linux.bash:92, 94); the
`sort -nr -k 2 -t /` of linux.bash:338; the match of the interface name as a regular expression when it contains `+`
(linux.bash:256); whether bash's `patsub_replacement` is on (bash ≥ 5.2); the observer's patience for loops. -/
structure Cfg where
  iface : CStr
  file : CStr
  opts : Opts
  userspace : CStr
  sort : List CStr → List CStr
  plusMatch : CStr → Option CStr
  patsub : Bool
  patience : Nat

/-- `$(…)`: NUL bytes and trailing line feeds removed. -/
def chomp (s : List UInt8) : CStr := ((s.filter (· ≠ 0)).reverse.dropWhile (· = 10)).reverse

/-- `while read -r x; do …; done`: only lines ended by a line feed count. -/
def readLoopLines (content : List UInt8) : List CStr :=
  (getlines content).filterMap fun raw => if raw.getLast? = some 10 then some (readLine raw.dropLast) else none

/-- `read -r _ x`: what is left of a (trimmed) line after its first word. -/
def afterFirst (line : CStr) : CStr := (line.dropWhile fun c => !isIfs c).dropWhile isIfs

/-- The nonempty suffixes and the empty one, longest first. -/
def suffixes : CStr → List CStr
  | [] => [[]]
  | c :: t => (c :: t) :: suffixes t

/-- `[[ $s == *"$pat"* ]]`. -/
def hasInfix (pat s : CStr) : Bool := (suffixes s).any fun t => pat.isPrefixOf t

/-- An ASCII digit. -/
def isDig (c : UInt8) : Bool := 48 ≤ c && c ≤ 57

/-- `[[ $s =~ word\ (class+) ]]`: the first group of the leftmost match. -/
def wordArg (word : CStr) (p : UInt8 → Bool) (s : CStr) : Option CStr :=
  (suffixes s).findSome? fun t =>
    if word.isPrefixOf t ∧ (t.drop word.length).takeWhile p ≠ [] then some ((t.drop word.length).takeWhile p) else none

/-- `$s =~ mtu\ ([0-9]+)` (linux.bash:134, 138, 264). -/
def mtuIn (s : CStr) : Option CStr := wordArg b!"mtu " isDig s

/-- `$s =~ dev\ ([^ ]+)` (linux.bash:134, 138). -/
def devIn (s : CStr) : Option CStr := wordArg b!"dev " (fun c => c != 32) s

/-- linux.bash:132 `[[ $endpoint =~ ^\[?([a-z0-9:.]+)\]?:[0-9]+$ ]]`: the group. The port is what follows the last colon. -/
def endpointHost (e : CStr) : Option CStr :=
  let port := (e.reverse.takeWhile (· ≠ c!":")).reverse
  let before := ((e.reverse.dropWhile (· ≠ c!":")).drop 1).reverse
  let h := if before.head? = some c!"[" then before.drop 1 else before
  let h := if h.getLast? = some c!"]" then h.dropLast else h
  if c!":" ∈ e ∧ port ≠ [] ∧ port.all isDig ∧ h ≠ [] ∧ h.all (fun c => (97 ≤ c && c ≤ 122) || isDig c || c == c!":" || c == c!".")
  then some h else none

/-- linux.bash:119-123, 168-169, 224: `-6` if the text contains a colon. -/
def protoOf (a : CStr) : CStr := if c!":" ∈ a then b!"-6" else b!"-4"

/-- `ip link add …` (linux.bash:90). -/
def linkAdd (c : Cfg) : Call := .act [b!"ip", b!"link", b!"add", c.iface, b!"type", b!"wireguard"] []
/-- `ip link delete …` (linux.bash:116). -/
def linkDelete (c : Cfg) : Call := .act [b!"ip", b!"link", b!"delete", b!"dev", c.iface] []

/-- linux.bash:88-96 `add_if`. In the `then` branch of `if ! cmd`, `$?` is 0, so `exit $ret` exits with status 0. -/
def addIf (c : Cfg) : Sh Unit :=
  (call (linkAdd c)).bind fun r =>
  if r.status = 0 then Sh.pure ()
  else
    (call (.query [b!"test", b!"-e", b!"/sys/module/wireguard"])).bind fun m =>
    if m.status = 0 then exitWith 0
    else
      (call (.query [b!"command", b!"-v", c.userspace])).bind fun u =>
      if u.status ≠ 0 then exitWith 0
      else run true (.act [c.userspace, c.iface] [])

/-- linux.bash:290-297: `${hook//%i/$INTERFACE}`. -/
def substI (iface : CStr) : CStr → CStr
  | [] => []
  | [c] => [c]
  | c :: d :: t => if c = c!"%" ∧ d = c!"i" then iface ++ substI iface t else c :: substI iface (d :: t)

/-- linux.bash:290-297 `execute_hooks`. -/
def executeHooks (c : Cfg) (hooks : List CStr) : Sh Unit :=
  forEach (fun h => run true (.hook (substI c.iface h))) hooks

/-- linux.bash:250-252 `set_config`; the standard input stands for the `<(…)` file. -/
def setConfig (c : Cfg) : Sh Unit := run true (.act [b!"wg", b!"setconf", c.iface] (stripText c.opts))

/-- linux.bash:119-123 `add_addr`. -/
def addAddr (c : Cfg) (a : CStr) : Sh Unit :=
  run true (.act [b!"ip", protoOf a, b!"address", b!"add", a, b!"dev", c.iface] [])

/-- linux.bash:134 and 138: the larger of `mtu` and the MTU found in (or through) the output of `ip route`. Numbers are taken as
decimal (the kernel prints no leading zeros). -/
def mtuFrom (output : CStr) (mtu : Nat) : Sh Nat :=
  match mtuIn output with
  | some d => Sh.pure (max mtu (digitsVal 10 d))
  | none =>
    match devIn output with
    | none => Sh.pure mtu
    | some dev =>
      (call (.query [b!"ip", b!"link", b!"show", b!"dev", dev])).bind fun r =>
      match mtuIn (chomp r.out) with
      | some d => Sh.pure (max mtu (digitsVal 10 d))
      | none => Sh.pure mtu

/-- linux.bash:131-135, the loop over the endpoints. -/
def mtuLoop : List CStr → Nat → Sh Nat
  | [], mtu => Sh.pure mtu
  | line :: ls, mtu =>
    match endpointHost (afterFirst line) with
    | none => mtuLoop ls mtu
    | some host =>
      (call (.query [b!"ip", b!"route", b!"get", host])).bind fun r =>
      (mtuFrom (chomp r.out) mtu).bind fun mtu => mtuLoop ls mtu

/-- `$(( n - 80 ))`. -/
def minus80 (n : Nat) : CStr := if n < 80 then b!"-" ++ showDec (80 - n) else showDec (n - 80)

/-- `ip link set mtu … up dev …` (linux.bash:128, 141). -/
def linkUp (c : Cfg) (mtu : CStr) : Call := .act [b!"ip", b!"link", b!"set", b!"mtu", mtu, b!"up", b!"dev", c.iface] []

/-- linux.bash:136-139, the default route's MTU if nothing else was found. -/
def mtuDefault (mtu : Nat) : Sh Nat :=
  if mtu = 0 then
    (call (.query [b!"ip", b!"route", b!"show", b!"default"])).bind fun r =>
    mtuFrom (((getlines r.out).map fun raw => readLine (if raw.getLast? = some 10 then raw.dropLast else raw)).head?.getD []) 0
  else Sh.pure mtu

/-- linux.bash:125-142 `set_mtu_up`. -/
def setMtuUp (c : Cfg) : Sh Unit :=
  if c.opts.mtu ≠ [] then run true (linkUp c c.opts.mtu)
  else
    (call (.query [b!"wg", b!"show", c.iface, b!"endpoints"])).bind fun r =>
    (mtuLoop (readLoopLines r.out) 0).bind fun mtu =>
    (mtuDefault mtu).bind fun mtu =>
    run true (linkUp c (minus80 (if mtu = 0 then 1500 else mtu)))

/-- linux.bash:148 `[[ $iface =~ ^([A-Za-z0-9-]+)\*$ ]]`. -/
def orderPrefix (line : CStr) : Option CStr :=
  if line.getLast? = some c!"*" ∧ line.dropLast ≠ [] ∧
      line.dropLast.all (fun c => (97 ≤ c && c ≤ 122) || (65 ≤ c && c ≤ 90) || isDig c || c == c!"-")
  then some line.dropLast else none

/-- linux.bash:144-151 `resolvconf_iface_prefix`. -/
def ifacePrefix : Sh CStr :=
  (call (.query [b!"test", b!"-f", b!"/etc/resolvconf/interface-order"])).bind fun t =>
  if t.status ≠ 0 then Sh.pure []
  else
    (call (.query [b!"cat", b!"/etc/resolvconf/interface-order"])).bind fun r =>
    match (readLoopLines r.out).findSome? orderPrefix with
    | some p => Sh.pure (p ++ b!".")
    | none => Sh.pure []

/-- `"${list[*]}"`. -/
def joinSpace : List CStr → CStr
  | [] => []
  | [x] => x
  | x :: xs => x ++ b!" " ++ joinSpace xs

/-- linux.bash:156-157, the resolv.conf text. -/
def resolvText (o : Opts) : List UInt8 :=
  o.dns.flatMap (fun d => b!"nameserver " ++ d ++ [10]) ++
  (if o.dnsSearch = [] then [] else b!"search " ++ joinSpace o.dnsSearch ++ [10])

def dnsAdd (c : Cfg) (pre : CStr) : Call :=
  .act [b!"resolvconf", b!"-a", pre ++ c.iface, b!"-m", b!"0", b!"-x"] (resolvText c.opts)
def dnsDelete (c : Cfg) (pre : CStr) : Call := .act [b!"resolvconf", b!"-d", pre ++ c.iface, b!"-f"] []

/-- linux.bash:154-160 `set_dns`. -/
def setDns (c : Cfg) : Sh Unit :=
  if c.opts.dns = [] then Sh.pure ()
  else ifacePrefix.bind fun pre => (run true (dnsAdd c pre)).bind fun _ => setHaveDns

/-- linux.bash:162-165 `unset_dns`. -/
def unsetDns (c : Cfg) (e : Bool) : Sh Unit :=
  if c.opts.dns = [] then Sh.pure ()
  else ifacePrefix.bind fun pre => run e (dnsDelete c pre)

/-- `printf "%d"` of what `wg show … fwmark` prints: `0x` and hexadecimal digits (a decimal prefix otherwise). -/
def markDecimal (s : CStr) : CStr :=
  match s with
  | 48 :: 120 :: t => showDec (digitsVal 16 (t.takeWhile (isDigitOf 16)))
  | s => showDec (digitsVal 10 (s.takeWhile (isDigitOf 10)))

/-- linux.bash:181-187 `get_fwmark`: the table, if there is a mark. -/
def getFwmark (c : Cfg) : Sh (Option CStr) :=
  (call (.query [b!"wg", b!"show", c.iface, b!"fwmark"])).bind fun r =>
  if r.status ≠ 0 then Sh.pure none
  else if chomp r.out = [] ∨ chomp r.out = b!"off" then Sh.pure none
  else Sh.pure (some (markDecimal (chomp r.out)))

/-- linux.bash:192-194: the `delete` commands for the tables of this interface. -/
def nftDelete (c : Cfg) (tables : List UInt8) : List UInt8 :=
  (readLoopLines tables).flatMap fun t =>
    if (b!" wg-quick-" ++ c.iface).isSuffixOf t then b!"delete " ++ t ++ [10] else []

/-- linux.bash:203-205: the lines that undo the rules of this interface, and whether there are any. -/
def iptRestore (c : Cfg) (saved : List UInt8) : Bool × List UInt8 :=
  let lines := (readLoopLines saved).filter fun l =>
    l.head? = some c!"*" || l == b!"COMMIT" ||
    (b!"-A ".isPrefixOf l && hasInfix (b!"-m comment --comment \"wg-quick(8) rule for " ++ c.iface ++ b!"\"") (l.drop 3))
  (lines.any fun l => b!"-A".isPrefixOf l,
   lines.flatMap fun l => (if b!"-A".isPrefixOf l then b!"-D" ++ l.drop 2 else l) ++ [10])

/-- linux.bash:200-208, for one of the two commands. -/
def removeIpt (c : Cfg) (e : Bool) (ipt : CStr) : Sh Unit :=
  (call (.query [ipt ++ b!"-save"])).bind fun r =>
  if (iptRestore c r.out).1 then run e (.act [ipt ++ b!"-restore", b!"-n"] (iptRestore c r.out).2) else Sh.pure ()

/-- linux.bash:190-197. -/
def removeNft (c : Cfg) (e : Bool) : Sh Unit :=
  (call (.query [b!"type", b!"-p", b!"nft"])).bind fun t =>
  if t.status = 0 then
    (call (.query [b!"nft", b!"list", b!"tables"])).bind fun r =>
    if nftDelete c r.out = [] then Sh.pure () else run e (.act [b!"nft", b!"-f"] (nftDelete c r.out))
  else Sh.pure ()

/-- linux.bash:189-210 `remove_firewall`. -/
def removeFirewall (c : Cfg) (e : Bool) : Sh Unit :=
  (removeNft c e).bind fun _ =>
  (call (.query [b!"type", b!"-p", b!"iptables"])).bind fun t =>
  if t.status = 0 then (removeIpt c e b!"iptables").bind fun _ => removeIpt c e b!"ip6tables" else Sh.pure ()

/-- linux.bash:102 `=~ /0(\ |$'\n'|$)`. -/
def hasDefaultRoute (s : CStr) : Bool :=
  (suffixes s).any fun t => b!"/0".isPrefixOf t && ((t.drop 2).head? = none || (t.drop 2).head? = some 32 || (t.drop 2).head? = some 10)

/-- linux.bash:103-114: `while [[ $(ip PROTO rule show) == *"PAT"* ]]; do ip PROTO rule delete ARGS; done`. -/
def ruleLoop (proto pat : CStr) (args : List CStr) : Nat → Sh Unit
  | 0 => giveUp
  | n + 1 =>
    (call (.query [b!"ip", proto, b!"rule", b!"show"])).bind fun r =>
    if hasInfix pat (chomp r.out) then
      (run true (.act ([b!"ip", proto, b!"rule", b!"delete", b!"table"] ++ args) [])).bind fun _ => ruleLoop proto pat args n
    else Sh.pure ()

/-- linux.bash:103-114, all four loops. -/
def removeRules (c : Cfg) (table : CStr) : Sh Unit :=
  (ruleLoop b!"-4" (b!"lookup " ++ table) [table] c.patience).bind fun _ =>
  (ruleLoop b!"-4" b!"from all lookup main suppress_prefixlength 0" [b!"main", b!"suppress_prefixlength", b!"0"] c.patience).bind fun _ =>
  (ruleLoop b!"-6" (b!"lookup " ++ table) [table] c.patience).bind fun _ =>
  ruleLoop b!"-6" b!"from all lookup main suppress_prefixlength 0" [b!"main", b!"suppress_prefixlength", b!"0"] c.patience

/-- linux.bash:102-115. -/
def removeDefault (c : Cfg) : Sh Unit :=
  if c.opts.table = [] ∨ c.opts.table = b!"auto" then
    (getFwmark c).bind fun t =>
    match t with
    | none => Sh.pure ()
    | some table =>
      (call (.query [b!"wg", b!"show", c.iface, b!"allowed-ips"])).bind fun r =>
      if hasDefaultRoute (chomp r.out) then removeRules c table else Sh.pure ()
  else Sh.pure ()

/-- linux.bash:98-117 `del_if`. -/
def delIf (c : Cfg) : Sh Unit :=
  getDns.bind fun d =>
  (if d then unsetDns c true else Sh.pure ()).bind fun _ =>
  getFw.bind fun f =>
  (if f then removeFirewall c true else Sh.pure ()).bind fun _ =>
  (removeDefault c).bind fun _ =>
  run true (linkDelete c)

/-- linux.bash:216-218: the first table number from `table` on for which no routes are shown. -/
def freeTable : Nat → Nat → Sh Nat
  | 0, _ => giveUp
  | n + 1, table =>
    (call (.query [b!"ip", b!"-4", b!"route", b!"show", b!"table", showDec table])).bind fun r4 =>
    if chomp r4.out ≠ [] then freeTable n (table + 1)
    else
      (call (.query [b!"ip", b!"-6", b!"route", b!"show", b!"table", showDec table])).bind fun r6 =>
      if chomp r6.out ≠ [] then freeTable n (table + 1) else Sh.pure table

/-- linux.bash:214-220. -/
def markTable (c : Cfg) : Sh CStr :=
  (getFwmark c).bind fun t =>
  match t with
  | some table => Sh.pure table
  | none =>
    (freeTable c.patience 51820).bind fun table =>
    (run true (.act [b!"wg", b!"set", c.iface, b!"fwmark", showDec table] [])).bind fun _ =>
    Sh.pure (showDec table)

/-- linux.bash:234 `[[ $line =~ .*inet6?\ ([0-9a-f:.]+)/[0-9]+.* ]]`: the group of the last place that fits (`.*` is greedy). -/
def inetAddr (line : CStr) : Option CStr :=
  (suffixes line).reverse.findSome? fun t =>
    let r := if b!"inet ".isPrefixOf t then some (t.drop 5) else if b!"inet6 ".isPrefixOf t then some (t.drop 6) else none
    match r with
    | none => none
    | some r =>
      let a := r.takeWhile fun c => isDig c || (97 ≤ c && c ≤ 102) || c == c!":" || c == c!"."
      let rest := r.drop a.length
      if a ≠ [] ∧ rest.head? = some c!"/" ∧ ((rest.drop 1).head?.map isDig) = some true then some a else none

/-- linux.bash:228, the comment marking iptables rules. -/
def marker (c : Cfg) : CStr := b!"-m comment --comment \"wg-quick(8) rule for " ++ c.iface ++ b!"\""

/-- linux.bash:228, 235, 239: the text given to `iptables-restore`. -/
def restoreText (c : Cfg) (table : CStr) (addrs : List CStr) : List UInt8 :=
  b!"*raw\n" ++
  addrs.flatMap (fun a => b!"-I PREROUTING ! -i " ++ c.iface ++ b!" -d " ++ a ++ b!" -m addrtype ! --src-type LOCAL -j DROP " ++ marker c ++ [10]) ++
  b!"COMMIT\n*mangle\n-I POSTROUTING -m mark --mark " ++ table ++ b!" -p udp -j CONNMARK --save-mark " ++ marker c ++
  b!"\n-I PREROUTING -p udp -j CONNMARK --restore-mark " ++ marker c ++ b!"\nCOMMIT\n"

/-- linux.bash:229-232, 236, 240-241: the text given to `nft -f`. -/
def nftText (c : Cfg) (pf table : CStr) (addrs : List CStr) : List UInt8 :=
  let t := pf ++ b!" wg-quick-" ++ c.iface
  b!"add table " ++ t ++
  b!"\nadd chain " ++ t ++ b!" preraw { type filter hook prerouting priority -300; }\n" ++
  b!"add chain " ++ t ++ b!" premangle { type filter hook prerouting priority -150; }\n" ++
  b!"add chain " ++ t ++ b!" postmangle { type filter hook postrouting priority -150; }\n" ++
  addrs.flatMap (fun a => b!"add rule " ++ t ++ b!" preraw iifname != \"" ++ c.iface ++ b!"\" " ++ pf ++ b!" daddr " ++ a ++
    b!" fib saddr type != local drop\n") ++
  b!"add rule " ++ t ++ b!" postmangle meta l4proto udp mark " ++ table ++ b!" ct mark set mark \n" ++
  b!"add rule " ++ t ++ b!" premangle meta l4proto udp meta mark set ct mark \n"

/-- linux.bash:222-224. -/
def pfOf (r : CStr) : CStr := if c!":" ∈ r then b!"ip6" else b!"ip"
def iptOf (r : CStr) : CStr := if c!":" ∈ r then b!"ip6tables" else b!"iptables"

/-- linux.bash:212-248 `add_default`. -/
def addDefault (c : Cfg) (r : CStr) : Sh Unit :=
  (markTable c).bind fun table =>
  (run true (.act [b!"ip", protoOf r, b!"rule", b!"add", b!"not", b!"fwmark", table, b!"table", table] [])).bind fun _ =>
  (run true (.act [b!"ip", protoOf r, b!"rule", b!"add", b!"table", b!"main", b!"suppress_prefixlength", b!"0"] [])).bind fun _ =>
  (run true (.act [b!"ip", protoOf r, b!"route", b!"add", r, b!"dev", c.iface, b!"table", table] [])).bind fun _ =>
  (call (.query [b!"ip", b!"-o", protoOf r, b!"addr", b!"show", b!"dev", c.iface])).bind fun a =>
  (if c!":" ∈ r then Sh.pure () else run true (.act [b!"sysctl", b!"-q", b!"net.ipv4.conf.all.src_valid_mark=1"] [])).bind fun _ =>
  (call (.query [b!"type", b!"-p", b!"nft"])).bind fun t =>
  (if t.status = 0 then run true (.act [b!"nft", b!"-f"] (nftText c (pfOf r) table ((readLoopLines a.out).filterMap inetAddr)))
   else run true (.act [iptOf r ++ b!"-restore", b!"-n"] (restoreText c table ((readLoopLines a.out).filterMap inetAddr)))).bind fun _ =>
  setHaveFw

/-- linux.bash:167-179 `add_route`. -/
def addRoute (c : Cfg) (r : CStr) : Sh Unit :=
  if c.opts.table = b!"off" then Sh.pure ()
  else if c.opts.table ≠ [] ∧ c.opts.table ≠ b!"auto" then
    run true (.act [b!"ip", protoOf r, b!"route", b!"add", r, b!"dev", c.iface, b!"table", c.opts.table] [])
  else if b!"/0".isSuffixOf r then addDefault c r
  else
    (call (.query [b!"ip", protoOf r, b!"route", b!"show", b!"dev", c.iface, b!"match", r])).bind fun q =>
    if chomp q.out ≠ [] then Sh.pure ()
    else run true (.act [b!"ip", protoOf r, b!"route", b!"add", r, b!"dev", c.iface] [])

/-- linux.bash:338 `[[ $i =~ ^[0-9a-z:.]+/[0-9]+$ ]]`. -/
def isRoute (w : CStr) : Bool :=
  let a := w.takeWhile (· ≠ c!"/")
  let n := w.drop (a.length + 1)
  c!"/" ∈ w && a ≠ [] && a.all (fun c => isDig c || (97 ≤ c && c ≤ 122) || c == c!":" || c == c!".") && n ≠ [] && n.all isDig

/-- linux.bash:338: the routes in the output of `wg show … allowed-ips`, before sorting. -/
def routesIn (out : List UInt8) : List CStr :=
  (readLoopLines out).flatMap fun line => (wordsAux [] (afterFirst line)).filter isRoute

/-- linux.bash:329-341, `cmd_up` while the trap is set. -/
def upBody (c : Cfg) : Sh Unit :=
  (addIf c).bind fun _ =>
  (executeHooks c c.opts.preUp).bind fun _ =>
  (setConfig c).bind fun _ =>
  (forEach (addAddr c) c.opts.addresses).bind fun _ =>
  (setMtuUp c).bind fun _ =>
  (setDns c).bind fun _ =>
  (call (.query [b!"wg", b!"show", c.iface, b!"allowed-ips"])).bind fun r =>
  (forEach (addRoute c) (c.sort (routesIn r.out))).bind fun _ =>
  executeHooks c c.opts.postUp

/-- linux.bash:328 the check for an existing interface. -/
def linkShow (c : Cfg) : Call := .query [b!"ip", b!"link", b!"show", b!"dev", c.iface]

/-- linux.bash:326-343 `cmd_up`. -/
def cmdUp (c : Cfg) : Sh Unit :=
  (call (linkShow c)).bind fun r =>
  if chomp r.out ≠ [] then exitWith 1
  else guarded (delIf c) (upBody c)

/-- linux.bash:256 `^$INTERFACE\ +\ [A-Z]+\ +(.+)$`: the group (up to surrounding blanks). A name without `+` matches itself
(`.` matches any byte but the output starts with the name); with `+` the match is a parameter. -/
def briefAddrs (c : Cfg) (out : CStr) : CStr :=
  if c!"+" ∈ c.iface then (c.plusMatch out).getD []
  else if c.iface.isPrefixOf out then
    let r := out.drop c.iface.length
    let sp := r.takeWhile (· = 32)
    let r := r.drop sp.length
    let st := r.takeWhile fun c => 65 ≤ c && c ≤ 90
    let r := r.drop st.length
    if 2 ≤ sp.length ∧ st ≠ [] ∧ r.head? = some 32 then r else []
  else []

/-- linux.bash:262 `^nameserver\ ([a-zA-Z0-9_=+:%.-]+)$`. -/
def nameserverOf (line : CStr) : Option CStr :=
  let a := line.drop 11
  if b!"nameserver ".isPrefixOf line ∧ a ≠ [] ∧ a.all (fun c => isNameByte c || c == c!":" || c == c!"%") then some a else none

/-- linux.bash:263 `resolvconf -l … 2>/dev/null || cat … 2>/dev/null`: the output of both. -/
def resolvShow (c : Cfg) : Sh (List UInt8) :=
  ifacePrefix.bind fun pre =>
  (call (.query [b!"resolvconf", b!"-l", pre ++ c.iface])).bind fun r =>
  if r.status = 0 then Sh.pure r.out
  else
    ifacePrefix.bind fun pre =>
    (call (.query [b!"cat", b!"/etc/resolvconf/run/interface/" ++ pre ++ c.iface])).bind fun r2 =>
    Sh.pure (r.out ++ r2.out)

/-- A line `Key = value`. -/
def confLine (k v : CStr) : CStr := k ++ b!" = " ++ v ++ [10]

/-- linux.bash:257-279: the [Interface] text with wg-quick's own settings. -/
def ownText (o : Opts) (addrs dns : List CStr) (mtu : Option CStr) : CStr :=
  b!"[Interface]\n" ++ addrs.flatMap (confLine b!"Address") ++ dns.flatMap (confLine b!"DNS") ++
  (match mtu with | some m => confLine b!"MTU" m | none => []) ++
  (if o.table = [] then [] else confLine b!"Table" o.table) ++
  (if o.saveConfig then b!"SaveConfig = true\n" else []) ++
  o.preUp.flatMap (confLine b!"PreUp") ++ o.postUp.flatMap (confLine b!"PostUp") ++
  o.preDown.flatMap (confLine b!"PreDown") ++ o.postDown.flatMap (confLine b!"PostDown")

/-- The replacement text of `${x/pat/$new}` under `patsub_replacement`: `&` stands for the matched text, `\&` and `\\` for
`&` and a backslash. -/
def patsubText (matched : CStr) : CStr → CStr
  | [] => []
  | [c] => if c = c!"&" then matched else [c]
  | c :: d :: t =>
    if c = c!"&" then matched ++ patsubText matched (d :: t)
    else if c = 92 ∧ (d = c!"&" ∨ d = 92) then d :: patsubText matched t
    else c :: patsubText matched (d :: t)

/-- Replace the first occurrence of `pat`. -/
def replaceFirst (pat new : CStr) : CStr → CStr
  | [] => []
  | c :: t => if pat.isPrefixOf (c :: t) then new ++ (c :: t).drop pat.length else c :: replaceFirst pat new t

/-- linux.bash:284 `${current_config/\[Interface\]$'\n'/$new_config}`, and the line feed of `echo`. -/
def savedText (c : Cfg) (current new : CStr) : List UInt8 :=
  replaceFirst b!"[Interface]\n" (if c.patsub then patsubText b!"[Interface]\n" new else new) current ++ [10]

/-- `$CONFIG_FILE.tmp` -/
def tmpFile (c : Cfg) : CStr := c.file ++ b!".tmp"

/-- Writing the temporary file with umask 077 (linux.bash:281, 284). -/
def writeTmp (c : Cfg) (text : List UInt8) : Call := .act [b!"write", b!"077", tmpFile c] text
def syncTmp (c : Cfg) : Call := .act [b!"sync", tmpFile c] []
def moveTmp (c : Cfg) : Call := .act [b!"mv", tmpFile c, c.file] []
def removeTmp (c : Cfg) : Call := .act [b!"rm", b!"-f", tmpFile c] []

/-- linux.bash:284-286, while the trap is set. -/
def saveBody (c : Cfg) (text : List UInt8) : Sh Unit :=
  (call (writeTmp c text)).bind fun r =>
  if r.status ≠ 0 then exitWith 1
  else
    (run true (syncTmp c)).bind fun _ =>
    (call (moveTmp c)).bind fun r => if r.status ≠ 0 then exitWith 1 else Sh.pure ()

/-- linux.bash:264: the current MTU, if one was configured. -/
def savedMtu (c : Cfg) : Sh (Option CStr) :=
  if c.opts.mtu = [] then Sh.pure none
  else (call (.query [b!"ip", b!"link", b!"show", b!"dev", c.iface])).bind fun r => Sh.pure (mtuIn (chomp r.out))

/-- linux.bash:254-288 `save_config`. -/
def saveConfig (c : Cfg) : Sh Unit :=
  (call (.query [b!"ip", b!"-all", b!"-brief", b!"address", b!"show", b!"dev", c.iface])).bind fun a =>
  (resolvShow c).bind fun d =>
  (savedMtu c).bind fun m =>
  (call (.query [b!"wg", b!"showconf", c.iface])).bind fun s =>
  if s.status ≠ 0 then exitWith s.status
  else
    guarded ((call (removeTmp c)).bind fun r => if r.status ≠ 0 then exitWith r.status else Sh.pure ())
      (saveBody c (savedText c (chomp s.out)
        (ownText c.opts (wordsAux [] (briefAddrs c (chomp a.out))) ((readLoopLines d).filterMap nameserverOf) m)))

/-- linux.bash:346, 356: `[[ " $(wg show interfaces) " == *" $INTERFACE "* ]] || die`. -/
def checkIface (c : Cfg) : Sh Unit :=
  (call (.query [b!"wg", b!"show", b!"interfaces"])).bind fun r =>
  if hasInfix (b!" " ++ c.iface ++ b!" ") (b!" " ++ chomp r.out ++ b!" ") then Sh.pure () else exitWith 1

/-- linux.bash:345-353 `cmd_down`. -/
def cmdDown (c : Cfg) : Sh Unit :=
  (checkIface c).bind fun _ =>
  (executeHooks c c.opts.preDown).bind fun _ =>
  (if c.opts.saveConfig then saveConfig c else Sh.pure ()).bind fun _ =>
  (delIf c).bind fun _ =>
  (unsetDns c false).bind fun _ =>
  (removeFirewall c false).bind fun _ =>
  executeHooks c c.opts.postDown

/-- linux.bash:355-358 `cmd_save`. -/
def cmdSave (c : Cfg) : Sh Unit := (checkIface c).bind fun _ => saveConfig c

end WG.Quick
