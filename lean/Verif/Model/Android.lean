import Verif.Model.AndroidParse
import Verif.Model.QuickRun
/-!
Model of wg-quick for Android, src/wg-quick/android.c, as a program over an arbitrary environment. Line numbers are those of android.c.

Every command that is run and every call of the resolver service is a `Call`; the environment answers with a `Reply` that may depend on
everything that happened before. The history of calls and replies is the observable effect.

Simplifications: the output of a command that is read through a pipe is determined when the command is started, and NUL bytes end a line;
a failing `vasprintf` or allocation, and what is printed, are not modelled; marshalling for the resolver service is one step, its arguments
are the interface's. A signal that ends the program (also SIGPIPE while writing to `wg setconf`) can come with every reply.
-/
namespace WG.Android
open WG.Quick (suffixes mtuIn devIn endpointHost isNameserver)

/-- What is asked of the environment. -/
inductive Call where
  /-- `system`: 176-199 -/
  | system (cmd : CStr)
  /-- `popen(cmd, "r")` and reading its output: 144-174 -/
  | read (cmd : CStr)
  /-- `popen(cmd, "w")` and writing to it: 1047-1067 -/
  | write (cmd text : CStr)
  /-- 477-499 `dnsresolver_get_handle` -/
  | handle
  /-- 501-529 `dnsresolver_create_network_cache` -/
  | createCache (netid : Nat)
  /-- 531-610 `dnsresolver_set_resolver_configuration`; the other parameters are constants (433-441, 898-911). -/
  | setResolver (netid : Nat) (servers domains : List CStr)
deriving DecidableEq, Repr

/-- The result of `system` and `pclose`. -/
inductive Wait where
  | error
  | exited (n : Nat)
  | signaled
deriving DecidableEq, Repr

/-- The answer: the result of waiting (`exited 0` is also the success of a call of the resolver service, and a handle that is not NULL);
the error number with which starting failed (0: none); the output and the error number with which reading it ended (0: end of file);
whether a signal ended the program. -/
structure Reply where
  status : Wait := .exited 0
  failed : Nat := 0
  out : List UInt8 := []
  readErr : Nat := 0
  killed : Bool := false
deriving DecidableEq, Repr

abbrev Ev := Call × Reply

/-- What a run depends on: the answers; the version of the system (0: unknown); the variable CALLING_PACKAGE; the package list; what is in
memory behind the list of applications; `qsort`; the numbers of `random`, and how many of them an observer waits for. -/
structure Env where
  reply : List Ev → Call → Reply
  sdk : Nat := 0
  caller : Option CStr := none
  packages : Except Nat (List UInt8) := .error 2
  residue : List UInt8 := []
  sort : List Nat → List Nat := id
  random : Nat → Nat := fun _ => 4096
  patience : Nat := 0

/-- How a part of the program ends: normally; with `exit`; killed by a signal; with undefined behaviour; not within the observer's
patience. -/
inductive Out (α : Type) where
  | ok (a : α)
  | exit (status : Nat)
  | killed
  | ub
  | running
deriving DecidableEq, Repr

def Sh (α : Type) : Type := Env → List Ev → Out α × List Ev

def Sh.pure {α : Type} (a : α) : Sh α := fun _ h => (.ok a, h)

def Sh.bind {α β : Type} (m : Sh α) (f : α → Sh β) : Sh β := fun e h =>
  match m e h with
  | (.ok a, h) => f a e h
  | (.exit n, h) => (.exit n, h)
  | (.killed, h) => (.killed, h)
  | (.ub, h) => (.ub, h)
  | (.running, h) => (.running, h)

/-- `exit(n)` -/
def exitWith {α : Type} (n : Nat) : Sh α := fun _ h => (.exit n, h)

def ubHere {α : Type} : Sh α := fun _ h => (.ub, h)

/-- Dereferencing NULL: SIGSEGV. -/
def segv {α : Type} : Sh α := fun _ h => (.killed, h)

def getEnv : Sh Env := fun e h => (.ok e, h)

def call (c : Call) : Sh Reply := fun e h =>
  let r := e.reply h c
  if r.killed then (.killed, h ++ [(c, r)]) else (.ok r, h ++ [(c, r)])

def forEach {α : Type} (f : α → Sh Unit) : List α → Sh Unit
  | [] => Sh.pure ()
  | x :: xs => (f x).bind fun _ => forEach f xs

/-- 192-195: ESRCH is 3, EIO 5. -/
def Wait.ret : Wait → Nat
  | .error => 3
  | .exited n => n
  | .signaled => 5

/-- 176-199 `cmd`; `exiting` is `is_exiting`. -/
def cmd (exiting : Bool) (s : CStr) : Sh Unit :=
  (call (.system s)).bind fun r =>
    if r.status.ret ≠ 0 ∧ exiting = false then exitWith r.status.ret else Sh.pure ()

/-- 144-164: `popen`. -/
def popen (s : CStr) : Sh Reply :=
  (call (.read s)).bind fun r => if r.failed ≠ 0 then exitWith r.failed else Sh.pure r

/-- 165-172: `getline` after the last line. -/
def atEof (r : Reply) : Sh Unit := if r.readErr ≠ 0 then exitWith r.readErr else Sh.pure ()

/-- 144-174, 201-210: `cmd_ret` called once: the first line. -/
def firstLine (s : CStr) : Sh (Option CStr) :=
  (popen s).bind fun r =>
    match (getlines r.out).map cstr with
    | [] => (atEof r).bind fun _ => Sh.pure none
    | l :: _ => Sh.pure (some l)

/-- `for (l = cmd_ret(&c, s); l; l = cmd_ret(&c, NULL)) f(l)` -/
def forLines (s : CStr) (f : CStr → Sh Unit) : Sh Unit :=
  (popen s).bind fun r => (forEach f ((getlines r.out).map cstr)).bind fun _ => atEof r

/-- 212-240 `cndc`. ENOSYS is 38, ENONET 64. -/
def cndc (s : CStr) : Sh Unit :=
  (firstLine (b!"ndc " ++ s)).bind fun l => match l with
    | none => exitWith 38
    | some l => if 400 ≤ atoi l ∧ atoi l < 600 then exitWith 64 else Sh.pure ()

/-- 633-636 `add_if` -/
def addIf (iface : CStr) : Sh Unit := cmd false (b!"ip link add " ++ iface ++ b!" type wireguard")

/-! ### Regular expressions that contain the name of the interface -/

/-- One element of a regular expression: a byte or `.`, perhaps with `+`. -/
structure Item where
  byte : Option UInt8
  plus : Bool := false
deriving DecidableEq, Repr

def Item.fits (i : Item) (c : UInt8) : Bool := i.byte = none || i.byte = some c

/-- The elements of `first` followed by the name: `.` and `+` are special; `+` after `+` is refused by `regcomp` (bionic). -/
def itemsOf : (first : Item) → CStr → Option (List Item)
  | i, [] => some [i]
  | i, c :: t =>
    if c = c!"+" then (if i.plus then none else itemsOf { i with plus := true } t)
    else (itemsOf (if c = c!"." then { byte := none } else { byte := some c }) t).map (i :: ·)

/-- One or more bytes that fit, and then `k`. -/
def plusThen (i : Item) (k : CStr → Bool) : CStr → Bool
  | [] => false
  | c :: t => i.fits c && (k t || plusThen i k t)

/-- The elements match a beginning of the string, and then `k`. -/
def matchItems : List Item → (CStr → Bool) → CStr → Bool
  | [], k, s => k s
  | i :: is, k, s =>
    if i.plus then plusThen i (matchItems is k) s
    else match s with
      | [] => false
      | c :: t => i.fits c && matchItems is k t

/-- `[0-9a-f]` -/
def isHexByte (c : UInt8) : Bool := (48 ≤ c && c ≤ 57) || (97 ≤ c && c ≤ 102)

/-- 646, 667-673: `0xc([0-9a-f]+)/0xcffff lookup IFACE`, the group of the leftmost match. `items` are the space and the name. -/
def ruleNetid (items : List Item) (line : CStr) : Option CStr :=
  (suffixes line).findSome? fun t =>
    if b!"0xc".isPrefixOf t then
      let hex := (t.drop 3).takeWhile isHexByte
      let rest := (t.drop 3).dropWhile isHexByte
      if hex ≠ [] && b!"/0xcffff lookup".isPrefixOf rest && matchItems items (fun _ => true) (rest.drop 15) then some hex else none
    else none

/-- 647, 654-665: `^-A (.* --comment "wireguard rule IFACE"[^\n]*)\n*$`, the group. The line has a line feed at most at its end. -/
def ruleArgs (items : List Item) (line : CStr) : Option CStr :=
  let body := if line.getLast? = some 10 then line.dropLast else line
  if b!"-A ".isPrefixOf body && (suffixes (body.drop 3)).any (fun t => b!" --comment \"wireguard rule".isPrefixOf t &&
      matchItems items (fun s => s.head? = some c!"\"") (t.drop 26)) then some (body.drop 3) else none

/-- 654-659, 660-665: the loop over `iptables-save` or `ip6tables-save`. -/
def dropRules (exiting : Bool) (items : List Item) (tables : CStr) : Sh Unit :=
  forLines (tables ++ b!"-save") fun line => match ruleArgs items line with
    | none => Sh.pure ()
    | some r => cmd exiting (tables ++ b!" -D " ++ r)

/-- 667-673: the loop over `ip rule show` ends with the first match; only a loop to the end sees an error of `getline`. -/
def findNetid (items : List Item) : Sh (Option CStr) :=
  (popen b!"ip rule show").bind fun r =>
    match ((getlines r.out).map cstr).findSome? (ruleNetid items) with
    | some n => Sh.pure (some n)
    | none => (atEof r).bind fun _ => Sh.pure none

/-- 638-676 `del_if`. EBADR is 53. `strtoul` of up to 64 bits. -/
def delIf (exiting : Bool) (iface : CStr) : Sh Unit :=
  match itemsOf { byte := some 32 } iface with
  | none => exitWith 53
  | some items =>
    (cmd exiting (b!"ip link del " ++ iface)).bind fun _ =>
    (dropRules exiting items b!"iptables").bind fun _ =>
    (dropRules exiting items b!"ip6tables").bind fun _ =>
    (findNetid items).bind fun n => match n with
      | none => Sh.pure ()
      | some hex => cndc (b!"network destroy " ++ showDec (strtoul (2 ^ 64 - 1) 16 hex).1)

/-! ### Up -/

/-- 683-693: (`has_ipv6`, `has_all_none`) after one line. -/
def endpointSeen (acc : Bool × Bool) (line : CStr) : Bool × Bool :=
  match line.dropWhile (· ≠ 9) with
  | [] => acc
  | _ :: start => (acc.1 || start.head? = some c!"[", acc.2 && start.head? = some c!"(")

/-- 678-695 `should_block_ipv6` -/
def shouldBlockV6 (iface : CStr) : Sh Bool :=
  (popen (b!"wg show " ++ iface ++ b!" endpoints")).bind fun r => (atEof r).bind fun _ =>
    let acc := ((getlines r.out).map cstr).foldl endpointSeen (false, true)
    Sh.pure (!acc.1 && !acc.2)

/-- 697-715 `determine_listen_port` -/
def listenPort (iface : CStr) : Sh Nat :=
  (cmd false (b!"ip link set up dev " ++ iface)).bind fun _ =>
  (firstLine (b!"wg show " ++ iface ++ b!" listen-port")).bind fun v =>
  let port := match v with
    | none => 0
    | some v => let n := (strtoul (2 ^ 64 - 1) 10 v).1; if n > 65535 then 0 else n
  (cmd false (b!"ip link set down dev " ++ iface)).bind fun _ => Sh.pure port

/-- 721-722: `random() & 0xfffe` until it is at least 4096. -/
def pickNetid : (fuel : Nat) → (Nat → Nat) → Option Nat
  | 0, _ => none
  | fuel + 1, random => let n := random 0 &&& 0xfffe; if n < 4096 then pickNetid fuel (fun i => random (i + 1)) else some n

/-- 725-729: the text behind the options of a rule. -/
def ruleComment (iface : CStr) : CStr := b!" -m comment --comment \"wireguard rule " ++ iface ++ b!"\""

/-- 717-734 `up_if`; the number of the network. -/
def upIf (iface : CStr) (port : Nat) : Sh Nat :=
  getEnv.bind fun e => match pickNetid e.patience e.random with
  | none => fun _ h => (.running, h)
  | some netid =>
    (cmd false (b!"wg set " ++ iface ++ b!" fwmark 0x20000")).bind fun _ =>
    (cmd false (b!"iptables -I OUTPUT 1 -m mark --mark 0x20000 -j ACCEPT" ++ ruleComment iface)).bind fun _ =>
    (cmd false (b!"ip6tables -I OUTPUT 1 -m mark --mark 0x20000 -j ACCEPT" ++ ruleComment iface)).bind fun _ =>
    (if port ≠ 0 then
      (cmd false (b!"iptables -I INPUT 1 -p udp --dport " ++ showDec port ++ b!" -j ACCEPT" ++ ruleComment iface)).bind fun _ =>
      (shouldBlockV6 iface).bind fun block =>
      cmd false (b!"ip6tables -I INPUT 1 -p udp --dport " ++ showDec port ++ b!" -j " ++ (if block then b!"DROP" else b!"ACCEPT") ++ ruleComment iface)
     else Sh.pure ()).bind fun _ =>
    (cmd false (b!"ip link set up dev " ++ iface)).bind fun _ =>
    (cndc (b!"network create " ++ showDec netid ++ (if e.sdk < 31 then b!" vpn 1 1" else b!" vpn 1"))).bind fun _ =>
    (cndc (b!"network interface add " ++ showDec netid ++ b!" " ++ iface)).bind fun _ => Sh.pure netid

/-- 787-835 `set_users`. A command is run as soon as there are eighteen arguments. -/
def setUsers (netid : Nat) (excluded included : Option CStr) : Sh Unit :=
  if excluded.isSome ∧ included.isSome then exitWith 17
  else
    let exclude := excluded.isSome || !included.isSome
    getEnv.bind fun e => match getUidList e.packages e.residue e.sort (if exclude then excluded else included) with
    | .exit n => exitWith n
    | .ub => ubHere
    | .ok uids =>
      let args := userRanges exclude uids
      forEach (fun l => cndc (b!"network users add " ++ showDec netid ++ b!" " ++ joined l)) (batches (args.length + 1) args)

/-- `strtok` until it returns NULL. -/
def strtokAux (sep : UInt8 → Bool) : (cur : CStr) → CStr → List CStr
  | cur, [] => if cur = [] then [] else [cur]
  | cur, c :: t =>
    if sep c then (if cur = [] then strtokAux sep [] t else cur :: strtokAux sep [] t)
    else strtokAux sep (cur ++ [c]) t

def strtok (sep : UInt8 → Bool) (s : CStr) : List CStr := strtokAux sep [] s

/-- `", \t\n"` -/
def listSeps (c : UInt8) : Bool := c == c!"," || c == 32 || c == 9 || c == 10

/-- 860-861, 878-879, 950-951: entries with a quote or a backslash are skipped. -/
def unquoted (s : CStr) : Bool := !(s.contains c!"'" || s.contains c!"\\")

/-- The four texts that `set_dnses` builds, and its two arrays. -/
structure Dns where
  shellServers : CStr := []
  shellDomains : CStr := []
  textServers : CStr := []
  textDomains : CStr := []
  servers : List CStr := []
  domains : List CStr := []
deriving DecidableEq

/-- `snprintf(arg, size, …)`; `arg` has `len + 4` bytes. -/
def snprintf (size : Nat) (s : CStr) : CStr := s.take (size - 1)

/-- `strncat(buf, s, 4 * len - 1)` into a buffer of `4 * len + 1` bytes; `none` is writing behind it. -/
def strncat (len : Nat) (buf s : CStr) : Option CStr :=
  let r := buf ++ s.take (4 * len - 1)
  if r.length + 1 ≤ 4 * len + 1 then some r else none

/-- 877-886: one entry. -/
def dnsStep (len : Nat) (d : Dns) (dns : CStr) : Option Dns :=
  if isNameserver dns then
    (strncat len d.shellServers (snprintf (len + 3) (b!"'" ++ dns ++ b!"' "))).bind fun sh =>
    (strncat len d.textServers (snprintf (len + 2) (if d.textServers = [] then dns else b!", " ++ dns))).map fun tx =>
    { d with shellServers := sh, textServers := tx, servers := d.servers ++ [dns] }
  else
    (strncat len d.shellDomains (snprintf (len + 3) (b!"'" ++ dns ++ b!"' "))).bind fun sh =>
    (strncat len d.textDomains (snprintf (len + 2) (if d.textDomains = [] then dns else b!", " ++ dns))).map fun tx =>
    { d with shellDomains := sh, textDomains := tx, domains := d.domains ++ [dns] }

/-- 877-886 -/
def dnsLoop (len : Nat) : Dns → List CStr → Option Dns
  | d, [] => some d
  | d, w :: ws => (dnsStep len d w).bind fun d => dnsLoop len d ws

/-- 892-896, 917-922: a call of the resolver service. -/
def binderCall (c : Call) : Sh Unit := (call c).bind fun r => if r.status = .exited 0 then Sh.pure () else exitWith 64

/-- 837-925 `set_dnses` -/
def setDnses (netid : Nat) (dnses : CStr) : Sh Unit :=
  if dnses.length > 65536 then Sh.pure () else
  let ws := (strtok listSeps dnses).filter unquoted
  if ws.any isNameserver then
    match dnsLoop dnses.length {} ws with
    | none => ubHere
    | some d => (call .handle).bind fun r =>
      if r.status = .exited 0 then
        (binderCall (.createCache netid)).bind fun _ => binderCall (.setResolver netid d.servers d.domains)
      else cndc (b!"resolver setnetdns " ++ showDec netid ++ b!" '" ++ d.shellDomains ++ b!"' " ++ d.shellServers)
  else Sh.pure ()

/-- 927-943 `add_addr` -/
def addAddr (iface addr : CStr) : Sh Unit :=
  if c!":" ∈ addr then
    (cndc (b!"interface ipv6 " ++ iface ++ b!" enable")).bind fun _ => cmd false (b!"ip -6 addr add '" ++ addr ++ b!"' dev " ++ iface)
  else
    let mask : Nat := match addr.dropWhile (· ≠ c!"/") with
      | [] => 32
      | _ :: m => toUnsigned (atoi m) % 256
    cndc (b!"interface setcfg " ++ iface ++ b!" '" ++ addr.takeWhile (· ≠ c!"/") ++ b!"' " ++ showDec mask)

/-- 945-954 `set_addr` -/
def setAddr (iface addrs : CStr) : Sh Unit := forEach (addAddr iface) ((strtok listSeps addrs).filter unquoted)

/-- 956-990 `get_route_mtu` -/
def routeMtu (endpoint : CStr) : Sh Int :=
  (firstLine ((if endpoint = b!"default" then b!"ip -o route show " else b!"ip -o route get ") ++ endpoint)).bind fun l => match l with
  | none => Sh.pure (-1)
  | some route => match mtuIn route with
    | some m => Sh.pure (atoi m)
    | none => match devIn route with
      | none => Sh.pure (-1)
      | some dev => (firstLine (b!"ip -o link show dev " ++ dev)).bind fun l => match l with
        | none => Sh.pure (-1)
        | some link => match mtuIn link with
          | none => Sh.pure (-1)
          | some m => Sh.pure (atoi m)

/-- 1010-1019: the loop over the lines of `wg show IFACE endpoints`. -/
def mtuLoop (r : Reply) : Int → List CStr → Sh Int
  | mtu, [] => (atEof r).bind fun _ => Sh.pure mtu
  | mtu, l :: ls => match endpointHost l with
    | none => mtuLoop r mtu ls
    | some host => (routeMtu host).bind fun next => mtuLoop r (if next > 0 ∧ next < mtu then next else mtu) ls

/-- `%d` -/
def showInt (i : Int) : CStr := if i < 0 then b!"-" ++ showDec i.natAbs else showDec i.natAbs

/-- 992-1022 `set_mtu`. -/
def setMtu (iface : CStr) (mtu : Nat) : Sh Unit :=
  if mtu ≠ 0 then cndc (b!"interface setmtu " ++ iface ++ b!" " ++ showDec mtu)
  else (routeMtu b!"default").bind fun m =>
    (popen (b!"wg show " ++ iface ++ b!" endpoints")).bind fun r =>
    (mtuLoop r (if m = -1 then 1500 else m) ((getlines r.out).map cstr)).bind fun m =>
    cndc (b!"interface setmtu " ++ iface ++ b!" " ++ showInt (m - 80))

/-- `" \n"` -/
def blankSeps (c : UInt8) : Bool := c == 32 || c == 10

/-- 1024-1027 `add_route` -/
def addRoute (iface : CStr) (netid : Nat) (route : CStr) : Sh Unit :=
  cndc (b!"network route add " ++ showDec netid ++ b!" " ++ iface ++ b!" " ++ route)

/-- 1033-1044: the allowed IPs of a line of `wg show IFACE allowed-ips`. -/
def routesIn (line : CStr) : List CStr :=
  match line.dropWhile (· ≠ 9) with
  | [] => []
  | _ :: start => (strtok blankSeps start).filter (· ≠ b!"(none)")

/-- 1029-1045 `set_routes` -/
def setRoutes (iface : CStr) (netid : Nat) : Sh Unit :=
  forLines (b!"wg show " ++ iface ++ b!" allowed-ips") fun line => forEach (addRoute iface netid) (routesIn line)

/-- 1047-1067 `set_config`. A result of `pclose` that is no exit status, also its failure, is EIO. -/
def setConfig (iface config : CStr) : Sh Unit :=
  (call (.write (b!"wg setconf " ++ iface ++ b!" /proc/self/fd/0") config)).bind fun r =>
    if r.failed ≠ 0 then exitWith r.failed
    else match r.status with
      | .exited 0 => Sh.pure ()
      | .exited n => exitWith n
      | _ => exitWith 5

/-- 1069-1075 `broadcast_change` -/
def broadcast : Sh Unit :=
  getEnv.bind fun e =>
    if e.caller = some b!"com.wireguard.android" then Sh.pure ()
    else cmd false b!"am broadcast -a com.wireguard.android.action.REFRESH_TUNNEL_STATES com.wireguard.android"

/-- 1129-1138: what `cmd_up` does once the interface does not exist; NULL is dereferenced at `fputs`, `strdup`, `strlen`. -/
def upBody (c : Conf) : Sh Unit :=
  (addIf c.iface).bind fun _ =>
  match c.config with
  | none => segv
  | some config => (setConfig c.iface config).bind fun _ =>
    (listenPort c.iface).bind fun port =>
    (upIf c.iface port).bind fun netid =>
    match c.addrs with
    | none => segv
    | some addrs => (setAddr c.iface addrs).bind fun _ =>
      match c.dnses with
      | none => segv
      | some dnses => (setDnses netid dnses).bind fun _ =>
        (setRoutes c.iface netid).bind fun _ =>
        (setMtu c.iface c.mtu).bind fun _ =>
        (setUsers netid c.excluded c.included).bind fun _ =>
        broadcast

/-- 1107-1113 `cmd_up_cleanup`, run by `exit`; an `exit` in it sets the status. -/
def undo (iface : CStr) (status : Nat) : Sh Unit := (delIf true iface).bind fun _ => exitWith status

/-- 1115-1143 `cmd_up`: EEXIST is 17. -/
def cmdUp (c : Conf) : Sh Unit :=
  (firstLine (b!"ip link show dev " ++ c.iface ++ b!" 2>/dev/null")).bind fun l => match l with
  | some _ => exitWith 17
  | none => fun e h => match upBody c e h with
    | (.exit n, h) => undo c.iface n e h
    | (.ok _, h) => (.exit 0, h)
    | r => r

/-- 1145-1167 `cmd_down`: EMEDIUMTYPE is 124. -/
def cmdDown (iface : CStr) : Sh Unit :=
  (firstLine b!"wg show interfaces").bind fun l =>
    if iface ∈ strtok blankSeps (l.getD []) then
      (delIf false iface).bind fun _ => broadcast.bind fun _ => exitWith 0
    else exitWith 124

/-- What becomes of the program. -/
inductive Ran where
  /-- The usage message, and the status. -/
  | usage (status : Nat)
  /-- Replaced by another program. -/
  | exec (argv : List CStr)
  /-- Ended before anything was run. -/
  | refused (status : Nat)
  | ran (out : Out Unit) (hist : List Ev)

/-- 612-631, 1274-1303 `main`; `root`: the user is root; `argv` includes the name of the program. `execvp` does not fail. -/
def main (env : Env) (root : Bool) (files : Files) (argv : List CStr) : Ran :=
  match argv with
  | [_, a] => if a = b!"help" ∨ a = b!"--help" ∨ a = b!"-h" then .usage 0 else .usage 1
  | [_, a, name] =>
    if a = b!"up" ∨ a = b!"down" then
      if root then
        match parseOptions files name with
        | .refused n => .refused n
        | .conf c => let r := (if a = b!"up" then cmdUp c else cmdDown c.iface) env []; .ran r.1 r.2
      else .exec ([b!"su", b!"-p", b!"-c"] ++ argv)
    else .usage 1
  | _ => .usage 1

end WG.Android
