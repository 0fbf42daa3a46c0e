import Verif.Model.BsdSh
/-!
Model of src/wg-quick/freebsd.bash, openbsd.bash and darwin.bash after `parse_options`: `up`, `down`, `save`, `strip` and the route
monitor that `up` leaves behind. Citations `f`, `o`, `d` are lines of the three files.

Simplifications (besides those of Model/BsdSh): output of a command that is only shown to the user is not modelled; where a loop reads the output of a
command (`done < <(…)`) a signal counts as arriving before the first or after the last line; `-n` of `[[ -v existing_ifs[…] ]]` (o:109) is
only meant for fewer than 2^31 interfaces; in `interface:\ $REAL_INTERFACE` only `.` and `+` of the name are special; the words
of a list are not subject to pathname expansion.
-/
namespace WG.Bsd
open WG.Quick (Call Reply Ev World Out calm chomp readLoopLines afterFirst hasInfix isDig wordArg mtuIn endpointHost joinSpace resolvText stripText
  wordsAux readLine Opts confLine patsubText replaceFirst nameserverOf routesIn suffixes minus80 trim isIfs)

/-- What the commands work on: the platform, the result of `parse_options`; the userspace implementation's command (f:128, d:126); the
`sort -nr -k 2 -t /` (f:432, o:429, d:463); whether bash's `patsub_replacement` is on; the order in which bash walks through the keys
of an associative array (d:235, 297, 313); the observer's patience for loops. -/
structure Cfg where
  plat : Plat
  iface : CStr
  file : CStr
  opts : Opts
  userspace : CStr
  sort : List CStr → List CStr
  patsub : Bool
  order : List CStr → List CStr
  patience : Nat

/-- A command without standard input. -/
def act (argv : List CStr) : Call := .act argv []

/-- The `k`-th word (from 0) of a line: what `read` puts in the `k`-th variable, if another one follows. -/
def wordAt (k : Nat) (line : CStr) : CStr := (wordsAux [] line)[k]?.getD []

/-- `[[ $x == *:* ]]` -/
def isV6 (a : CStr) : Bool := c!":" ∈ a

/-- `-inet` or `-inet6` (f:146-150, 191-192, 319-320 and the same in the others). -/
def famOf (a : CStr) : CStr := if isV6 a then b!"-inet6" else b!"-inet"

/-! ### Temporary directory (FreeBSD) -/

/-- f:44-58 `make_temp`. The status of `mktemp` is lost in `export`. -/
def makeTemp : Sh Unit :=
  (call (act [b!"mktemp", b!"-d"])).bind fun r =>
  (call (.query [b!"test", b!"-d", chomp r.out])).bind fun t =>
  if t.status ≠ 0 then exitWith 1 else modify fun s => { s with tmp := chomp r.out }

/-- f:60-62 `clean_temp`: with an empty variable the function fails. -/
def cleanTemp : Sh Unit := get.bind fun s => if s.tmp = [] then exitWith 1 else run true (act [b!"rm", b!"-rf", s.tmp])

/-! ### Interface -/

/-- o:92-95 `[[ $line =~ ^([a-z]+[0-9]+):\ .+ ]]`: the name. -/
def ifaceLine (line : CStr) : Option CStr :=
  let a := line.takeWhile fun c => 97 ≤ c && c ≤ 122
  let r := line.drop a.length
  let n := r.takeWhile isDig
  let r := r.drop n.length
  if a ≠ [] ∧ n ≠ [] ∧ b!": ".isPrefixOf r ∧ 2 < r.length then some (a ++ n) else none

/-- o:89-101, the loop over the lines of `ifconfig` (read with `IFS=`). -/
def findReal (iface : CStr) : CStr → List CStr → Option CStr
  | _, [] => none
  | cur, l :: ls =>
    match ifaceLine l with
    | some n => findReal iface n ls
    | none =>
      if b!"wg".isPrefixOf cur ∧ l = b!"\tdescription: wg-quick: " ++ iface then some cur else findReal iface cur ls

/-- `while IFS= read -r line`: complete lines, nothing trimmed. -/
def rawLines (content : List UInt8) : List CStr :=
  (getlines content).filterMap fun raw => if raw.getLast? = some 10 then some (raw.dropLast.filter (· ≠ 0)) else none

/-- o:90-103 `get_real_interface` on OpenBSD: whether it succeeds. -/
def realOpenbsd (c : Cfg) : Sh Bool :=
  (call (.query [b!"ifconfig"])).bind fun r =>
  match findReal c.iface [] (rawLines r.out) with
  | some n => (modify fun s => { s with real := n }).bind fun _ => Sh.pure true
  | none => Sh.pure false

/-- `/var/run/wireguard/$INTERFACE.name` -/
def nameFile (c : Cfg) : CStr := b!"/var/run/wireguard/" ++ c.iface ++ b!".name"
/-- `/var/run/wireguard/$interface.sock` -/
def sockFile (i : CStr) : CStr := b!"/var/run/wireguard/" ++ i ++ b!".sock"

/-- d:116 `$(stat -f %m … || echo n)` -/
def mtimeOf (r : Reply) (n : Nat) : Int := if r.status = 0 then (digitsVal 10 (chomp r.out) : Int) else n

/-- d:110-121 `get_real_interface` on Darwin; `e` tells whether `set -e` is in effect. -/
def realDarwin (c : Cfg) (e : Bool) : Sh Bool :=
  (run e (.query [b!"wg", b!"show", b!"interfaces"])).bind fun _ =>
  (call (.query [b!"test", b!"-f", nameFile c])).bind fun t =>
  if t.status ≠ 0 then Sh.pure false
  else
    (call (.query [b!"cat", nameFile c])).bind fun n =>
    if e && n.status ≠ 0 then exitWith n.status
    else if chomp n.out = [] then Sh.pure false
    else
      (call (.query [b!"test", b!"-S", sockFile (chomp n.out)])).bind fun t =>
      if t.status ≠ 0 then Sh.pure false
      else
        (call (.query [b!"stat", b!"-f", b!"%m", sockFile (chomp n.out)])).bind fun a =>
        (call (.query [b!"stat", b!"-f", b!"%m", nameFile c])).bind fun b =>
        let diff := mtimeOf a 200 - mtimeOf b 100
        if diff ≥ 2 ∨ diff ≤ -2 then Sh.pure false
        else (modify fun s => { s with real := chomp n.out }).bind fun _ => Sh.pure true

/-- f:118-128 `add_if` on FreeBSD. After the `if` without `else`, `$?` is 0, so `return $rc` is `return 0`. -/
def addIfFreebsd (c : Cfg) : Sh Unit :=
  (call (act [b!"ifconfig", b!"wg", b!"create", b!"name", c.iface])).bind fun r =>
  if r.status = 0 then Sh.pure ()
  else if hasInfix b!"ifconfig: ioctl SIOCSIFNAME (set name): File exists" (chomp r.out) then Sh.pure ()
  else run true (act [c.userspace, c.iface])

/-- o:107-109: the least number for which `wgN` is not among the names. -/
def freeIndex (names : List CStr) : Nat := ((List.range (names.length + 1)).find? fun i => decide (b!"wg" ++ showDec i ∉ names)).getD 0

/-- `wgN` -/
def wgName (i : Nat) : CStr := b!"wg" ++ showDec i

/-- o:105-118 `add_if` on OpenBSD. -/
def addIfOpenbsd (c : Cfg) : Nat → Sh Unit
  | 0 => giveUp
  | n + 1 =>
    (call (.query [b!"wg", b!"show", b!"interfaces"])).bind fun q =>
    let i := freeIndex (wordsAux [] (chomp q.out))
    (call (act [b!"ifconfig", wgName i, b!"create", b!"description", b!"wg-quick: " ++ c.iface])).bind fun r =>
    if r.status = 0 then modify fun s => { s with real := wgName i }
    else if hasInfix b!"ifconfig: SIOCIFCREATE: File exists" (chomp r.out) then addIfOpenbsd c n
    else exitWith 1

/-- d:123-128 `add_if` on Darwin; the exported variable is shown in front of the command. -/
def addIfDarwin (c : Cfg) : Sh Unit :=
  (run true (act [b!"mkdir", b!"-p", b!"/var/run/wireguard/"])).bind fun _ =>
  (run true (act [b!"WG_TUN_NAME_FILE=" ++ nameFile c, c.userspace, b!"utun"])).bind fun _ =>
  (realDarwin c true).bind fun ok => if ok then Sh.pure () else exitWith 1

/-- `add_if`. -/
def addIf (c : Cfg) : Sh Unit :=
  match c.plat with
  | .freebsd => addIfFreebsd c
  | .openbsd => addIfOpenbsd c c.patience
  | .darwin => addIfDarwin c

/-! ### DNS -/

/-- `/etc/resolv.conf.wg-quick-backup.$INTERFACE` (o:297, 303) -/
def backupFile (c : Cfg) : CStr := b!"/etc/resolv.conf.wg-quick-backup." ++ c.iface

/-- f:303-309 `set_dns` on FreeBSD. -/
def setDnsFreebsd (c : Cfg) : Sh Unit :=
  if c.opts.dns = [] then Sh.pure ()
  else (run true (.act [b!"resolvconf", b!"-a", c.iface, b!"-x"] (resolvText c.opts))).bind fun _ =>
    modify fun s => { s with haveDns := true }

/-- o:284-300 `set_dns` on OpenBSD; writing `/etc/resolv.conf` by redirection is shown as a command. -/
def setDnsOpenbsd (c : Cfg) : Sh Unit :=
  if c.opts.dns = [] then Sh.pure ()
  else
    (call (.query [b!"pgrep", b!"-qx", b!"unwind"])).bind fun u =>
    (if u.status = 0 then Sh.pure true else (call (.query [b!"pgrep", b!"-qx", b!"resolvd"])).bind fun r => Sh.pure (r.status = 0)).bind fun b =>
    if b then
      (run true (act [b!"cp", b!"/etc/resolv.conf", backupFile c])).bind fun _ =>
      (if c.opts.dnsSearch = [] then Sh.pure ()
       else run true (.act [b!"write", b!"/etc/resolv.conf"] (b!"search " ++ joinSpace c.opts.dnsSearch ++ [10]))).bind fun _ =>
      get.bind fun s => run true (act ([b!"route", b!"nameserver", s.real] ++ c.opts.dns))
    else Sh.pure ()

/-- f:311-314 `unset_dns` on FreeBSD. -/
def unsetDnsFreebsd (c : Cfg) : Sh Unit :=
  if c.opts.dns = [] then Sh.pure () else run true (act [b!"resolvconf", b!"-d", c.iface])

/-- o:302-306 `unset_dns` on OpenBSD. -/
def unsetDnsOpenbsd (c : Cfg) : Sh Unit :=
  (call (.query [b!"test", b!"-f", backupFile c])).bind fun t =>
  if t.status ≠ 0 then Sh.pure ()
  else
    get.bind fun s =>
    (run true (act ([b!"route", b!"nameserver"] ++ (if s.real = [] then [] else [s.real])))).bind fun _ =>
    run true (act [b!"mv", backupFile c, b!"/etc/resolv.conf"])

/-- The value of a key in an associative array; unset is empty. -/
def lookup (m : List (CStr × CStr)) (k : CStr) : CStr := ((m.find? fun p => p.1 = k).map (·.2)).getD []

/-- Setting a key. -/
def assign (m : List (CStr × CStr)) (k v : CStr) : List (CStr × CStr) := m.filter (fun p => p.1 ≠ k) ++ [(k, v)]

/-- d:226-227, 229-230: `Empty` for an answer in words. -/
def svcAnswer (out : List UInt8) : CStr := if hasInfix b!" " (chomp out) then b!"Empty" else chomp out

/-- d:223 `service="${service:1}"` for disabled services. -/
def svcName (line : CStr) : CStr := if line.head? = some c!"*" then line.drop 1 else line

/-- d:222-231, one service. An empty name is a bad array subscript (d:224), which ends the script. -/
def collectService (service : CStr) : Sh Unit :=
  if service = [] then exitWith 1 else
  get.bind fun s =>
  if lookup s.svcDns service ≠ [] then Sh.pure ()
  else
    (call (.query [b!"networksetup", b!"-getdnsservers", service])).bind fun r =>
    if r.status ≠ 0 then exitWith r.status
    else
      (if svcAnswer r.out = [] then Sh.pure () else modify fun s => { s with svcDns := assign s.svcDns service (svcAnswer r.out) }).bind fun _ =>
      (call (.query [b!"networksetup", b!"-getsearchdomains", service])).bind fun r =>
      if r.status ≠ 0 then exitWith r.status
      else if svcAnswer r.out = [] then Sh.pure () else modify fun s => { s with svcSearch := assign s.svcSearch service (svcAnswer r.out) }

/-- d:220-241 `collect_new_service_dns`. -/
def collectServices : Sh Unit :=
  (call (.query [b!"networksetup", b!"-listallnetworkservices"])).bind fun r =>
  let found := ((readLoopLines r.out).drop 1).map svcName
  (forEach collectService found).bind fun _ =>
  modify fun s =>
    let gone := (s.svcDns.map (·.1)).filter fun k => k ∉ found
    { s with svcDns := s.svcDns.filter (fun p => p.1 ∉ gone), svcSearch := s.svcSearch.filter (fun p => p.1 ∉ gone) }

/-- d:294-309 `set_dns` on Darwin: a failing first command ends the subshell (`set -e`), not the script. -/
def setDnsDarwin (c : Cfg) : Sh Unit :=
  collectServices.bind fun _ =>
  get.bind fun s =>
  forEach (fun service =>
    (call (act ([b!"networksetup", b!"-setdnsservers", service] ++ c.opts.dns))).bind fun r =>
    if r.status ≠ 0 then Sh.pure ()
    else run false (act ([b!"networksetup", b!"-setsearchdomains", service] ++ (if c.opts.dnsSearch = [] then [b!"Empty"] else c.opts.dnsSearch))))
    (c.order (s.svcDns.map (·.1)))

/-- d:311-321 `del_dns`. -/
def delDns (c : Cfg) : Sh Unit :=
  get.bind fun s =>
  forEach (fun service =>
    (run false (act ([b!"networksetup", b!"-setdnsservers", service] ++ wordsAux [] (lookup s.svcDns service)))).bind fun _ =>
    run false (act ([b!"networksetup", b!"-setsearchdomains", service] ++ wordsAux [] (lookup s.svcSearch service))))
    (c.order (s.svcDns.map (·.1)))

/-! ### Removal -/

/-- f:134, o:124, d:134: a line of `netstat -nr -f inet` that is about the interface; its destination. -/
def ownRoute4 (real line : CStr) : Option CStr := if wordAt 5 line = real then some (wordAt 0 line) else none

/-- f:140-142 (and the same in the others): a line of `netstat -nr -f inet6`. The last variable takes the rest of the line. -/
def ownRoute6 (real line : CStr) : Option CStr :=
  let netif := afterFirst (afterFirst (afterFirst line))
  if netif = real ∨ (b!"lo".isPrefixOf netif ∧ wordAt 1 line = real) then some (wordAt 0 line) else none

/-- `route -q -n delete FAMILY DEST` -/
def routeDelete (fam dest : CStr) : Call := act [b!"route", b!"-q", b!"-n", b!"delete", fam, dest]

/-- f:131-153, o:120-143, d:130-153 `del_routes`. -/
def delRoutes (c : Cfg) : Sh Unit :=
  get.bind fun s =>
  if c.plat ≠ .freebsd ∧ s.real = [] then Sh.pure ()
  else
    (call (.query [b!"netstat", b!"-nr", b!"-f", b!"inet"])).bind fun r4 =>
    (forEach (fun d => run false (routeDelete b!"-inet" d)) ((readLoopLines r4.out).filterMap (ownRoute4 s.real))).bind fun _ =>
    (call (.query [b!"netstat", b!"-nr", b!"-f", b!"inet6"])).bind fun r6 =>
    (forEach (fun d => run false (routeDelete b!"-inet6" d)) ((readLoopLines r6.out).filterMap (ownRoute6 s.real))).bind fun _ =>
    forEach (fun d => run false (routeDelete (famOf d) d)) s.endpoints

/-- f:162-168: `while ifconfig …; do sleep 0.1; done` -/
def waitGone (c : Cfg) : Nat → Sh Unit
  | 0 => giveUp
  | n + 1 =>
    (call (.query [b!"ifconfig", c.iface])).bind fun r =>
    if r.status = 0 then (run true (.query [b!"sleep", b!"0.1"])).bind fun _ => waitGone c n else Sh.pure ()

/-- f:155-169, o:145-148, d:155-158 `del_if`. -/
def delIf (c : Cfg) : Sh Unit :=
  get.bind fun s =>
  match c.plat with
  | .freebsd =>
    (if s.haveDns then unsetDnsFreebsd c else Sh.pure ()).bind fun _ =>
    (call (.query [b!"test", b!"-S", sockFile c.iface])).bind fun t =>
    (if t.status = 0 then run true (act [b!"rm", b!"-f", sockFile c.iface]) else run true (act [b!"ifconfig", c.iface, b!"destroy"])).bind fun _ =>
    waitGone c c.patience
  | .openbsd =>
    (unsetDnsOpenbsd c).bind fun _ =>
    if s.real = [] then exitWith 1 else run true (act [b!"ifconfig", s.real, b!"destroy"])
  | .darwin =>
    (if s.real = [] then Sh.pure () else run true (act [b!"rm", b!"-f", sockFile s.real])).bind fun _ =>
    run true (act [b!"rm", b!"-f", nameFile c])

/-! ### Configuration -/

/-- `${hook//%x/$v}` -/
def subst (x : UInt8) (v : CStr) : CStr → CStr
  | [] => []
  | [c] => [c]
  | c :: d :: t => if c = c!"%" ∧ d = x then v ++ subst x v t else c :: subst x v (d :: t)

/-- f:384, o:382-383, d:414-415: the hook that is run. -/
def hookText (c : Cfg) (real h : CStr) : CStr :=
  if c.plat = .freebsd then subst c!"i" c.iface h else subst c!"I" c.iface (subst c!"i" real h)

/-- f:381-388, o:379-387, d:411-419 `execute_hooks`. -/
def executeHooks (c : Cfg) (hooks : List CStr) : Sh Unit :=
  forEach (fun h => get.bind fun s => run true (.hook (hookText c s.real h))) hooks

/-- f:339-341, o:339-341, d:371-373 `set_config`. -/
def setConfig (c : Cfg) : Sh Unit :=
  get.bind fun s =>
  run true (.act ([b!"wg", b!"setconf", s.real] ++ (if c.plat = .freebsd then [b!"/dev/stdin"] else [])) (stripText c.opts))

/-- `${1%/*}`: without the last slash and what follows. -/
def beforeLastSlash (a : CStr) : CStr := if c!"/" ∈ a then ((a.reverse.dropWhile (· ≠ c!"/")).drop 1).reverse else a

/-- f:175-181, o:154-164, d:164-170 `add_addr`. -/
def addAddr (c : Cfg) (a : CStr) : Sh Unit :=
  get.bind fun s =>
  let fam := if isV6 a then b!"inet6" else b!"inet"
  match c.plat with
  | .freebsd => run true (act [b!"ifconfig", s.real, fam, a, b!"alias"])
  | .openbsd =>
    (modify fun s =>
      if isV6 a then { s with first6 := if s.first6 = [] then beforeLastSlash a else s.first6 }
      else { s with first4 := if s.first4 = [] then beforeLastSlash a else s.first4 }).bind fun _ =>
    run true (act [b!"ifconfig", s.real, fam, a, b!"alias"])
  | .darwin =>
    if isV6 a then run true (act [b!"ifconfig", s.real, b!"inet6", a, b!"alias"])
    else run true (act [b!"ifconfig", s.real, b!"inet", a, a.takeWhile (· ≠ c!"/"), b!"alias"])

/-- `[[ $s =~ interface:\ ([^ ]+)$'\n' ]]`: the group of the leftmost longest match. -/
def ifaceIn (s : CStr) : Option CStr :=
  (suffixes s).findSome? fun t =>
    let r : CStr := (t.drop 11).takeWhile (· ≠ 32)
    let g : CStr := ((r.reverse.dropWhile (· ≠ 10)).drop 1).reverse
    if b!"interface: ".isPrefixOf t ∧ (10 : UInt8) ∈ r ∧ g ≠ [] then some g else none

/-- `ifconfig IF mtu N` -/
def mtuAct (real mtu : CStr) : Call := act [b!"ifconfig", real, b!"mtu", mtu]

/-- f:194, 198 and o:177, 181: the larger of `mtu` and that of the interface named in the output. Numbers are taken as decimal. -/
def mtuFrom (output : CStr) (mtu : Nat) : Sh Nat :=
  match ifaceIn output with
  | none => Sh.pure mtu
  | some i =>
    (call (.query [b!"ifconfig", i])).bind fun r =>
    match mtuIn (chomp r.out) with
    | some d => Sh.pure (max mtu (digitsVal 10 d))
    | none => Sh.pure mtu

/-- f:189-195, o:172-178. -/
def mtuLoop : List CStr → Nat → Sh Nat
  | [], mtu => Sh.pure mtu
  | line :: ls, mtu =>
    match endpointHost (afterFirst line) with
    | none => mtuLoop ls mtu
    | some host =>
      (call (.query [b!"route", b!"-n", b!"get", famOf host, host])).bind fun r =>
      (mtuFrom (chomp r.out) mtu).bind fun mtu => mtuLoop ls mtu

/-- `read -r output`: the first line, also if it is not ended. -/
def firstLine (out : List UInt8) : CStr :=
  ((getlines out).map fun raw => readLine (if raw.getLast? = some 10 then raw.dropLast else raw)).head?.getD []

/-- f:196-199, o:179-182: `read` takes one line of the output only. -/
def mtuDefault (mtu : Nat) : Sh Nat :=
  if mtu = 0 then (call (.query [b!"route", b!"-n", b!"get", b!"default"])).bind fun r => mtuFrom (firstLine r.out) 0 else Sh.pure mtu

/-- f:189-201, o:172-184. -/
def autoMtu (real : CStr) : Sh Unit :=
  (call (.query [b!"wg", b!"show", real, b!"endpoints"])).bind fun r =>
  (mtuLoop (readLoopLines r.out) 0).bind fun mtu =>
  (mtuDefault mtu).bind fun mtu =>
  run true (mtuAct real (minus80 (if mtu = 0 then 1500 else mtu)))

/-- d:179-184: the interface of the first default route. -/
def defaultIf (out : List UInt8) : CStr :=
  (((readLoopLines out).find? fun l => wordAt 0 l = b!"default").map (wordAt 5)).getD []

/-- Decimal text of an integer. -/
def showInt (i : Int) : CStr := if i < 0 then b!"-" ++ showDec i.natAbs else showDec i.natAbs

/-- d:179-189. -/
def autoMtuDarwin (real : CStr) : Sh Unit :=
  (call (.query [b!"netstat", b!"-nr", b!"-f", b!"inet"])).bind fun r =>
  (if defaultIf r.out = [] then Sh.pure 0
   else (call (.query [b!"ifconfig", defaultIf r.out])).bind fun i => Sh.pure (((mtuIn (chomp i.out)).map (digitsVal 10)).getD 0)).bind fun mtu =>
  let m : Int := (if mtu = 0 then 1500 else (mtu : Int)) - 80
  (call (.query [b!"ifconfig", real])).bind fun i =>
  if m = ((mtuIn (chomp i.out)).map fun d => (digitsVal 10 d : Int)).getD (-1) then Sh.pure () else run true (mtuAct real (showInt m))

/-- f:183-202, o:166-185, d:172-190 `set_mtu`. -/
def setMtu (c : Cfg) : Sh Unit :=
  get.bind fun s =>
  if c.opts.mtu ≠ [] then run true (mtuAct s.real c.opts.mtu)
  else if c.plat = .darwin then autoMtuDarwin s.real else autoMtu s.real

/-- f:171-173, o:150-152, d:160-162 `up_if`. -/
def upIf : Sh Unit := get.bind fun s => run true (act [b!"ifconfig", s.real, b!"up"])

/-! ### Routes to the endpoints -/

/-- f:209-213 and the same in the others: the gateway of the first default route; on Darwin those that are links do not count. -/
def gatewayIn (p : Plat) (out : List UInt8) : CStr :=
  (((readLoopLines out).find? fun l => wordAt 0 l = b!"default" ∧ ¬ (p = .darwin ∧ b!"link#".isPrefixOf (wordAt 1 l))).map (wordAt 1)).getD []

/-- f:205-221, o:188-204, d:192-208 `collect_gateways`. -/
def collectGateways (c : Cfg) : Sh Unit :=
  (call (.query [b!"netstat", b!"-nr", b!"-f", b!"inet"])).bind fun r =>
  (modify fun s => { s with gw4 := gatewayIn c.plat r.out }).bind fun _ =>
  (call (.query [b!"netstat", b!"-nr", b!"-f", b!"inet6"])).bind fun r =>
  modify fun s => { s with gw6 := gatewayIn c.plat r.out }

/-- f:225-228: the hosts in the output of `wg show … endpoints`. -/
def hostsIn (out : List UInt8) : List CStr := (readLoopLines out).filterMap fun l => endpointHost (afterFirst l)

/-- f:223-229, o:206-212, d:210-216 `collect_endpoints`. -/
def collectEndpoints : Sh Unit :=
  get.bind fun s =>
  (modify fun s => { s with endpoints := [] }).bind fun _ =>
  (call (.query [b!"wg", b!"show", s.real, b!"endpoints"])).bind fun r =>
  modify fun s => { s with endpoints := hostsIn r.out }

/-- `[[ " ${list[*]} " == *" $x "* ]]` -/
def listed (x : CStr) (l : List CStr) : Bool := hasInfix (b!" " ++ x ++ b!" ") (b!" " ++ joinSpace l ++ b!" ")

/-- f:243-247: with a changed gateway, the old endpoints and the new ones that are not among them. -/
def addMissing (old : List CStr) : List CStr → List CStr
  | [] => old
  | e :: es => addMissing (if listed e old then old else old ++ [e]) es

/-- f:251-255 and 262-278: the family for an endpoint's route, if there is to be one. -/
def directFam (s : St) (e : CStr) : Option CStr :=
  if isV6 e ∧ s.auto6 then some b!"-inet6" else if s.auto4 then some b!"-inet" else none

/-- f:249-256: one old endpoint. -/
def dropDirect (all : Bool) (e : CStr) : Sh Unit :=
  get.bind fun s =>
  if all = false ∧ listed e s.endpoints then Sh.pure ()
  else match directFam s e with
    | some fam => run false (routeDelete fam e)
    | none => Sh.pure ()

/-- f:263-268, 271-276: how an endpoint's route goes. -/
def directVia (s : St) (fam : CStr) : List CStr :=
  if fam = b!"-inet6" then (if s.gw6 ≠ [] then [b!"-gateway", s.gw6] else [b!"::1", b!"-blackhole"])
  else (if s.gw4 ≠ [] then [b!"-gateway", s.gw4] else [b!"127.0.0.1", b!"-blackhole"])

/-- `route -q -n add FAMILY DEST VIA…` -/
def routeAdd (fam dest : CStr) (via : List CStr) : Call := act ([b!"route", b!"-q", b!"-n", b!"add", fam, dest] ++ via)

/-- f:258-278: the routes of the endpoints, `ENDPOINTS` being the list `es`; the result is `added`. -/
def addDirect (all : Bool) (old : List CStr) : List CStr → List CStr → Sh (List CStr)
  | added, [] => Sh.pure added
  | added, e :: es =>
    if all = false ∧ listed e old then addDirect all old (added ++ [e]) es
    else
      get.bind fun s =>
      match directFam s e with
      | some fam => (run false (routeAdd fam e (directVia s fam))).bind fun _ => addDirect all old (added ++ [e]) es
      | none => addDirect all old added es

/-- f:231-280, o:214-263, d:243-292 `set_endpoint_direct_route`. -/
def setDirect (c : Cfg) : Sh Unit :=
  get.bind fun s0 =>
  (collectGateways c).bind fun _ =>
  collectEndpoints.bind fun _ =>
  get.bind fun s =>
  let all := decide (s0.gw4 ≠ s.gw4 ∨ s0.gw6 ≠ s.gw6)
  let old := if all then addMissing s0.endpoints s.endpoints else s0.endpoints
  (forEach (dropDirect all) old).bind fun _ =>
  (addDirect all old [] s.endpoints).bind fun added =>
  modify fun s => { s with endpoints := added }

/-! ### Routes to the allowed IPs -/

/-- One byte of a regular expression: its value (`.` matches all), and whether `+` follows. -/
def atoms : CStr → List (UInt8 × Bool)
  | [] => []
  | [c] => [(c, false)]
  | c :: d :: t => if d = c!"+" then (c, true) :: atoms t else (c, false) :: atoms (d :: t)

/-- The expression matches a beginning. -/
def reHere : List (UInt8 × Bool) → CStr → Bool
  | [], _ => true
  | (a, false) :: as, s =>
    match s with
    | [] => false
    | c :: t => (a = c!"." || c = a) && reHere as t
  | (a, true) :: as, s =>
    (List.range s.length).any fun i => (s.take (i + 1)).all (fun c => a = c!"." || c = a) && reHere as (s.drop (i + 1))

/-- `[[ $s =~ interface:\ $REAL_INTERFACE$'\n' ]]` (f:335, o:335, d:366). -/
def throughIf (real s : CStr) : Bool := (suffixes s).any (reHere (atoms (b!"interface: " ++ real ++ [10])))

/-- How a route to an allowed IP goes: `-interface IF`, on OpenBSD `-iface ADDRESS`. -/
def viaIf (c : Cfg) (s : St) (r : CStr) : List CStr :=
  if c.plat = .openbsd then [b!"-iface", if isV6 r then s.first6 else s.first4] else [b!"-interface", s.real]

/-- A default route in two halves (f:325-333, o:325-333, d:355-363). -/
def addHalves (c : Cfg) (r : CStr) : Sh Unit :=
  get.bind fun s =>
  if isV6 r then
    (modify fun s => { s with auto6 := true }).bind fun _ =>
    (run true (routeAdd b!"-inet6" b!"::/1" (viaIf c s r))).bind fun _ =>
    run true (routeAdd b!"-inet6" b!"8000::/1" (viaIf c s r))
  else
    (modify fun s => { s with auto4 := true }).bind fun _ =>
    (run true (routeAdd b!"-inet" b!"0.0.0.0/1" (viaIf c s r))).bind fun _ =>
    run true (routeAdd b!"-inet" b!"128.0.0.0/1" (viaIf c s r))

/-- A network, unless its route goes through the interface already (f:335, o:335, d:366). -/
def addNet (c : Cfg) (r : CStr) : Sh Unit :=
  (call (.query [b!"route", b!"-n", b!"get", famOf r, r])).bind fun q =>
  get.bind fun s =>
  if throughIf s.real (chomp q.out) then Sh.pure () else run true (routeAdd (famOf r) r (viaIf c s r))

/-- `Table` is not given or `auto`. -/
def autoTable (c : Cfg) : Prop := c.opts.table = [] ∨ c.opts.table = b!"auto"

instance (c : Cfg) : Decidable (autoTable c) := by unfold autoTable; infer_instance

/-- `[[ $1 == */0 ]]` -/
def isDefault (r : CStr) : Bool := b!"/0".isSuffixOf r

/-- f:316-337, o:308-337, d:348-369 `add_route`. -/
def addRoute (c : Cfg) (r : CStr) : Sh Unit :=
  if c.opts.table = b!"off" then Sh.pure ()
  else
    get.bind fun s =>
    match c.plat with
    | .freebsd =>
      if ¬ autoTable c then
        run true (act [b!"route", b!"-q", b!"-n", b!"add", famOf r, b!"-fib", c.opts.table, r, b!"-interface", s.real])
      else if isDefault r then addHalves c r else addNet c r
    | .openbsd =>
      if (if isV6 r then s.first6 else s.first4) = [] then exitWith 1
      else if ¬ autoTable c then
        run true (act ([b!"route", b!"-q", b!"-n", b!"-T", c.opts.table, b!"add", famOf r, r] ++ viaIf c s r))
      else if isDefault r then addHalves c r else addNet c r
    | .darwin =>
      if isDefault r ∧ autoTable c then addHalves c r
      else if c.opts.table = b!"main" ∨ autoTable c then addNet c r
      else exitWith 1

/-! ### `up` -/

/-- f:434, o:431, d:466: `[[ $AUTO_ROUTE4 -eq 1 || $AUTO_ROUTE6 -eq 1 ]] && set_endpoint_direct_route` -/
def directIfAuto (c : Cfg) : Sh Unit := get.bind fun s => if s.auto4 ∨ s.auto6 then setDirect c else Sh.pure ()

/-- `set_dns` in `up`: before the routes (f:431, o:428). -/
def upDnsEarly (c : Cfg) : Sh Unit :=
  match c.plat with
  | .freebsd => setDnsFreebsd c
  | .openbsd => setDnsOpenbsd c
  | .darwin => Sh.pure ()

/-- `set_dns` in `up` on Darwin: after the routes (d:467). -/
def upDnsLate (c : Cfg) : Sh Unit :=
  match c.plat with
  | .darwin => if c.opts.dns = [] then Sh.pure () else setDnsDarwin c
  | _ => Sh.pure ()

/-- f:282-300: the process that goes on in the background is shown as a command; what it does is `monitor`. -/
def forkMonitor : Call := act [b!"monitor_daemon", b!"&"]

/-- The commands of `cmd_up` while the trap is set (f:423-437, o:420-434, d:455-469). -/
def upBody (c : Cfg) : Sh Unit :=
  (addIf c).bind fun _ =>
  (executeHooks c c.opts.preUp).bind fun _ =>
  (setConfig c).bind fun _ =>
  (forEach (addAddr c) c.opts.addresses).bind fun _ =>
  (setMtu c).bind fun _ =>
  upIf.bind fun _ =>
  (upDnsEarly c).bind fun _ =>
  get.bind fun s =>
  (call (.query [b!"wg", b!"show", s.real, b!"allowed-ips"])).bind fun r =>
  (forEach (addRoute c) (c.sort (routesIn r.out))).bind fun _ =>
  (directIfAuto c).bind fun _ =>
  (upDnsLate c).bind fun _ =>
  (run true forkMonitor).bind fun _ =>
  executeHooks c c.opts.postUp

/-- The trap that is set outside `up` and `save`: on FreeBSD the temporary directory is removed. -/
def restTrap (c : Cfg) : Trap := if c.plat = .freebsd then .clean else .none

/-- f:421, o:418, d:453: does the interface exist already? -/
def upCheck (c : Cfg) : Sh Bool :=
  match c.plat with
  | .freebsd => (call (.query [b!"ifconfig", c.iface])).bind fun r => Sh.pure (chomp r.out ≠ [])
  | .openbsd => realOpenbsd c
  | .darwin => realDarwin c false

/-- f:419-439, o:416-436, d:451-471 `cmd_up`. -/
def cmdUp (c : Cfg) : Sh Unit :=
  (upCheck c).bind fun b =>
  if b then exitWith 1
  else (setTrap .up).bind fun _ => (upBody c).bind fun _ => setTrap (restTrap c)

/-! ### The route monitor -/

/-- d:337-341: on Darwin the MTU and DNS are set again. -/
def monitorDarwin (c : Cfg) : Sh Unit :=
  match c.plat with
  | .darwin =>
    (if c.opts.mtu = [] then setMtu c else Sh.pure ()).bind fun _ =>
    if c.opts.dns = [] then Sh.pure () else setDnsDarwin c
  | _ => Sh.pure ()

/-- d:329 the ALRM trap, sent two seconds after an event (d:341): taken to run before the next event is read, if the environment says
so. -/
def monitorAlarm (c : Cfg) : Sh Unit :=
  match c.plat with
  | .darwin =>
    if c.opts.dns = [] then Sh.pure ()
    else (call (.query [b!"ALRM"])).bind fun r => if r.status = 0 then setDnsDarwin c else Sh.pure ()
  | _ => Sh.pure ()

/-- f:293-298, o:275-280, d:334-343: one event read from `route -n monitor`; `false` ends the loop. -/
def monitorStep (c : Cfg) : Sh Bool :=
  (monitorAlarm c).bind fun _ =>
  (call (.query [b!"read", b!"-u", b!"19"])).bind fun r =>
  if r.status ≠ 0 then Sh.pure false
  else if b!"RTM_".isPrefixOf (readLine r.out) then
    get.bind fun s =>
    (call (.query [b!"ifconfig", s.real])).bind fun i =>
    if i.status ≠ 0 then Sh.pure false
    else (directIfAuto c).bind fun _ => (monitorDarwin c).bind fun _ => Sh.pure true
  else Sh.pure true

/-- The loop. -/
def monitorLoop (c : Cfg) : Nat → Sh Unit
  | 0 => giveUp
  | n + 1 => (monitorStep c).bind fun b => if b then monitorLoop c n else Sh.pure ()

/-- f:284-299, o:267-281, d:325-344: the process in the background. It starts with the variables of `up`, without a trap. -/
def monitor (c : Cfg) (n : Nat) : Sh Unit :=
  (if c.plat = .freebsd then makeTemp else Sh.pure ()).bind fun _ =>
  (setTrap .daemon).bind fun _ =>
  (call (act [b!"route", b!"-n", b!"monitor", b!"&"])).bind fun _ =>
  (monitorLoop c n).bind fun _ =>
  run true (act [b!"kill", b!"route", b!"-n", b!"monitor"])

/-! ### `save`, `down` -/

/-- `$CONFIG_FILE.tmp` -/
def tmpFile (c : Cfg) : CStr := c.file ++ b!".tmp"

/-- f:346-348, 349-351: after the header line, whose absence makes `read` fail and ends the script, an address on every line. -/
def netstatAddrs (out : List UInt8) : Option (List CStr) :=
  match readLoopLines out with
  | [] => none
  | _ :: ls => some (ls.map (wordAt 3))

/-- o:346-348 -/
def netstatAddrsOpenbsd (out : List UInt8) : Option (List CStr) :=
  match readLoopLines out with
  | [] => none
  | _ :: ls => some ((ls.filter fun l => !hasInfix b!"Link" (wordAt 2 l)).map (wordAt 3))

/-- d:379 `[[ $address =~ inet6?\ ([^ ]+) ]]` -/
def inetWord (line : CStr) : Option CStr :=
  (suffixes line).findSome? fun t =>
    let r := if b!"inet ".isPrefixOf t then t.drop 5 else if b!"inet6 ".isPrefixOf t then t.drop 6 else []
    if r.takeWhile (· ≠ 32) ≠ [] then some (r.takeWhile (· ≠ 32)) else none

/-- f:346-351, o:346-348, d:378-380: the addresses. -/
def savedAddrs (c : Cfg) : Sh (List CStr) :=
  get.bind fun s =>
  match c.plat with
  | .freebsd =>
    (call (.query [b!"netstat", b!"-I", s.real, b!"-n", b!"-W", b!"-f", b!"inet"])).bind fun r4 =>
    match netstatAddrs r4.out with
    | none => exitWith 1
    | some a4 =>
      (call (.query [b!"netstat", b!"-I", s.real, b!"-n", b!"-W", b!"-f", b!"inet6"])).bind fun r6 =>
      match netstatAddrs r6.out with
      | none => exitWith 1
      | some a6 => Sh.pure (a4 ++ a6)
  | .openbsd =>
    (call (.query [b!"netstat", b!"-I", s.real, b!"-n", b!"-v"])).bind fun r =>
    match netstatAddrsOpenbsd r.out with
    | none => exitWith 1
    | some a => Sh.pure a
  | .darwin => (call (.query [b!"ifconfig", s.real])).bind fun r => Sh.pure ((readLoopLines r.out).filterMap inetWord)

/-- f:352-354; o:349-352, d:381-384: on OpenBSD and Darwin the configured servers. -/
def savedDns (c : Cfg) : Sh (List CStr) :=
  match c.plat with
  | .freebsd => (call (.query [b!"resolvconf", b!"-l", c.iface])).bind fun r => Sh.pure ((readLoopLines r.out).filterMap nameserverOf)
  | _ => Sh.pure c.opts.dns

/-- f:355, o:353, d:385: the configured MTU. -/
def savedMtu (o : Opts) : Option CStr := if o.mtu = [] then none else some o.mtu

/-- f:374, o:372, d:404 `${current_config/\[Interface\]$'\n'/$new_config}`, and the line feed of `echo`. -/
def savedText (c : Cfg) (current new : CStr) : List UInt8 :=
  replaceFirst b!"[Interface]\n" (if c.patsub then patsubText b!"[Interface]\n" new else new) current ++ [10]

/-- f:374-376, o:372-374, d:404-406, while the trap is set. -/
def saveBody (c : Cfg) (text : List UInt8) : Sh Unit :=
  (call (.act [b!"write", b!"077", tmpFile c] text)).bind fun r =>
  if r.status ≠ 0 then exitWith 1
  else
    (run true (act [b!"sync", tmpFile c])).bind fun _ =>
    (call (act [b!"mv", tmpFile c, c.file])).bind fun r => if r.status ≠ 0 then exitWith 1 else Sh.pure ()

/-- f:343-379, o:343-377, d:375-409 `save_config`. -/
def saveConfig (c : Cfg) : Sh Unit :=
  (savedAddrs c).bind fun addrs =>
  (savedDns c).bind fun dns =>
  get.bind fun s =>
  (call (.query [b!"wg", b!"showconf", s.real])).bind fun r =>
  if r.status ≠ 0 then exitWith r.status
  else
    (setTrap .save).bind fun _ =>
    (saveBody c (savedText c (chomp r.out) (Quick.ownText c.opts addrs dns (savedMtu c.opts)))).bind fun _ =>
    setTrap (restTrap c)

/-- f:442, 451; o:439, 448; d:474-476, 484-486. On Darwin `set -e` is ignored in the condition. -/
def checkIface (c : Cfg) : Sh Unit :=
  match c.plat with
  | .freebsd =>
    (call (.query [b!"wg", b!"show", b!"interfaces"])).bind fun r =>
    if hasInfix (b!" " ++ c.iface ++ b!" ") (b!" " ++ chomp r.out ++ b!" ") then Sh.pure () else exitWith 1
  | .openbsd => (realOpenbsd c).bind fun b => if b then Sh.pure () else exitWith 1
  | .darwin =>
    (realDarwin c false).bind fun b =>
    if b then
      (call (.query [b!"wg", b!"show", b!"interfaces"])).bind fun r =>
      get.bind fun s =>
      if hasInfix (b!" " ++ s.real ++ b!" ") (b!" " ++ chomp r.out ++ b!" ") then Sh.pure () else exitWith 1
    else exitWith 1

/-- f:441-448, o:438-445, d:473-481 `cmd_down`. -/
def cmdDown (c : Cfg) : Sh Unit :=
  (checkIface c).bind fun _ =>
  (executeHooks c c.opts.preDown).bind fun _ =>
  (if c.opts.saveConfig then saveConfig c else Sh.pure ()).bind fun _ =>
  (delIf c).bind fun _ =>
  (match c.plat with
   | .freebsd => unsetDnsFreebsd c
   | .openbsd => unsetDnsOpenbsd c
   | .darwin => Sh.pure ()).bind fun _ =>
  executeHooks c c.opts.postDown

/-- f:450-453, o:447-450, d:483-488 `cmd_save`. -/
def cmdSave (c : Cfg) : Sh Unit := (checkIface c).bind fun _ => saveConfig c

/-! ### Traps and processes -/

/-- `clean_temp` where the trap has it (FreeBSD). -/
def cleanIf (c : Cfg) : Sh Unit := if c.plat = .freebsd then cleanTemp else Sh.pure ()

/-- The commands of a trap, before its `exit`. -/
def trapBody (c : Cfg) : Trap → Sh Unit
  | .none => Sh.pure ()
  | .clean => cleanTemp
  | .up => (delIf c).bind fun _ => (delRoutes c).bind fun _ => cleanIf c
  | .save => (run true (act [b!"rm", b!"-f", tmpFile c])).bind fun _ => cleanIf c
  | .daemon => (delRoutes c).bind fun _ => (if c.plat = .darwin then delDns c else Sh.pure ()).bind fun _ => cleanIf c

/-- The status in the trap's `exit`. -/
def trapStatus : Trap → Option Nat
  | .daemon => some 0
  | _ => none

/-- The variables before the command: on FreeBSD the name stands for the interface. -/
def St.start (c : Cfg) : St := { real := if c.plat = .freebsd then c.iface else [] }

/-- Everything before the end of the script: on FreeBSD the temporary directory is made first (f:461-462). -/
def commands (c : Cfg) (op : Sh Unit) : Sh Unit :=
  (if c.plat = .freebsd then makeTemp else Sh.pure ()).bind fun _ => (setTrap (restTrap c)).bind fun _ => op

/-- A command and the end of the script (`exit 0`). -/
def script (c : Cfg) (op : Sh Unit) (w : World) : End × St := finish (trapBody c) trapStatus w (commands c op w (St.start c))

/-- The process that `up` leaves behind, started with the variables `s`. -/
def daemon (c : Cfg) (n : Nat) (w : World) (s : St) : End × St := finish (trapBody c) trapStatus w (monitor c n w { s with trap := .none })

end WG.Bsd
