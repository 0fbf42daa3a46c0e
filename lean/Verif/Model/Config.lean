import Verif.Model.Libc
/-! Model of src/config.c. Messages on stderr are not modelled, except the host-part warning of
`parse_allowedips` (`Warning`). `calloc`/`strdup` failures are not modelled (memory is assumed available). -/
namespace WG

/-- config.c:25-37 `get_value`. -/
def getValue (line key : CStr) : Option CStr :=
  if key.length ≥ line.length then none
  else if !strncaseeq line key key.length then none
  else some (line.drop key.length)

/-- config.c:39-75 `parse_port`; `none` is `return false`. -/
def parsePort (env : Env) (value : CStr) : Option UInt16 :=
  if value.length = 0 then none
  else match env.gaiPort value with
    | .found (.in4 _ p) => some p
    | .found (.in6 _ p _ _) => some p
    | _ => none

/-- config.c:77-104 `parse_fwmark`. `*end` is the first unread character. -/
def parseFwmark (env : Env) (value : CStr) : Option UInt32 :=
  if strcaseeq value b!"off" then some 0
  else if !isDigitC env.sc (value.getD 0 0) then none
  else
    let base := if value.length > 2 && value.getD 0 0 = c!"0" && value.getD 1 0 = c!"x" then 16 else 10
    let (ret, rest) := strtoul env.ulongMax base value
    if rest ≠ [] || ret > 0xffffffff then none
    else some (UInt32.ofNat ret)

/-- config.c:106-114 `parse_key`. -/
def parseKey (env : Env) (value : CStr) : Option Key := keyFromBase64 env.sc value

/-- config.c:116-158 `parse_keyfile`. `fread` gets 44 bytes or stops at the end/error; only a cleanly ended, empty,
seekable file gives the zero key (lines 131-135); then only white space may follow (140-145), an I/O error
refuses the file (146-149); the key text is the C string in `dst` (151). -/
def parseKeyfile (env : Env) (path : CStr) : Option Key :=
  match env.file path with
  | none => none
  | some f =>
    if f.bytes.length < 44 then
      if f.errAt = none && f.seekable && f.bytes.length = 0 then some zeroKey else none
    else
      let dst := f.bytes.take 44
      let trailing := f.bytes.drop 44
      if !trailing.all (fun c => charIsSpace (u8ToInt c)) then none
      else if f.errAt ≠ none then none
      else parseKey env (cstr dst)

/-- config.c:160-175 `parse_ip`. -/
def parseIp (env : Env) (value : CStr) : Option Addr :=
  if value.contains c!":" then (env.pton6 value).map .v6
  else (env.pton4 value).map .v4

/-- config.c:177-193 `parse_dns_retries`: `ok (some n)` is `n` retries, `ok none` is -1 (endless). -/
def parseDnsRetries (env : Env) : Res (Option Nat) :=
  match env.retriesVar with
  | none => .ok (some 15)
  | some v =>
    if v = b!"infinity" then .ok none
    else
      let (ret, rest) := strtoul env.ulongMax 10 v
      if rest ≠ [] || ret > 0x7fffffff then .exit1
      else .ok (some ret)

/-- config.c:200-236, the splitting part of `parse_endpoint`: host and port texts. -/
def splitEndpoint (value : CStr) : Option (CStr × CStr) :=
  match value with
  | [] => none
  | 91 :: rest =>                              -- '['
    match rest.dropWhile (· ≠ 93) with
    | [] => none                               -- no ']'
    | _ :: after =>
      match after with
      | 58 :: port => if port = [] then none else some (rest.takeWhile (· ≠ 93), port)
      | _ => none
  | _ =>
    let r := value.reverse
    match r.dropWhile (· ≠ 58) with            -- strrchr ':'
    | [] => none
    | _ :: hostRev =>
      let port := (r.takeWhile (· ≠ 58)).reverse
      if port = [] then none else some (hostRev.reverse, port)

/-- config.c:239 the wait before the next attempt (`unsigned int` microseconds, so the product is taken modulo 2^32). -/
def nextTimeout (t : Nat) : Nat := min 20000000 (t * 6 % 2 ^ 32 / 5)

/-- config.c:239-264 the resolution loop. `tick` is the number of getaddrinfo calls made so far by the process, `retries`
is `none` for -1. Returns the result, the new call count and the list of waits made. `fuel` bounds the attempts observed. -/
def resolveLoop (env : Env) (host port : CStr) : Nat → Nat → Option Nat → Nat → Res Endpoint × Nat × List Nat
  | 0, tick, _, _ => (.running, tick, [])
  | fuel + 1, tick, retries, timeout =>
    match env.gai tick host port with
    | .found e => (.ok e, tick + 1, [])
    | .permanent => (.fail, tick + 1, [])
    | .transient =>
      match retries with
      | some 0 => (.fail, tick + 1, [])
      | some (n + 1) =>
        let (r, k, w) := resolveLoop env host port fuel (tick + 1) (some n) (nextTimeout timeout)
        (r, k, timeout :: w)
      | none =>
        let (r, k, w) := resolveLoop env host port fuel (tick + 1) none (nextTimeout timeout)
        (r, k, timeout :: w)

/-- The number of attempts the observer follows: all of them when the number of retries is finite. -/
def attempts (env : Env) : Option Nat → Nat
  | some n => n + 1
  | none => env.patience

/-- config.c:195-279 `parse_endpoint`; returns the endpoint, the new getaddrinfo call count, and the waits made. -/
def parseEndpoint (env : Env) (tick : Nat) (value : CStr) : Res Endpoint × Nat × List Nat :=
  match parseDnsRetries env with
  | .ok retries =>
    match splitEndpoint value with
    | none => (.fail, tick, [])
    | some (host, port) =>
      match resolveLoop env host port (attempts env retries) tick retries 1000000 with
      | (.ok .unset, k, w) => (.fail, k, w)        -- neither IPv4 nor IPv6
      | r => r
  | .exit1 => (.exit1, tick, [])
  | _ => (.ub, tick, [])

/-- config.c:281-306 `parse_persistent_keepalive`. -/
def parseKeepalive (env : Env) (value : CStr) : Option UInt16 :=
  if strcaseeq value b!"off" then some 0
  else if !isDigitC env.sc (value.getD 0 0) then none
  else
    let (ret, rest) := strtoul env.ulongMax 10 value
    if rest ≠ [] || ret > 65535 then none
    else some (UInt16.ofNat ret)

/-- The `i`-th 32-bit word `ntohl(ip[i])` of an address. -/
def ipWord (l : List UInt8) (i : Nat) : UInt32 :=
  UInt32.ofNat ((l.getD (4 * i) 0).toNat * 2 ^ 24 + (l.getD (4 * i + 1) 0).toNat * 2 ^ 16
    + (l.getD (4 * i + 2) 0).toNat * 2 ^ 8 + (l.getD (4 * i + 3) 0).toNat)

/-- config.c:326-335 the loop of `validate_netmask`, from word `n - 1` down to word 0. -/
def validateLoop (bytes : List UInt8) (cidr : Nat) : Nat → Bool
  | 0 => true
  | i + 1 =>
    if cidr ≥ 32 * (i + 1) then true
    else
      let mask : UInt32 := if cidr > 32 * i then 0xffffffff >>> UInt32.ofNat (cidr - 32 * i) else 0xffffffff
      if ipWord bytes i &&& mask ≠ 0 then false
      else validateLoop bytes cidr i

/-- config.c:308-338 `validate_netmask`. -/
def validateNetmask (a : AllowedIP) : Bool :=
  match a.addr with
  | .v4 ip => validateLoop ip.toList a.cidr.toNat 1
  | .v6 ip => validateLoop ip.toList a.cidr.toNat 4

/-- The warning of config.c:388: the two strings it prints; `none` would be a null pointer. -/
structure Warning where
  ip : CStr
  mask : Option CStr
deriving DecidableEq, Repr

/-- config.c:374-386, the prefix length of an entry; `mask` is the text after the first `/`, or NULL. -/
def cidrOf (env : Env) (mask : Option CStr) (addr : Addr) : Option Nat :=
  match mask with
  | some m =>
    if !isDigitC env.sc (m.getD 0 0) then none
    else
      let (cidr, rest) := strtoul env.ulongMax 10 m
      match addr with
      | .v4 _ => if rest ≠ [] || cidr > 32 then none else some cidr
      | .v6 _ => if rest ≠ [] || cidr > 128 then none else some cidr
  | none =>
    match addr with
    | .v4 _ => some 32
    | .v6 _ => some 128

/-- config.c:356-398, one iteration of the entry loop of `parse_allowedips`: the entry and its warnings. -/
def parseAllowedip (env : Env) (entry : CStr) : Option (AllowedIP × List Warning) :=
  let (ip, mask) := strsepOne c!"/" entry
  (parseIp env ip).bind fun addr =>
    (cidrOf env mask addr).bind fun cidr =>
      let a : AllowedIP := { addr := addr, cidr := UInt8.ofNat cidr }
      some (a, if validateNetmask a then [] else [{ ip := ip, mask := mask }])

/-- config.c:356-404, the whole entry loop: the new entries in order and the warnings. -/
def parseEntries (env : Env) : List CStr → Option (List AllowedIP × List Warning)
  | [] => some ([], [])
  | e :: es =>
    match parseAllowedip env e with
    | none => none
    | some (a, w) =>
      match parseEntries env es with
      | none => none
      | some (as, ws) => some (a :: as, w ++ ws)

/-- config.c:340-413 `parse_allowedips`: the entries to append and the warnings. The caller sets the replace flag. -/
def parseAllowedips (env : Env) (value : CStr) : Option (List AllowedIP × List Warning) :=
  if value.length = 0 then some ([], [])
  else parseEntries env (strsepAll c!"," value)

/-- config.h:15-20 `struct config_ctx` plus the process-wide call counter and the warnings printed.
`last_peer` is the last element of `device.peers`, `last_allowedip` the last element of its list. -/
structure Ctx where
  device : Device
  isPeerSection : Bool := false
  isDeviceSection : Bool := false
  tick : Nat := 0
  warnings : List Warning := []

/-- Update the last peer; `none` if there is none (a null pointer dereference in C). -/
def updLast (f : Peer → Peer) : List Peer → Option (List Peer)
  | [] => none
  | [p] => some [f p]
  | p :: ps => (updLast f ps).map (p :: ·)

/-- Store through `ctx->last_peer`. -/
def Ctx.updPeer (ctx : Ctx) (f : Peer → Peer) : Res Ctx :=
  match updLast f ctx.device.peers with
  | some ps => .ok { ctx with device := { ctx.device with peers := ps } }
  | none => .ub

/-- config.c:415-488 `process_line`. -/
def processLine (env : Env) (ctx : Ctx) (line : CStr) : Res Ctx :=
  if strcaseeq line b!"[Interface]" then
    .ok { ctx with isPeerSection := false, isDeviceSection := true }
  else if strcaseeq line b!"[Peer]" then
    .ok { ctx with
      device := { ctx.device with peers := ctx.device.peers ++ [{ flags := { replaceAllowedIPs := true } }] }
      isPeerSection := true, isDeviceSection := false }
  else if ctx.isDeviceSection then
    match getValue line b!"ListenPort=" with
    | some v => (Res.ofOption (parsePort env v)).bind fun p =>
        .ok { ctx with device := { ctx.device with listenPort := p, flags := { ctx.device.flags with hasListenPort := true } } }
    | none =>
    match getValue line b!"FwMark=" with
    | some v => (Res.ofOption (parseFwmark env v)).bind fun m =>
        .ok { ctx with device := { ctx.device with fwmark := m, flags := { ctx.device.flags with hasFwmark := true } } }
    | none =>
    match getValue line b!"PrivateKey=" with
    | some v => (Res.ofOption (parseKey env v)).bind fun k =>
        .ok { ctx with device := { ctx.device with privateKey := k, flags := { ctx.device.flags with hasPrivateKey := true } } }
    | none => .fail
  else if ctx.isPeerSection then
    match getValue line b!"Endpoint=" with
    | some v =>
      (parseEndpoint env ctx.tick v).1.bind fun e =>
        { ctx with tick := (parseEndpoint env ctx.tick v).2.1 }.updPeer fun p => { p with endpoint := e }
    | none =>
    match getValue line b!"PublicKey=" with
    | some v => (Res.ofOption (parseKey env v)).bind fun k =>
        ctx.updPeer fun p => { p with publicKey := k, flags := { p.flags with hasPublicKey := true } }
    | none =>
    match getValue line b!"AllowedIPs=" with
    | some v => (Res.ofOption (parseAllowedips env v)).bind fun (as, ws) =>
        { ctx with warnings := ctx.warnings ++ ws }.updPeer fun p =>
          { p with allowedIPs := p.allowedIPs ++ as, flags := { p.flags with replaceAllowedIPs := true } }
    | none =>
    match getValue line b!"PersistentKeepalive=" with
    | some v => (Res.ofOption (parseKeepalive env v)).bind fun k =>
        ctx.updPeer fun p => { p with keepalive := k, flags := { p.flags with hasKeepalive := true } }
    | none =>
    match getValue line b!"PresharedKey=" with
    | some v => (Res.ofOption (parseKey env v)).bind fun k =>
        ctx.updPeer fun p => { p with presharedKey := k, flags := { p.flags with hasPresharedKey := true } }
    | none => .fail
  else .fail

/-- config.c:498-518, the cleaned text of a raw input line (a C string). -/
def cleanLine (env : Env) (input : CStr) : CStr :=
  (input.takeWhile (· ≠ c!"#")).filter fun c => !isSpaceC env.sc c

/-- config.c:490-527 `config_read_line`. -/
def configReadLine (env : Env) (ctx : Ctx) (input : CStr) : Res Ctx :=
  let line := cleanLine env input
  if line.length = 0 then .ok ctx
  else processLine env ctx line

/-- config.c:529-540 `config_read_init`. -/
def configReadInit (append : Bool) : Ctx :=
  { device := { flags := if append then {} else
      { replacePeers := true, hasPrivateKey := true, hasFwmark := true, hasListenPort := true } } }

/-- config.c:542-556 `config_read_finish`. -/
def configReadFinish (ctx : Ctx) : Option Device :=
  if ctx.device.peers.all (·.flags.hasPublicKey) then some ctx.device else none

/-- setconf.c:124-129, the line loop. -/
def readLines (env : Env) (ctx : Ctx) : List CStr → Res Ctx
  | [] => .ok ctx
  | l :: ls => (configReadLine env ctx l).bind fun ctx => readLines env ctx ls

/-- config.c:558-576 `strip_spaces`. -/
def stripSpaces (env : Env) (s : CStr) : CStr := s.filter fun c => !isSpaceC env.sc c

/-- config.c:578-650 `config_read_cmd`, the loop over the arguments; `peer` is non-NULL iff a peer was added. -/
def readCmdLoop (env : Env) (ctx : Ctx) : List CStr → Res Ctx
  | [] => .ok ctx
  | a :: v :: rest =>
    let peer := !ctx.device.peers.isEmpty
    if a = b!"listen-port" && !peer then
      (Res.ofOption (parsePort env v)).bind fun p =>
        readCmdLoop env { ctx with device := { ctx.device with listenPort := p, flags := { ctx.device.flags with hasListenPort := true } } } rest
    else if a = b!"fwmark" && !peer then
      (Res.ofOption (parseFwmark env v)).bind fun m =>
        readCmdLoop env { ctx with device := { ctx.device with fwmark := m, flags := { ctx.device.flags with hasFwmark := true } } } rest
    else if a = b!"private-key" && !peer then
      (Res.ofOption (parseKeyfile env v)).bind fun k =>
        readCmdLoop env { ctx with device := { ctx.device with privateKey := k, flags := { ctx.device.flags with hasPrivateKey := true } } } rest
    else if a = b!"peer" then
      (Res.ofOption (parseKey env v)).bind fun k =>
        readCmdLoop env { ctx with device := { ctx.device with
          peers := ctx.device.peers ++ [{ publicKey := k, flags := { hasPublicKey := true } }] } } rest
    else if a = b!"remove" && peer then
      (ctx.updPeer fun p => { p with flags := { p.flags with removeMe := true } }).bind fun ctx =>
        readCmdLoop env ctx (v :: rest)
    else if a = b!"endpoint" && peer then
      (parseEndpoint env ctx.tick v).1.bind fun e =>
        ({ ctx with tick := (parseEndpoint env ctx.tick v).2.1 }.updPeer fun p => { p with endpoint := e }).bind fun ctx =>
        readCmdLoop env ctx rest
    else if a = b!"allowed-ips" && peer then
      (Res.ofOption (parseAllowedips env (stripSpaces env v))).bind fun (as, ws) =>
        ({ ctx with warnings := ctx.warnings ++ ws }.updPeer fun p =>
          { p with allowedIPs := p.allowedIPs ++ as, flags := { p.flags with replaceAllowedIPs := true } }).bind fun ctx =>
        readCmdLoop env ctx rest
    else if a = b!"persistent-keepalive" && peer then
      (Res.ofOption (parseKeepalive env v)).bind fun k =>
        (ctx.updPeer fun p => { p with keepalive := k, flags := { p.flags with hasKeepalive := true } }).bind fun ctx =>
        readCmdLoop env ctx rest
    else if a = b!"preshared-key" && peer then
      (Res.ofOption (parseKeyfile env v)).bind fun k =>
        (ctx.updPeer fun p => { p with presharedKey := k, flags := { p.flags with hasPresharedKey := true } }).bind fun ctx =>
        readCmdLoop env ctx rest
    else .fail
  | [a] =>
    if a = b!"remove" && !ctx.device.peers.isEmpty then
      ctx.updPeer fun p => { p with flags := { p.flags with removeMe := true } }
    else .fail

/-- config.c:578-650 `config_read_cmd`. -/
def configReadCmd (env : Env) (argv : List CStr) : Res Ctx :=
  readCmdLoop env { device := {} } argv

end WG
