import Verif.Model.Uapi
import Verif.Model.Terminal
/-! Model of src/show.c and src/showconf.c. Messages on standard error are not modelled. -/
namespace WG

/-- What the show commands ask the system. `gaiError`: the text of `gai_strerror` when `getnameinfo` fails for an endpoint;
`now`: `time(NULL)` (taken to be the same during one run); `fmt2 b d`: `printf("%.2f", (double)b / d)`; `qsort n cmp`: the order
in which libc's `qsort` leaves `n` elements, as indices, knowing them only through the comparison function. -/
structure ShowEnv where
  sc : Bool
  out : OutEnv
  gaiError : Endpoint → CStr
  colorVar : Option CStr
  isatty : Bool
  hideVar : Option CStr
  now : Int
  fmt2 : Nat → Nat → CStr
  qsort : (n : Nat) → (Nat → Nat → Int) → List Nat

/-- show.c:27-44 `peer_cmp`. `tv_sec`, `tv_nsec` and `time_t` are 64-bit; the differences are taken exactly (their overflow is
undefined in C; see `SaneTimes` in the specification for the range where it cannot happen). -/
def peerCmp (a b : Peer) : Int :=
  if a.handshakeSec = 0 ∧ a.handshakeNsec = 0 ∧ (b.handshakeSec ≠ 0 ∨ b.handshakeNsec ≠ 0) then 1
  else if b.handshakeSec = 0 ∧ b.handshakeNsec = 0 ∧ (a.handshakeSec ≠ 0 ∨ a.handshakeNsec ≠ 0) then -1
  else
    let diff := a.handshakeSec - b.handshakeSec
    let diff := if diff = 0 then a.handshakeNsec - b.handshakeNsec else diff
    if diff < 0 then 1 else if diff > 0 then -1 else 0

/-- show.c:47-69 `sort_peers` (failure of `calloc`, which leaves the list as it is, is not modelled). -/
def sortPeers (env : ShowEnv) (ps : List Peer) : List Peer :=
  if ps = [] then []
  else (env.qsort ps.length fun i j => peerCmp (ps.getD i {}) (ps.getD j {})).map fun i => ps.getD i {}

/-- show.c:79-84 `maybe_key`. -/
def maybeKey (k : Key) (haveIt : Bool) : CStr := if haveIt then keyToBase64 k else b!"(none)"

/-- show.c:86-93 `masked_key`. -/
def maskedKey (hideVar : Option CStr) (k : Key) : CStr := if hideVar = some b!"never" then keyToBase64 k else b!"(hidden)"

/-- show.c:107-129 `endpoint`. The buffer of 4618 bytes holds any host (at most 4096 bytes) and service (at most 512). -/
def endpointText (env : ShowEnv) (e : Endpoint) : CStr :=
  match env.out.nameinfo e with
  | none => env.gaiError e
  | some (host, service) =>
    match e with
    | .in6 .. => if host.contains c!":" then c!"[" :: host ++ c!"]" :: c!":" :: service else host ++ c!":" :: service
    | _ => host ++ c!":" :: service

/-- `snprintf(buf + offset, len - offset, ...)`, `offset += ` its result: text written so far and offset; `none` when `len - offset`
would wrap around. -/
def snprintfAt (len : Nat) (st : CStr × Nat) (s : CStr) : Option (CStr × Nat) :=
  if st.2 > len then none else some (st.1 ++ s.take (len - st.2 - 1), st.2 + s.length)

/-- One part of show.c:146-155: separator, number, unit with plural, in cyan. -/
def timePart (offset : Nat) (n : Nat) (unit : CStr) : CStr :=
  (if offset ≠ 0 then b!", " else []) ++ showDec n ++ b!" \x1b[36m" ++ unit ++ (if n = 1 then [] else b!"s") ++ b!"\x1b[0m"

/-- show.c:131-158 `pretty_time`. -/
def prettyTime (len left : Nat) : Option (CStr × Nat) :=
  let years := left / (365 * 24 * 60 * 60)
  let left := left % (365 * 24 * 60 * 60)
  let days := left / (24 * 60 * 60)
  let left := left % (24 * 60 * 60)
  let hours := left / (60 * 60)
  let left := left % (60 * 60)
  let minutes := left / 60
  let seconds := left % 60
  let add (st : CStr × Nat) (n : Nat) (unit : CStr) : Option (CStr × Nat) :=
    if n ≠ 0 then snprintfAt len st (timePart st.2 n unit) else some st
  (add ([], 0) years b!"year").bind fun st =>
  (add st days b!"day").bind fun st =>
  (add st hours b!"hour").bind fun st =>
  (add st minutes b!"minute").bind fun st =>
  add st seconds b!"second"

/-- show.c:160-178 `ago`. -/
def ago (now sec : Int) : Option CStr :=
  if now = sec then some b!"Now"
  else if now < sec then
    some b!"(\x1b[31mSystem clock wound backward; connection problems may ensue.\x1b[0m)"
  else
    match prettyTime 1024 (now - sec).toNat with
    | none => none
    | some (s, offset) => if offset > 1023 then none else some (s ++ b!" ago".take (1024 - offset - 1))

/-- show.c:180-186 `every`. -/
def every (seconds : UInt16) : Option CStr :=
  (prettyTime (1024 - 6 - 1) seconds.toNat).map fun st => b!"every " ++ st.1

/-- show.c:188-204 `bytes`. -/
def bytesText (env : ShowEnv) (b : Nat) : CStr :=
  if b < 1024 then showDec b ++ b!" \x1b[36mB\x1b[0m"
  else if b < 1024 * 1024 then env.fmt2 b 1024 ++ b!" \x1b[36mKiB\x1b[0m"
  else if b < 1024 * 1024 * 1024 then env.fmt2 b (1024 * 1024) ++ b!" \x1b[36mMiB\x1b[0m"
  else if b < 1024 * 1024 * 1024 * 1024 then env.fmt2 b (1024 * 1024 * 1024) ++ b!" \x1b[36mGiB\x1b[0m"
  else env.fmt2 b (1024 * 1024 * 1024 * 1024) ++ b!" \x1b[36mTiB\x1b[0m"

/-- Hexadecimal digit of `printf("%x")`. -/
def hexDigitLower (n : Nat) : UInt8 := if n < 10 then UInt8.ofNat (48 + n) else UInt8.ofNat (87 + n)

/-- `printf("%x")` (`fuel` exceeds the number of digits). -/
def showHexAux : Nat → Nat → CStr
  | 0, _ => []
  | fuel + 1, n => if n < 16 then [hexDigitLower n] else showHexAux fuel (n / 16) ++ [hexDigitLower (n % 16)]

/-- `printf("%x")`. -/
def showHex (n : Nat) : CStr := showHexAux (n + 1) n

/-- show.c:217-227: the texts of the calls of `terminal_printf` for the device itself, before the peers. -/
def prettyDevice (env : ShowEnv) (d : Device) : List CStr :=
  [b!"\x1b[0m",
   b!"\x1b[32m\x1b[1minterface\x1b[0m: \x1b[32m" ++ d.name ++ b!"\x1b[0m\n"] ++
  (if d.flags.hasPublicKey then [b!"  \x1b[1mpublic key\x1b[0m: " ++ keyToBase64 d.publicKey ++ [10]] else []) ++
  (if d.flags.hasPrivateKey then [b!"  \x1b[1mprivate key\x1b[0m: " ++ maskedKey env.hideVar d.privateKey ++ [10]] else []) ++
  (if d.listenPort ≠ 0 then [b!"  \x1b[1mlistening port\x1b[0m: " ++ showDec d.listenPort.toNat ++ [10]] else []) ++
  (if d.fwmark ≠ 0 then [b!"  \x1b[1mfwmark\x1b[0m: 0x" ++ showHex d.fwmark.toNat ++ [10]] else []) ++
  (if d.peers ≠ [] then [[10]] else [])

/-- show.c:239-241: one text per allowed IP, separated by `, `, the last followed by a line feed. -/
def prettyIPs (env : ShowEnv) : List AllowedIP → List CStr
  | [] => []
  | [a] => [ntopAddr env.out a.addr ++ b!"\x1b[36m/\x1b[0m" ++ showDec a.cidr.toNat ++ [10]]
  | a :: l => (ntopAddr env.out a.addr ++ b!"\x1b[36m/\x1b[0m" ++ showDec a.cidr.toNat ++ b!", ") :: prettyIPs env l

/-- show.c:244-245: the latest handshake. -/
def prettyHandshake (env : ShowEnv) (p : Peer) : Option (List CStr) :=
  if p.handshakeSec ≠ 0 then (ago env.now p.handshakeSec).map fun t => [b!"  \x1b[1mlatest handshake\x1b[0m: " ++ t ++ [10]] else some []

/-- show.c:251-252: the keepalive interval. -/
def prettyKeepalive (p : Peer) : Option (List CStr) :=
  if p.keepalive ≠ 0 then (every p.keepalive).map fun t => [b!"  \x1b[1mpersistent keepalive\x1b[0m: " ++ t ++ [10]] else some []

/-- show.c:233-252: the texts for one peer (without the blank line after it); `none` if a time text does not fit. -/
def prettyPeer (env : ShowEnv) (p : Peer) : Option (List CStr) := do
  let hs ← prettyHandshake env p
  let ka ← prettyKeepalive p
  return [b!"\x1b[33m\x1b[1mpeer\x1b[0m: \x1b[33m" ++ keyToBase64 p.publicKey ++ b!"\x1b[0m\n"] ++
    (if p.flags.hasPresharedKey then [b!"  \x1b[1mpreshared key\x1b[0m: " ++ maskedKey env.hideVar p.presharedKey ++ [10]] else []) ++
    (if p.endpoint ≠ .unset then [b!"  \x1b[1mendpoint\x1b[0m: " ++ endpointText env p.endpoint ++ [10]] else []) ++
    [b!"  \x1b[1mallowed ips\x1b[0m: "] ++
    (if p.allowedIPs ≠ [] then prettyIPs env p.allowedIPs else [b!"(none)\n"]) ++
    hs ++
    (if p.rx ≠ 0 ∨ p.tx ≠ 0 then
      [b!"  \x1b[1mtransfer\x1b[0m: ", bytesText env p.rx ++ b!" received, ", bytesText env p.tx ++ b!" sent\n"] else []) ++
    ka

/-- show.c:232-255: the peers, with a blank line between them. -/
def prettyPeers (env : ShowEnv) : List Peer → Option (List CStr)
  | [] => some []
  | [p] => prettyPeer env p
  | p :: l => do
    let a ← prettyPeer env p
    let b ← prettyPeers env l
    return a ++ [[10]] ++ b

/-- show.c:212-256 `pretty_print`: what reaches standard output; `none` is an access outside a buffer. -/
def prettyPrint (env : ShowEnv) (d : Device) : Option (List UInt8) := do
  let ps ← prettyPeers env (sortPeers env d.peers)
  let outs ← (prettyDevice env d ++ ps).mapM (filterAnsi env.sc (colorMode env.colorVar env.isatty))
  return outs.flatten

/-- The interface name column of `wg show all`. -/
def ifaceCol (d : Device) (withInterface : Bool) : CStr := if withInterface then d.name ++ [9] else []

/-- `0x%x` or `off` (show.c:268-271, 314-317). -/
def markText (m : UInt32) : CStr := if m ≠ 0 then b!"0x" ++ showHex m.toNat else b!"off"

/-- `%u` or `off` (show.c:290-293, 353-356). -/
def keepaliveText (n : UInt16) : CStr := if n ≠ 0 then showDec n.toNat else b!"off"

/-- The endpoint or `(none)` (show.c:277-280, 323-326). -/
def endpointOrNone (env : ShowEnv) (e : Endpoint) : CStr := if e ≠ .unset then endpointText env e else b!"(none)"

/-- show.c:281-285, 333-337: allowed IPs separated by `sep` and ended by `fin`, or `(none)` and `fin`. -/
def ipsText (env : ShowEnv) (sep fin : UInt8) : List AllowedIP → CStr
  | [] => b!"(none)" ++ [fin]
  | [a] => ntopAddr env.out a.addr ++ c!"/" :: showDec a.cidr.toNat ++ [fin]
  | a :: l => ntopAddr env.out a.addr ++ c!"/" :: showDec a.cidr.toNat ++ [sep] ++ ipsText env sep fin l

/-- `(unsigned long long)tv_sec` printed with `%llu` (show.c:286, 343). -/
def secText (sec : Int) : CStr := showDec (sec % 2 ^ 64).toNat

/-- show.c:258-295 `dump_print`. -/
def dumpPrint (env : ShowEnv) (d : Device) (withInterface : Bool) : List UInt8 :=
  ifaceCol d withInterface ++ maybeKey d.privateKey d.flags.hasPrivateKey ++ [9] ++ maybeKey d.publicKey d.flags.hasPublicKey ++ [9] ++
    showDec d.listenPort.toNat ++ [9] ++ markText d.fwmark ++ [10] ++
  d.peers.flatMap fun p =>
    ifaceCol d withInterface ++ keyToBase64 p.publicKey ++ [9] ++ maybeKey p.presharedKey p.flags.hasPresharedKey ++ [9] ++
    endpointOrNone env p.endpoint ++ [9] ++ ipsText env c!"," 9 p.allowedIPs ++ secText p.handshakeSec ++ [9] ++
    showDec p.rx ++ [9] ++ showDec p.tx ++ [9] ++ keepaliveText p.keepalive ++ [10]

/-- show.c:297-378 `ugly_print`; `none` is `return false`. -/
def uglyPrint (env : ShowEnv) (d : Device) (param : CStr) (withInterface : Bool) : Option (List UInt8) :=
  let i := ifaceCol d withInterface
  if param = b!"public-key" then some (i ++ maybeKey d.publicKey d.flags.hasPublicKey ++ [10])
  else if param = b!"private-key" then some (i ++ maybeKey d.privateKey d.flags.hasPrivateKey ++ [10])
  else if param = b!"listen-port" then some (i ++ showDec d.listenPort.toNat ++ [10])
  else if param = b!"fwmark" then some (i ++ markText d.fwmark ++ [10])
  else if param = b!"endpoints" then
    some (d.peers.flatMap fun p => i ++ keyToBase64 p.publicKey ++ [9] ++ endpointOrNone env p.endpoint ++ [10])
  else if param = b!"allowed-ips" then
    some (d.peers.flatMap fun p => i ++ keyToBase64 p.publicKey ++ [9] ++ ipsText env c!" " 10 p.allowedIPs)
  else if param = b!"latest-handshakes" then
    some (d.peers.flatMap fun p => i ++ keyToBase64 p.publicKey ++ [9] ++ secText p.handshakeSec ++ [10])
  else if param = b!"transfer" then
    some (d.peers.flatMap fun p => i ++ keyToBase64 p.publicKey ++ [9] ++ showDec p.rx ++ [9] ++ showDec p.tx ++ [10])
  else if param = b!"persistent-keepalive" then
    some (d.peers.flatMap fun p => i ++ keyToBase64 p.publicKey ++ [9] ++ keepaliveText p.keepalive ++ [10])
  else if param = b!"preshared-keys" then
    some (d.peers.flatMap fun p => i ++ keyToBase64 p.publicKey ++ [9] ++ maybeKey p.presharedKey p.flags.hasPresharedKey ++ [10])
  else if param = b!"peers" then some (d.peers.flatMap fun p => i ++ keyToBase64 p.publicKey ++ [10])
  else if param = b!"dump" then some (dumpPrint env d withInterface)
  else none

/-- The interface layer as the show commands see it: the names found (`none`: `ipc_list_devices` failed), and get. -/
structure ShowIpc where
  list : Option (List CStr)
  get : CStr → Int × Option Device

/-- Exit status and standard output of a show command. -/
structure ShowRun where
  end_ : Res Nat
  out : List UInt8

/-- show.c:395-419: the loop over the interfaces; `param` is the second argument, `ret` the status so far. -/
def showAllLoop (env : ShowEnv) (ipc : ShowIpc) (param : Option CStr) : Nat → List CStr → ShowRun
  | ret, [] => ⟨.ok ret, []⟩
  | ret, name :: rest =>
    match ipc.get name with
    | (code, dev) =>
      if code < 0 then showAllLoop env ipc param ret rest
      else
        match dev with
        | none => ⟨.ub, []⟩
        | some d =>
          match param with
          | some w =>
            match uglyPrint env d w true with
            | none => ⟨.ok 1, []⟩
            | some o => let r := showAllLoop env ipc param 0 rest; ⟨r.end_, o ++ r.out⟩
          | none =>
            match prettyPrint env d with
            | none => ⟨.ub, []⟩
            | some o =>
              let r := showAllLoop env ipc param 0 rest
              ⟨r.end_, o ++ (if rest ≠ [] then [10] else []) ++ r.out⟩

/-- show.c:434-435: the names separated by spaces and ended by a line feed. -/
def namesText : List CStr → List UInt8
  | [] => []
  | [n] => n ++ [10]
  | n :: l => n ++ [c!" "] ++ namesText l

/-- show.c:439-452: one named interface. -/
def showOne (env : ShowEnv) (ipc : ShowIpc) (name : CStr) (param : Option CStr) : ShowRun :=
  match ipc.get name with
  | (code, dev) =>
    if code < 0 then ⟨.ok 1, []⟩
    else
      match dev with
      | none => ⟨.ub, []⟩
      | some d =>
        match param with
        | some w => match uglyPrint env d w false with | none => ⟨.ok 1, []⟩ | some o => ⟨.ok 0, o⟩
        | none => match prettyPrint env d with | none => ⟨.ub, []⟩ | some o => ⟨.ok 0, o⟩

/-- show.c:388-421 `wg show` and `wg show all [param]`. -/
def showAll (env : ShowEnv) (ipc : ShowIpc) (param : Option CStr) : ShowRun :=
  match ipc.list with
  | none => ⟨.ok 1, []⟩
  | some names => showAllLoop env ipc param (if names = [] then 0 else 1) names

/-- show.c:380-454 `show_main`; `args` are the arguments after the command name. -/
def showMain (env : ShowEnv) (ipc : ShowIpc) (args : List CStr) : ShowRun :=
  match args with
  | [] => showAll env ipc none
  | [a] =>
    if a = b!"all" then showAll env ipc none
    else if a = b!"interfaces" then
      match ipc.list with
      | none => ⟨.ok 1, []⟩
      | some names => ⟨.ok 0, namesText names⟩
    else if a = b!"-h" ∨ a = b!"--help" ∨ a = b!"help" then ⟨.ok 0, []⟩
    else showOne env ipc a none
  | [a, w] =>
    if a = b!"all" then showAll env ipc (some w)
    else if a = b!"interfaces" then ⟨.ok 1, []⟩
    else showOne env ipc a (some w)
  | _ => ⟨.ok 1, []⟩

/-- showconf.c:52-66: the allowed IPs (`inet_ntop` cannot fail). -/
def confIPs (o : OutEnv) : List AllowedIP → CStr
  | [] => []
  | [a] => ntopAddr o a.addr ++ c!"/" :: showDec a.cidr.toNat
  | a :: l => ntopAddr o a.addr ++ c!"/" :: showDec a.cidr.toNat ++ b!", " ++ confIPs o l

/-- showconf.c:70-87: the endpoint line. -/
def confEndpoint (o : OutEnv) (e : Endpoint) : CStr :=
  match e with
  | .unset => []
  | .in4 .. =>
    match o.nameinfo e with
    | none => []
    | some (host, service) => b!"Endpoint = " ++ host ++ c!":" :: service ++ [10]
  | .in6 .. =>
    match o.nameinfo e with
    | none => []
    | some (host, service) =>
      if host.contains c!":" then b!"Endpoint = [" ++ host ++ c!"]" :: c!":" :: service ++ [10]
      else b!"Endpoint = " ++ host ++ c!":" :: service ++ [10]

/-- showconf.c:45-90: one peer without the blank line after it. -/
def confPeer (o : OutEnv) (p : Peer) : CStr :=
  b!"[Peer]\nPublicKey = " ++ keyToBase64 p.publicKey ++ [10] ++
  (if p.flags.hasPresharedKey then b!"PresharedKey = " ++ keyToBase64 p.presharedKey ++ [10] else []) ++
  (if p.allowedIPs ≠ [] then b!"AllowedIPs = " ++ confIPs o p.allowedIPs ++ [10] else []) ++
  confEndpoint o p.endpoint ++
  (if p.keepalive ≠ 0 then b!"PersistentKeepalive = " ++ showDec p.keepalive.toNat ++ [10] else [])

/-- showconf.c:45-94: the peers with blank lines between. -/
def confPeers (o : OutEnv) : List Peer → CStr
  | [] => []
  | [p] => confPeer o p
  | p :: l => confPeer o p ++ [10] ++ confPeers o l

/-- showconf.c:37-94: the whole text. -/
def confText (o : OutEnv) (d : Device) : CStr :=
  b!"[Interface]\n" ++
  (if d.listenPort ≠ 0 then b!"ListenPort = " ++ showDec d.listenPort.toNat ++ [10] else []) ++
  (if d.fwmark ≠ 0 then b!"FwMark = 0x" ++ showHex d.fwmark.toNat ++ [10] else []) ++
  (if d.flags.hasPrivateKey then b!"PrivateKey = " ++ keyToBase64 d.privateKey ++ [10] else []) ++
  [10] ++ confPeers o d.peers

/-- showconf.c:21-103 `showconf_main`. -/
def showconfMain (o : OutEnv) (ipc : ShowIpc) (args : List CStr) : ShowRun :=
  match args with
  | [name] =>
    match ipc.get name with
    | (code, dev) =>
      if code ≠ 0 then ⟨.ok 1, []⟩
      else match dev with
        | none => ⟨.ub, []⟩
        | some d => ⟨.ok 0, confText o d⟩
  | _ => ⟨.ok 1, []⟩

end WG
