import Verif.Model.Setconf
import Verif.Model.Inet
/-! Model of src/ipc-uapi.h: the cross-platform userspace protocol, client side. Opening the socket is in `Model/Ipc.lean`;
here the connection is the text written and the reply text read. `calloc` failure is not modelled. -/
namespace WG

/-- `printf("%u"/"%d"/"%llu")` of a non-negative number: decimal digits, most significant first (`fuel` exceeds the number of
digits). -/
def showDecAux : Nat → Nat → CStr
  | 0, _ => []
  | fuel + 1, n => if n < 10 then [UInt8.ofNat (48 + n)] else showDecAux fuel (n / 10) ++ [UInt8.ofNat (48 + n % 10)]

/-- `printf("%u")`. -/
def showDec (n : Nat) : CStr := showDecAux (n + 1) n

/-- How the system prints addresses: `inet_ntop` (which cannot fail with a buffer of `INET6_ADDRSTRLEN`), and `getnameinfo`
with `NI_DGRAM | NI_NUMERICSERV | NI_NUMERICHOST` giving host and service texts, or failing. -/
structure OutEnv where
  ntop4 : IP4 → CStr
  ntop6 : IP6 → CStr
  nameinfo : Endpoint → Option (CStr × CStr)

/-- Concrete glibc printing: `inet_ntop`, and numeric `getnameinfo` (a nonzero scope is appended after `%`; glibc prints the
interface name instead for link-local addresses, which is not modelled here). -/
def stdOut : OutEnv where
  ntop4 := ntop4
  ntop6 := ntop6
  nameinfo
    | .unset => none
    | .in4 a p => some (ntop4 a, showDec p.toNat)
    | .in6 a p _ scope => some (ntop6 a ++ (if scope = 0 then [] else c!"%" :: showDec scope.toNat), showDec p.toNat)

/-- ipc-uapi.h:79-87 / show.c `format_ip`: the address text. -/
def ntopAddr (o : OutEnv) : Addr → CStr
  | .v4 a => o.ntop4 a
  | .v6 a => o.ntop6 a

/-- ipc-uapi.h:68-73: the endpoint line, if the endpoint is set and `getnameinfo` succeeds. -/
def emitEndpoint (o : OutEnv) (e : Endpoint) : List UInt8 :=
  match e with
  | .unset => []
  | .in4 .. =>
    match o.nameinfo e with
    | none => []
    | some (host, service) => b!"endpoint=" ++ host ++ c!":" :: service ++ [10]
  | .in6 .. =>
    match o.nameinfo e with
    | none => []
    | some (host, service) =>
      if host.contains c!":" then b!"endpoint=[" ++ host ++ c!"]" :: c!":" :: service ++ [10]
      else b!"endpoint=" ++ host ++ c!":" :: service ++ [10]

/-- ipc-uapi.h:52-90, the lines of one peer. -/
def emitPeer (o : OutEnv) (p : Peer) : List UInt8 :=
  b!"public_key=" ++ keyToHex p.publicKey ++ [10] ++
  if p.flags.removeMe then b!"remove=true" ++ [10]
  else
    (if p.flags.hasPresharedKey then b!"preshared_key=" ++ keyToHex p.presharedKey ++ [10] else []) ++
    emitEndpoint o p.endpoint ++
    (if p.flags.hasKeepalive then b!"persistent_keepalive_interval=" ++ showDec p.keepalive.toNat ++ [10] else []) ++
    (if p.flags.replaceAllowedIPs then b!"replace_allowed_ips=true" ++ [10] else []) ++
    p.allowedIPs.flatMap fun a => b!"allowed_ip=" ++ ntopAddr o a.addr ++ c!"/" :: showDec a.cidr.toNat ++ [10]

/-- ipc-uapi.h:40-92, the whole request text of `userspace_set_device`. -/
def emitSet (o : OutEnv) (d : Device) : List UInt8 :=
  b!"set=1" ++ [10] ++
  (if d.flags.hasPrivateKey then b!"private_key=" ++ keyToHex d.privateKey ++ [10] else []) ++
  (if d.flags.hasListenPort then b!"listen_port=" ++ showDec d.listenPort.toNat ++ [10] else []) ++
  (if d.flags.hasFwmark then b!"fwmark=" ++ showDec d.fwmark.toNat ++ [10] else []) ++
  (if d.flags.replacePeers then b!"replace_peers=true" ++ [10] else []) ++
  d.peers.flatMap (emitPeer o) ++ [10]

/-- ipc-uapi.h:100-103 and 168-171: a reply line (with its line feed, before any NUL) is split at the first `=`;
`none` is `break`. -/
def kvLine (line : CStr) : Option (CStr × CStr) :=
  match strsepOne c!"=" line with
  | (k, some rest) => if rest.getLast? = some 10 then some (k, rest.dropLast) else none
  | (_, none) => none

/-- `strtoll(s, &end, 10)`: saturates at the ends of the 64-bit range. -/
def strtoll (s : CStr) : Int × CStr :=
  let (neg, s2) := strtoulSign (s.dropWhile isspaceLibc)
  let ds := s2.takeWhile (isDigitOf 10)
  if ds = [] then (0, s)
  else
    let v : Nat := digitsVal 10 ds
    let r : Int := if neg then (if v > 2 ^ 63 then -(2 ^ 63) else -(v : Int)) else (if v > 2 ^ 63 - 1 then 2 ^ 63 - 1 else v)
    (r, s2.dropWhile (isDigitOf 10))

/-- ipc-uapi.h:107-114: the number of an `errno` line in a set reply; `none` is `break`. -/
def setErrnoValue (sc : Bool) (value : CStr) : Option Int :=
  if value.getD 0 0 ≠ c!"-" && !isDigitC sc (value.getD 0 0) then none
  else
    let (num, rest) := strtoll value
    if rest ≠ [] || num > 2147483647 || num < -2147483648 then none else some num

/-- `EPROTO` and `ENETUNREACH` on Linux. -/
def EPROTO : Int := 71
def ENETUNREACH : Int := 101

/-- ipc-uapi.h:95-120: reading the reply to a set request; `err` is the (non-negative) value of `errno` when the loop is left
without a blank line. -/
def setReply (sc : Bool) (err : Nat) : Int → List CStr → Int
  | _, [] => if err ≠ 0 then -(err : Int) else -EPROTO
  | setErrno, line :: rest =>
    if line = [10] then setErrno
    else
      match kvLine line with
      | none => if err ≠ 0 then -(err : Int) else -EPROTO
      | some (k, v) =>
        if k = b!"errno" then
          match setErrnoValue sc v with
          | none => if err ≠ 0 then -(err : Int) else -EPROTO
          | some num => setReply sc err num rest
        else setReply sc err setErrno rest

/-- ipc-uapi.h:28-124 `userspace_set_device` once connected: the return value for a given reply. -/
def userspaceSetReply (sc : Bool) (err : Nat) (reply : List UInt8) : Int :=
  setReply sc err (-EPROTO) ((getlines reply).map cstr)

/-- ipc-uapi.h:126-135 the `NUM(max)` macro; `none` is the `break` out of the line loop. -/
def num (sc : Bool) (value : CStr) (max : Nat) : Option Nat :=
  if !isDigitC sc (value.getD 0 0) then none
  else
    let (n, rest) := strtoul (2 ^ 64 - 1) 10 value
    if rest ≠ [] || n > max then none else some n

/-- State of `userspace_get_device`: the device with its finished peers, the current (last) peer, `ret`, and the number of
getaddrinfo calls made. -/
structure GetSt where
  dev : Device
  cur : Option Peer := none
  ret : Int := -EPROTO
  tick : Nat := 0

/-- One line was handled: continue, or leave the loop with this `ret` (`break` gives `-EPROTO`). -/
inductive GetStep where
  | go (s : GetSt)
  | stop (ret : Int)

/-- `break` unless a value was read. -/
def orBreak {α : Type} (o : Option α) (f : α → GetStep) : GetStep :=
  match o with
  | some a => f a
  | none => .stop (-EPROTO)

/-- ipc-uapi.h:197-234 an `endpoint` line. -/
def getEndpoint (env : Env) (s : GetSt) (p : Peer) (value : CStr) : GetStep :=
  orBreak (splitEndpoint value) fun (host, port) =>
    match env.gai s.tick host port with
    | .found .unset => .stop (-EPROTO)
    | .found e => .go { s with cur := some { p with endpoint := e }, tick := s.tick + 1 }
    | _ => .stop ENETUNREACH

/-- ipc-uapi.h:238-266 an `allowed_ip` line. The prefix length is stored in a `uint8_t` before it is checked. -/
def getAllowedIP (env : Env) (value : CStr) : Option AllowedIP :=
  match strsepOne c!"/" value with
  | (_, none) => none
  | (ip, some mask) =>
    if !isDigitC env.sc (mask.getD 0 0) then none
    else
      let addr := parseIp env ip
      let (n, rest) := strtoul env.ulongMax 10 mask
      let cidr : UInt8 := UInt8.ofNat n
      match addr with
      | none => none
      | some (.v4 a) => if rest ≠ [] || cidr > 32 then none else some ⟨.v4 a, cidr⟩
      | some (.v6 a) => if rest ≠ [] || cidr > 128 then none else some ⟨.v6 a, cidr⟩

/-- ipc-uapi.h:278-279 an `errno` line; any other key here is ignored. -/
def getOther (env : Env) (s : GetSt) (key value : CStr) : GetStep :=
  if key = b!"errno" then
    orBreak (num env.sc value 0x7fffffff) fun n => .go { s with ret := -(n : Int) }
  else .go s

/-- ipc-uapi.h:173-182 lines that count only before the first peer. -/
def getDevLine (env : Env) (pubOf : Key → Key) (s : GetSt) (key value : CStr) : GetStep :=
  if key = b!"private_key" then
    orBreak (keyFromHex value) fun k =>
      .go { s with dev := { s.dev with privateKey := k, publicKey := pubOf k
                                       flags := { s.dev.flags with hasPrivateKey := true, hasPublicKey := true } } }
  else if key = b!"listen_port" then
    orBreak (num env.sc value 0xffff) fun n =>
      .go { s with dev := { s.dev with listenPort := UInt16.ofNat n, flags := { s.dev.flags with hasListenPort := true } } }
  else if key = b!"fwmark" then
    orBreak (num env.sc value 0xffffffff) fun n =>
      .go { s with dev := { s.dev with fwmark := UInt32.ofNat n, flags := { s.dev.flags with hasFwmark := true } } }
  else getOther env s key value

/-- ipc-uapi.h:192-277 lines that count only inside peer `p`. -/
def getPeerLine (env : Env) (s : GetSt) (p : Peer) (key value : CStr) : GetStep :=
  if key = b!"preshared_key" then
    orBreak (keyFromHex value) fun k =>
      .go { s with cur := some { p with presharedKey := k
                                        flags := { p.flags with hasPresharedKey := p.flags.hasPresharedKey || !keyIsZero k } } }
  else if key = b!"endpoint" then getEndpoint env s p value
  else if key = b!"persistent_keepalive_interval" then
    orBreak (num env.sc value 0xffff) fun n =>
      .go { s with cur := some { p with keepalive := UInt16.ofNat n, flags := { p.flags with hasKeepalive := true } } }
  else if key = b!"allowed_ip" then
    orBreak (getAllowedIP env value) fun a =>
      .go { s with cur := some { p with allowedIPs := p.allowedIPs ++ [a] } }
  else if key = b!"last_handshake_time_sec" then
    orBreak (num env.sc value 0x7fffffffffffffff) fun n => .go { s with cur := some { p with handshakeSec := n } }
  else if key = b!"last_handshake_time_nsec" then
    orBreak (num env.sc value 0x7fffffffffffffff) fun n => .go { s with cur := some { p with handshakeNsec := n } }
  else if key = b!"rx_bytes" then
    orBreak (num env.sc value 0xffffffffffffffff) fun n => .go { s with cur := some { p with rx := n } }
  else if key = b!"tx_bytes" then
    orBreak (num env.sc value 0xffffffffffffffff) fun n => .go { s with cur := some { p with tx := n } }
  else getOther env s key value

/-- ipc-uapi.h:173-279 handling of one `key=value` line; `pubOf` is `curve25519_generate_public`. The `else if` chain of the C
code, whose conditions test `peer` first, is grouped by whether a peer was started. -/
def getStep (env : Env) (pubOf : Key → Key) (s : GetSt) (key value : CStr) : GetStep :=
  if key = b!"public_key" then
    orBreak (keyFromHex value) fun k =>
      .go { s with dev := { s.dev with peers := s.dev.peers ++ s.cur.toList }
                   cur := some { publicKey := k, flags := { hasPublicKey := true } } }
  else
    match s.cur with
    | none => getDevLine env pubOf s key value
    | some p => getPeerLine env s p key value

/-- ipc-uapi.h:283-289: `ret` and `*out`. -/
def getEnd (ret : Int) (s : GetSt) : Int × Option Device :=
  (ret, if ret ≠ 0 then none else some { s.dev with peers := s.dev.peers ++ s.cur.toList })

/-- ipc-uapi.h:164-281 the line loop of `userspace_get_device`. -/
def getLoop (env : Env) (pubOf : Key → Key) (s : GetSt) : List CStr → Int × Option Device
  | [] => getEnd (-EPROTO) s
  | line :: rest =>
    if line = [10] then getEnd s.ret s
    else
      match kvLine line with
      | none => getEnd (-EPROTO) s
      | some (k, v) =>
        match getStep env pubOf s k v with
        | .stop r => getEnd r s
        | .go s => getLoop env pubOf s rest

/-- ipc-uapi.h:137-292 `userspace_get_device` once connected: return value and `*out` for a given reply. -/
def userspaceGetReply (env : Env) (pubOf : Key → Key) (iface : CStr) (reply : List UInt8) : Int × Option Device :=
  getLoop env pubOf { dev := { name := copyName iface } } ((getlines reply).map cstr)

end WG
