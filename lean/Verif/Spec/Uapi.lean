import Verif.Spec.Driver
/-!
The cross-platform userspace protocol (https://www.wireguard.com/xplatform/), seen from the server: what a set request text
asks for, what texts a get reply consists of, and what they mean. Independent of the client model.
-/
namespace WG.Spec

/-- How a server reads value texts. -/
structure Readers where
  key : List UInt8 → Option Key
  num : List UInt8 → Option Nat
  endpoint : List UInt8 → Option Endpoint
  allowedIP : List UInt8 → Option AllowedIP

/-- A line is `key=value` and a line feed; split at the first `=`. -/
def keyValue (line : List UInt8) : Option (List UInt8 × List UInt8) :=
  match line.dropWhile (· ≠ c!"=") with
  | _ :: rest => if rest.getLast? = some 10 then some (line.takeWhile (· ≠ c!"="), rest.dropLast) else none
  | [] => none

/-- The server's state while reading a set request: what was requested so far, and the peer being described. -/
structure Reading where
  req : SetReq := {}
  peer : Option PeerReq := none

/-- The server reads one setting; `none`: protocol error. -/
def readSetting (R : Readers) (s : Reading) (key value : List UInt8) : Option Reading :=
  if key = b!"public_key" then do
    let k ← R.key value
    return { req := { s.req with peers := s.req.peers ++ s.peer.toList }, peer := some { key := k } }
  else
    match s.peer with
    | none =>
      if key = b!"private_key" then (R.key value).map fun k => { s with req := { s.req with privateKey := some k } }
      else if key = b!"listen_port" then
        (R.num value).bind fun n => if n < 2 ^ 16 then some { s with req := { s.req with listenPort := some (UInt16.ofNat n) } } else none
      else if key = b!"fwmark" then
        (R.num value).bind fun n => if n < 2 ^ 32 then some { s with req := { s.req with fwmark := some (UInt32.ofNat n) } } else none
      else if key = b!"replace_peers" ∧ value = b!"true" then some { s with req := { s.req with replacePeers := true } }
      else none
    | some p =>
      if key = b!"remove" ∧ value = b!"true" then some { s with peer := some { p with remove := true } }
      else if key = b!"preshared_key" then (R.key value).map fun k => { s with peer := some { p with psk := some k } }
      else if key = b!"endpoint" then (R.endpoint value).map fun e => { s with peer := some { p with endpoint := some e } }
      else if key = b!"persistent_keepalive_interval" then
        (R.num value).bind fun n => if n < 2 ^ 16 then some { s with peer := some { p with keepalive := some (UInt16.ofNat n) } } else none
      else if key = b!"replace_allowed_ips" ∧ value = b!"true" then some { s with peer := some { p with replaceIPs := true } }
      else if key = b!"allowed_ip" then (R.allowedIP value).map fun a => { s with peer := some { p with ips := p.ips ++ [a] } }
      else none

/-- The server reads settings up to the blank line, which must be the end of the text. -/
def readSettings (R : Readers) (s : Reading) : List (List UInt8) → Option SetReq
  | [] => none
  | line :: rest =>
    if line = [10] then if rest = [] then some { s.req with peers := s.req.peers ++ s.peer.toList } else none
    else do
      let (k, v) ← keyValue line
      let s ← readSetting R s k v
      readSettings R s rest

/-- What a set request text asks for. -/
def serve (R : Readers) (text : List UInt8) : Option SetReq :=
  match fileLines text with
  | first :: rest => if first = b!"set=1" ++ [10] then readSettings R {} rest else none
  | [] => none

/-- The part of a peer request that has an effect: a removal does nothing else. -/
def PeerReq.essential (r : PeerReq) : PeerReq := if r.remove then { key := r.key, remove := true } else r

def SetReq.essential (r : SetReq) : SetReq := { r with peers := r.peers.map PeerReq.essential }

/-- The protocol's text of a socket address with these host and port texts: IPv6 literals in brackets. -/
def hostPort (host port : List UInt8) : List UInt8 :=
  if c!":" ∈ host then c!"[" :: host ++ c!"]" :: c!":" :: port else host ++ c!":" :: port

/-- Hypotheses on a server's value readers and the client's address printing: canonical texts are read correctly. -/
structure ServerReads (R : Readers) (ntop4 : IP4 → List UInt8) (ntop6 : IP6 → List UInt8) : Prop where
  key : ∀ k : Key, R.key (hexString k.toList) = some k
  num : ∀ v n, IsDecimal v n → n < 2 ^ 32 → R.num v = some n
  ip4 : ∀ a (c : UInt8) v, IsDecimal v c.toNat → c.toNat ≤ 32 → R.allowedIP (ntop4 a ++ c!"/" :: v) = some ⟨.v4 a, c⟩
  ip6 : ∀ a (c : UInt8) v, IsDecimal v c.toNat → c.toNat ≤ 128 → R.allowedIP (ntop6 a ++ c!"/" :: v) = some ⟨.v6 a, c⟩
  line4 : ∀ a, (10 : UInt8) ∉ ntop4 a
  line6 : ∀ a, (10 : UInt8) ∉ ntop6 a

/-- The system can print the endpoint (host and service texts without line feed, no colon in an IPv4 host), and the server
reads the printed text back. -/
def Printable (R : Readers) (nameinfo : Endpoint → Option (List UInt8 × List UInt8)) (e : Endpoint) : Prop :=
  ∃ host service, nameinfo e = some (host, service) ∧ (10 : UInt8) ∉ host ∧ (10 : UInt8) ∉ service ∧
    (∀ a p, e = .in4 a p → c!":" ∉ host) ∧ R.endpoint (hostPort host service) = some e

/-- A decimal integer with optional minus sign. -/
def IsIntNumeral (s : List UInt8) (n : Int) : Prop :=
  (∃ m, IsDecimal s m ∧ n = m) ∨ (∃ d m, s = c!"-" :: d ∧ IsDecimal d m ∧ n = -(m : Int))

/-- `line` is `k=v` and a line feed, `k` without `=`. -/
def IsKV (line k v : List UInt8) : Prop := c!"=" ∉ k ∧ line = k ++ c!"=" :: v ++ [10]

/-- The last number given by the `errno` lines among `kvs`, each of which must be a number in `[lo, hi]`. -/
def LastErrno (lo hi : Int) (kvs : List (List UInt8 × List UInt8)) (n : Int) : Prop :=
  ∃ ns : List Int, List.Forall₂ (fun kv m => IsIntNumeral kv.2 m ∧ lo ≤ m ∧ m ≤ hi) (kvs.filter (·.1 = b!"errno")) ns ∧ ns.getLast? = some n

/-! ### Get replies -/

/-- A setting a server reports about the device. -/
inductive DevFact where
  | privateKey (k : Key)
  | listenPort (p : UInt16)
  | fwmark (m : UInt32)

/-- A setting or counter a server reports about a peer. -/
inductive PeerFact where
  | psk (k : Key)
  | endpoint (e : Endpoint)
  | keepalive (n : UInt16)
  | allowedIP (a : AllowedIP)
  | handshakeSec (n : Nat)
  | handshakeNsec (n : Nat)
  | rx (n : Nat)
  | tx (n : Nat)

/-- `line` is `name=v` and a line feed. -/
def IsField (line name v : List UInt8) : Prop := line = name ++ c!"=" :: v ++ [10]

/-- `v` is the hexadecimal text of the key, in either letter case. -/
def IsHexKey (v : List UInt8) (k : Key) : Prop := v.map lower = hexString k.toList

/-- A line about the device. -/
inductive DevSays : List UInt8 → DevFact → Prop
  | privateKey {line v k} : IsField line b!"private_key" v → IsHexKey v k → DevSays line (.privateKey k)
  | listenPort {line v p} : IsField line b!"listen_port" v → IsDecimal v p.toNat → DevSays line (.listenPort p)
  | fwmark {line v m} : IsField line b!"fwmark" v → IsDecimal v m.toNat → DevSays line (.fwmark m)

/-- A line about a peer. `resolves h p e`: the system turns numeric host and port texts into `e`. -/
inductive PeerSays (pton4 : List UInt8 → Option IP4) (pton6 : List UInt8 → Option IP6)
    (resolves : List UInt8 → List UInt8 → Endpoint → Prop) : List UInt8 → PeerFact → Prop
  | psk {line v k} : IsField line b!"preshared_key" v → IsHexKey v k → PeerSays pton4 pton6 resolves line (.psk k)
  | endpoint {line v h p e} : IsField line b!"endpoint" v → IsEndpointText v h p → e ≠ .unset → resolves h p e →
      PeerSays pton4 pton6 resolves line (.endpoint e)
  | keepalive {line v n} : IsField line b!"persistent_keepalive_interval" v → IsDecimal v n.toNat →
      PeerSays pton4 pton6 resolves line (.keepalive n)
  | allowedIP {line ip m a} : IsField line b!"allowed_ip" (ip ++ c!"/" :: m) → c!"/" ∉ ip → IsAddr pton4 pton6 ip a.addr →
      IsDecimal m a.cidr.toNat → a.cidr.toNat ≤ addrBits a.addr → PeerSays pton4 pton6 resolves line (.allowedIP a)
  | handshakeSec {line v n} : IsField line b!"last_handshake_time_sec" v → IsDecimal v n → n < 2 ^ 63 →
      PeerSays pton4 pton6 resolves line (.handshakeSec n)
  | handshakeNsec {line v n} : IsField line b!"last_handshake_time_nsec" v → IsDecimal v n → n < 2 ^ 63 →
      PeerSays pton4 pton6 resolves line (.handshakeNsec n)
  | rx {line v n} : IsField line b!"rx_bytes" v → IsDecimal v n → n < 2 ^ 64 → PeerSays pton4 pton6 resolves line (.rx n)
  | tx {line v n} : IsField line b!"tx_bytes" v → IsDecimal v n → n < 2 ^ 64 → PeerSays pton4 pton6 resolves line (.tx n)

/-- The lines about one peer: its public key first. -/
def PeerBlock (pton4 : List UInt8 → Option IP4) (pton6 : List UInt8 → Option IP6)
    (resolves : List UInt8 → List UInt8 → Endpoint → Prop) (lines : List (List UInt8)) (p : Key × List PeerFact) : Prop :=
  ∃ h v body, lines = h :: body ∧ IsField h b!"public_key" v ∧ IsHexKey v p.1 ∧
    List.Forall₂ (PeerSays pton4 pton6 resolves) body p.2

/-- A complete report: device lines, then the peers, `errno=0` and a blank line; nothing is said about what follows. -/
def ReportSays (pton4 : List UInt8 → Option IP4) (pton6 : List UInt8 → Option IP6)
    (resolves : List UInt8 → List UInt8 → Endpoint → Prop) (lines : List (List UInt8))
    (dev : List DevFact) (peers : List (Key × List PeerFact)) : Prop :=
  ∃ dl pl rest, lines = dl ++ List.flatten pl ++ (b!"errno=0" ++ [10]) :: [10] :: rest ∧
    List.Forall₂ DevSays dl dev ∧ List.Forall₂ (PeerBlock pton4 pton6 resolves) pl peers

def DevFact.priv? : DevFact → Option Key | .privateKey k => some k | _ => none
def DevFact.port? : DevFact → Option UInt16 | .listenPort p => some p | _ => none
def DevFact.mark? : DevFact → Option UInt32 | .fwmark m => some m | _ => none
def PeerFact.psk? : PeerFact → Option Key | .psk k => some k | _ => none
def PeerFact.endpoint? : PeerFact → Option Endpoint | .endpoint e => some e | _ => none
def PeerFact.keepalive? : PeerFact → Option UInt16 | .keepalive n => some n | _ => none
def PeerFact.ip? : PeerFact → Option AllowedIP | .allowedIP a => some a | _ => none
def PeerFact.sec? : PeerFact → Option Nat | .handshakeSec n => some n | _ => none
def PeerFact.nsec? : PeerFact → Option Nat | .handshakeNsec n => some n | _ => none
def PeerFact.rx? : PeerFact → Option Nat | .rx n => some n | _ => none
def PeerFact.tx? : PeerFact → Option Nat | .tx n => some n | _ => none

/-- The peer reported: the last value of each field, all allowed IPs in order; a zero preshared key means none. -/
def peerReported (p : Key × List PeerFact) : Peer where
  publicKey := p.1
  presharedKey := lastOr zeroKey (p.2.filterMap (·.psk?))
  endpoint := lastOr .unset (p.2.filterMap (·.endpoint?))
  keepalive := lastOr 0 (p.2.filterMap (·.keepalive?))
  allowedIPs := p.2.filterMap (·.ip?)
  handshakeSec := lastOr (0 : Nat) (p.2.filterMap (·.sec?))
  handshakeNsec := lastOr (0 : Nat) (p.2.filterMap (·.nsec?))
  rx := lastOr 0 (p.2.filterMap (·.rx?))
  tx := lastOr 0 (p.2.filterMap (·.tx?))
  flags := { hasPublicKey := true
             hasPresharedKey := (p.2.filterMap (·.psk?)).any (· ≠ zeroKey)
             hasKeepalive := !(p.2.filterMap (·.keepalive?)).isEmpty }

/-- The device reported under this name; its public key is derived from the private key by `pubOf`. -/
def deviceReported (pubOf : Key → Key) (name : List UInt8) (dev : List DevFact) (peers : List (Key × List PeerFact)) : Device where
  name := name
  privateKey := lastOr zeroKey (dev.filterMap (·.priv?))
  publicKey := lastOr zeroKey ((dev.filterMap (·.priv?)).map pubOf)
  listenPort := lastOr 0 (dev.filterMap (·.port?))
  fwmark := lastOr 0 (dev.filterMap (·.mark?))
  flags := { hasPrivateKey := !(dev.filterMap (·.priv?)).isEmpty
             hasPublicKey := !(dev.filterMap (·.priv?)).isEmpty
             hasListenPort := !(dev.filterMap (·.port?)).isEmpty
             hasFwmark := !(dev.filterMap (·.mark?)).isEmpty }
  peers := peers.map peerReported

end WG.Spec
