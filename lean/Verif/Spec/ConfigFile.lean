import Verif.Spec.Address
import Verif.Model.Types
/-!
What a configuration file says, independent of the parser: a file is a sequence of sections, a section is a header line and
setting lines; the meaning of the sections is a device update in which the last value of each setting wins and lists
accumulate. The value syntaxes are parameters (`ValueSyntax`), characterised separately (C01, C06-C08, C17-C18).
-/
namespace WG.Spec

/-- What value texts denote. `endpoint v e`: resolving the endpoint text `v` can give `e`. -/
structure ValueSyntax where
  port : List UInt8 → UInt16 → Prop
  fwmark : List UInt8 → UInt32 → Prop
  key : List UInt8 → Key → Prop
  endpoint : List UInt8 → Endpoint → Prop
  allowedIPs : List UInt8 → List AllowedIP → Prop
  keepalive : List UInt8 → UInt16 → Prop

inductive DevSetting where
  | listenPort (p : UInt16)
  | fwmark (m : UInt32)
  | privateKey (k : Key)

inductive PeerSetting where
  | endpoint (e : Endpoint)
  | publicKey (k : Key)
  | allowedIPs (l : List AllowedIP)
  | keepalive (n : UInt16)
  | presharedKey (k : Key)

inductive Section where
  | interface (l : List DevSetting)
  | peer (l : List PeerSetting)

/-- `line` is `name=v` with `name` in any letter case and a nonempty value. -/
def IsSetting (line name v : List UInt8) : Prop := v ≠ [] ∧ ∃ k, EqNoCase k name ∧ line = k ++ c!"=" :: v

/-- The text that counts of an input line: before the first `#`, white space removed. -/
def cleaned (l : List UInt8) : List UInt8 := (l.takeWhile (· ≠ c!"#")).filter fun c => !isSpace c

/-- A (cleaned) line of an interface section. -/
inductive DevLine (V : ValueSyntax) : List UInt8 → DevSetting → Prop
  | listenPort {line v p} : IsSetting line b!"listenport" v → V.port v p → DevLine V line (.listenPort p)
  | fwmark {line v m} : IsSetting line b!"fwmark" v → V.fwmark v m → DevLine V line (.fwmark m)
  | privateKey {line v k} : IsSetting line b!"privatekey" v → V.key v k → DevLine V line (.privateKey k)

/-- A (cleaned) line of a peer section. -/
inductive PeerLine (V : ValueSyntax) : List UInt8 → PeerSetting → Prop
  | endpoint {line v e} : IsSetting line b!"endpoint" v → V.endpoint v e → PeerLine V line (.endpoint e)
  | publicKey {line v k} : IsSetting line b!"publickey" v → V.key v k → PeerLine V line (.publicKey k)
  | allowedIPs {line v l} : IsSetting line b!"allowedips" v → V.allowedIPs v l → PeerLine V line (.allowedIPs l)
  | keepalive {line v n} : IsSetting line b!"persistentkeepalive" v → V.keepalive v n → PeerLine V line (.keepalive n)
  | presharedKey {line v k} : IsSetting line b!"presharedkey" v → V.key v k → PeerLine V line (.presharedKey k)

/-- A header line followed by setting lines. -/
inductive SectionSays (V : ValueSyntax) : List (List UInt8) → Section → Prop
  | interface {h body l} : EqNoCase h b!"[interface]" → List.Forall₂ (DevLine V) body l → SectionSays V (h :: body) (.interface l)
  | peer {h body l} : EqNoCase h b!"[peer]" → List.Forall₂ (PeerLine V) body l → SectionSays V (h :: body) (.peer l)

/-- The input lines say the sections. Lines that are blank after cleaning are skipped. -/
def FileSays (V : ValueSyntax) (lines : List (List UInt8)) (secs : List Section) : Prop :=
  ∃ chunks : List (List (List UInt8)), (lines.map cleaned).filter (· ≠ []) = chunks.flatten ∧ List.Forall₂ (SectionSays V) chunks secs

/-- The last value, if any. -/
def lastOr {α : Type} (d : α) (l : List α) : α := l.getLast?.getD d

def DevSetting.port? : DevSetting → Option UInt16 | .listenPort p => some p | _ => none
def DevSetting.mark? : DevSetting → Option UInt32 | .fwmark m => some m | _ => none
def DevSetting.priv? : DevSetting → Option Key | .privateKey k => some k | _ => none
def PeerSetting.endpoint? : PeerSetting → Option Endpoint | .endpoint e => some e | _ => none
def PeerSetting.pub? : PeerSetting → Option Key | .publicKey k => some k | _ => none
def PeerSetting.ips : PeerSetting → List AllowedIP | .allowedIPs l => l | _ => []
def PeerSetting.keepalive? : PeerSetting → Option UInt16 | .keepalive n => some n | _ => none
def PeerSetting.psk? : PeerSetting → Option Key | .presharedKey k => some k | _ => none

/-- A peer section: last value of each setting, all allowed IPs in order; its list of allowed IPs replaces the old one. -/
def peerMeaning (l : List PeerSetting) : Peer where
  publicKey := lastOr zeroKey (l.filterMap (·.pub?))
  presharedKey := lastOr zeroKey (l.filterMap (·.psk?))
  endpoint := lastOr .unset (l.filterMap (·.endpoint?))
  keepalive := lastOr 0 (l.filterMap (·.keepalive?))
  allowedIPs := l.flatMap (·.ips)
  flags := { replaceAllowedIPs := true
             hasPublicKey := !(l.filterMap (·.pub?)).isEmpty
             hasPresharedKey := !(l.filterMap (·.psk?)).isEmpty
             hasKeepalive := !(l.filterMap (·.keepalive?)).isEmpty }

/-- Settings of all interface sections in file order. -/
def devSettings (secs : List Section) : List DevSetting :=
  secs.flatMap fun | .interface l => l | .peer _ => []

/-- Peer sections in file order. -/
def peerSections (secs : List Section) : List (List PeerSetting) :=
  secs.filterMap fun | .interface _ => none | .peer l => some l

/-- The device update a file asks for. `append`: addconf, which requests only what the file mentions; otherwise (setconf,
syncconf) the peer list, private key, listen port and fwmark are always set. -/
def fileMeaning (append : Bool) (secs : List Section) : Device where
  listenPort := lastOr 0 ((devSettings secs).filterMap (·.port?))
  fwmark := lastOr 0 ((devSettings secs).filterMap (·.mark?))
  privateKey := lastOr zeroKey ((devSettings secs).filterMap (·.priv?))
  flags := { replacePeers := !append
             hasListenPort := !append || !((devSettings secs).filterMap (·.port?)).isEmpty
             hasFwmark := !append || !((devSettings secs).filterMap (·.mark?)).isEmpty
             hasPrivateKey := !append || !((devSettings secs).filterMap (·.priv?)).isEmpty }
  peers := (peerSections secs).map peerMeaning

end WG.Spec

namespace WG.Spec

/-- The documented value syntaxes (wg.8). `portOf`: the system's reading of a port text; `pton4`/`pton6`: its reading of
addresses; `resolves host port e`: its resolver can turn host and port texts into the socket address `e`. -/
def docSyntax (portOf : List UInt8 → Option UInt16) (pton4 : List UInt8 → Option IP4) (pton6 : List UInt8 → Option IP6)
    (resolves : List UInt8 → List UInt8 → Endpoint → Prop) : ValueSyntax where
  port v p := v ≠ [] ∧ portOf v = some p
  fwmark v m := IsFwmark v m.toNat
  key v k := v = rfc4648 k.toList
  endpoint v e := e ≠ .unset ∧ ∃ h p, IsEndpointText v h p ∧ resolves h p e
  allowedIPs v l := IsAllowedIPs pton4 pton6 v l
  keepalive v n := IsKeepalive v n.toNat

/-- The lines of a file: each ends with a line feed, except possibly the last. -/
def fileLines : List UInt8 → List (List UInt8)
  | [] => []
  | c :: t =>
    if c = 10 then [c] :: fileLines t
    else match fileLines t with
      | [] => [[c]]
      | l :: ls => (c :: l) :: ls

/-- The part of a line before its first NUL byte (the tool ignores the rest). -/
def beforeNul (l : List UInt8) : List UInt8 := l.takeWhile (· ≠ 0)

end WG.Spec
