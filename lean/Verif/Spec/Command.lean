import Verif.Spec.ConfigFile
/-! What a `wg set` argument list says, independent of the parser (wg.8: `set <interface> [listen-port <port>] ...`). -/
namespace WG.Spec

/-- One setting of a peer group. -/
inductive PeerArg where
  | remove
  | endpoint (e : Endpoint)
  | allowedIPs (l : List AllowedIP)
  | keepalive (n : UInt16)
  | presharedKey (k : Key)

/-- One item of the argument list. -/
inductive CmdItem where
  | dev (s : DevSetting)
  | newPeer (k : Key)
  | arg (a : PeerArg)

/-- The words of an item. `keyfile path k`: the file named `path` holds the key `k`. Allowed-IP arguments may
contain white space. -/
inductive ItemWords (V : ValueSyntax) (keyfile : List UInt8 → Key → Prop) : List (List UInt8) → CmdItem → Prop
  | listenPort {v p} : V.port v p → ItemWords V keyfile [b!"listen-port", v] (.dev (.listenPort p))
  | fwmark {v m} : V.fwmark v m → ItemWords V keyfile [b!"fwmark", v] (.dev (.fwmark m))
  | privateKey {v k} : keyfile v k → ItemWords V keyfile [b!"private-key", v] (.dev (.privateKey k))
  | peer {v k} : V.key v k → ItemWords V keyfile [b!"peer", v] (.newPeer k)
  | remove : ItemWords V keyfile [b!"remove"] (.arg .remove)
  | endpoint {v e} : V.endpoint v e → ItemWords V keyfile [b!"endpoint", v] (.arg (.endpoint e))
  | allowedIPs {v l} : V.allowedIPs (v.filter fun c => !isSpace c) l → ItemWords V keyfile [b!"allowed-ips", v] (.arg (.allowedIPs l))
  | keepalive {v n} : V.keepalive v n → ItemWords V keyfile [b!"persistent-keepalive", v] (.arg (.keepalive n))
  | presharedKey {v k} : keyfile v k → ItemWords V keyfile [b!"preshared-key", v] (.arg (.presharedKey k))

/-- Device settings first, then peer groups. -/
def cmdItems (devs : List DevSetting) (groups : List (Key × List PeerArg)) : List CmdItem :=
  devs.map .dev ++ groups.flatMap fun g => .newPeer g.1 :: g.2.map .arg

/-- The argument list says these device settings and peer groups. -/
def CmdSays (V : ValueSyntax) (keyfile : List UInt8 → Key → Prop) (argv : List (List UInt8))
    (devs : List DevSetting) (groups : List (Key × List PeerArg)) : Prop :=
  ∃ chunks : List (List (List UInt8)), argv = chunks.flatten ∧ List.Forall₂ (ItemWords V keyfile) chunks (cmdItems devs groups)

def PeerArg.endpoint? : PeerArg → Option Endpoint | .endpoint e => some e | _ => none
def PeerArg.ips? : PeerArg → Option (List AllowedIP) | .allowedIPs l => some l | _ => none
def PeerArg.keepalive? : PeerArg → Option UInt16 | .keepalive n => some n | _ => none
def PeerArg.psk? : PeerArg → Option Key | .presharedKey k => some k | _ => none
def PeerArg.remove? : PeerArg → Option Unit | .remove => some () | _ => none

/-- The peer a group asks for: only what is mentioned is marked as set. -/
def groupMeaning (g : Key × List PeerArg) : Peer where
  publicKey := g.1
  presharedKey := lastOr zeroKey (g.2.filterMap (·.psk?))
  endpoint := lastOr .unset (g.2.filterMap (·.endpoint?))
  keepalive := lastOr 0 (g.2.filterMap (·.keepalive?))
  allowedIPs := (g.2.filterMap (·.ips?)).flatten
  flags := { removeMe := !(g.2.filterMap (·.remove?)).isEmpty
             replaceAllowedIPs := !(g.2.filterMap (·.ips?)).isEmpty
             hasPublicKey := true
             hasPresharedKey := !(g.2.filterMap (·.psk?)).isEmpty
             hasKeepalive := !(g.2.filterMap (·.keepalive?)).isEmpty }

/-- The device update an argument list asks for. -/
def cmdMeaning (devs : List DevSetting) (groups : List (Key × List PeerArg)) : Device where
  listenPort := lastOr 0 (devs.filterMap (·.port?))
  fwmark := lastOr 0 (devs.filterMap (·.mark?))
  privateKey := lastOr zeroKey (devs.filterMap (·.priv?))
  flags := { replacePeers := false
             hasListenPort := !(devs.filterMap (·.port?)).isEmpty
             hasFwmark := !(devs.filterMap (·.mark?)).isEmpty
             hasPrivateKey := !(devs.filterMap (·.priv?)).isEmpty }
  peers := groups.map groupMeaning

end WG.Spec
