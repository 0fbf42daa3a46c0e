[
 {
  "definition": "pubkeyCmp",
  "file": "Verif/Model/Setconf.lean",
  "old": "(if a.fromFile then 1 else 0) - (if b.fromFile then 1 else 0)",
  "new": "(if b.fromFile then 1 else 0) - (if a.fromFile then 1 else 0)",
  "claim": "C20/C21: a runtime peer also in the file is not removed"
 },
 {
  "definition": "removals",
  "file": "Verif/Model/Setconf.lean",
  "old": "if !b.fromFile || memcmp",
  "new": "if memcmp",
  "claim": "C20: only a following file entry with the same key saves a runtime entry (differs only with duplicate runtime keys)"
 },
 {
  "definition": "removals",
  "file": "Verif/Model/Setconf.lean",
  "old": "| [a] => if a.fromFile then [] else [a.pubkey]",
  "new": "| [a] => []",
  "claim": "C19: a runtime peer sorting last and absent from the file is removed"
 },
 {
  "definition": "removals",
  "file": "Verif/Model/Setconf.lean",
  "old": "| [a] => if a.fromFile then [] else [a.pubkey]",
  "new": "| [a] => [a.pubkey]",
  "claim": "C19: a peer of the file is not removed"
 },
 {
  "definition": "syncPeers",
  "file": "Verif/Model/Setconf.lean",
  "old": "{ file.flags with replacePeers := false }",
  "new": "file.flags",
  "claim": "C19: syncconf keeps the sessions of unchanged peers: no replace_peers"
 },
 {
  "definition": "pushRemovals",
  "file": "Verif/Model/Setconf.lean",
  "old": "flags := { removeMe := true }",
  "new": "flags := { replaceAllowedIPs := true }",
  "claim": "C19: peers absent from the file go away"
 },
 {
  "definition": "origins",
  "file": "Verif/Model/Setconf.lean",
  "old": "⟨p.publicKey, true⟩",
  "new": "⟨p.publicKey, false⟩",
  "claim": "C19: file peers are not removed"
 },
 {
  "definition": "syncConf",
  "file": "Verif/Model/Setconf.lean",
  "old": "if file.peers = [] then (.ok file, [])",
  "new": "if False then (.ok file, [])",
  "claim": "C19: early return with no peers in the file"
 },
 {
  "definition": "syncConf",
  "file": "Verif/Model/Setconf.lean",
  "old": "if runtime.peers = [] then (.ok file, [.get file.name])",
  "new": "if runtime.peers = [] then (.fail, [.get file.name])",
  "claim": "C19: syncconf to an interface without peers works"
 },
 {
  "definition": "emitPeer",
  "file": "Verif/Model/Uapi.lean",
  "old": "b!\"remove=true\" ++ [10]\n  else\n",
  "new": "b!\"remove=true\" ++ [10] ++ b!\"replace_allowed_ips=true\" ++ [10]\n  else\n",
  "claim": "C23: a removal entry carries only the removal"
 },
 {
  "definition": "emitEndpoint",
  "file": "Verif/Model/Uapi.lean",
  "old": "then b!\"endpoint=[\" ++ host ++ c!\"]\" :: c!\":\" :: service ++ [10]",
  "new": "then b!\"endpoint=\" ++ host ++ c!\":\" :: service ++ [10]",
  "claim": "C23: IPv6 endpoint is bracketed"
 },
 {
  "definition": "emitPeer",
  "file": "Verif/Model/Uapi.lean",
  "old": "if p.flags.hasKeepalive then",
  "new": "if p.keepalive ≠ 0 then",
  "claim": "C23: keepalive off is transmitted"
 },
 {
  "definition": "emitSet",
  "file": "Verif/Model/Uapi.lean",
  "old": "if d.flags.hasListenPort then",
  "new": "if d.listenPort ≠ 0 then",
  "claim": "C23: listen port 0 is transmitted"
 },
 {
  "definition": "emitSet",
  "file": "Verif/Model/Uapi.lean",
  "old": "b!\"fwmark=\" ++ showDec d.fwmark.toNat",
  "new": "b!\"fwmark=\" ++ showDec d.listenPort.toNat",
  "claim": "C23: fwmark value"
 },
 {
  "definition": "emitSet",
  "file": "Verif/Model/Uapi.lean",
  "old": "d.peers.flatMap (emitPeer o) ++ [10]",
  "new": "d.peers.flatMap (emitPeer o)",
  "claim": "C23: the request ends with a blank line"
 },
 {
  "definition": "emitPeer",
  "file": "Verif/Model/Uapi.lean",
  "old": "keyToHex p.presharedKey",
  "new": "keyToHex p.publicKey",
  "claim": "C23: preshared key value"
 },
 {
  "definition": "userspaceSetReply",
  "file": "Verif/Model/Uapi.lean",
  "old": "setReply sc err (-EPROTO)",
  "new": "setReply sc err 0",
  "claim": "C25: success only with an errno=0 line"
 },
 {
  "definition": "setReply",
  "file": "Verif/Model/Uapi.lean",
  "old": "| some num => setReply sc err num rest",
  "new": "| some num => if num = 0 then 0 else setReply sc err num rest",
  "claim": "C25: the last errno line counts"
 },
 {
  "definition": "kvLine",
  "file": "Verif/Model/Uapi.lean",
  "old": "if rest.getLast? = some 10 then some (k, rest.dropLast) else none",
  "new": "some (k, rest.dropLast)",
  "claim": "C25/C26: a truncated line is refused"
 },
 {
  "definition": "getPeerLine",
  "file": "Verif/Model/Uapi.lean",
  "old": "p.flags.hasPresharedKey || !keyIsZero k",
  "new": "true",
  "claim": "C26: a zero preshared key means none"
 },
 {
  "definition": "num",
  "file": "Verif/Model/Uapi.lean",
  "old": "if rest ≠ [] || n > max then none",
  "new": "if rest ≠ [] then none",
  "claim": "C26: out of range number refused"
 },
 {
  "definition": "getEnd",
  "file": "Verif/Model/Uapi.lean",
  "old": "(ret, if ret ≠ 0 then none else",
  "new": "(ret, if ret < 0 then none else",
  "claim": "C24: no device with a nonzero result"
 },
 {
  "definition": "getStep",
  "file": "Verif/Model/Uapi.lean",
  "old": "{ s.dev with peers := s.dev.peers ++ s.cur.toList }",
  "new": "{ s.dev with peers := s.dev.peers }",
  "claim": "C26: all peers are reported"
 },
 {
  "definition": "getPeerLine",
  "file": "Verif/Model/Uapi.lean",
  "old": "allowedIPs := p.allowedIPs ++ [a]",
  "new": "allowedIPs := [a]",
  "claim": "C26: all allowed IPs are reported"
 },
 {
  "definition": "getAllowedIP",
  "file": "Verif/Model/Uapi.lean",
  "old": "if rest ≠ [] || cidr > 32 then none",
  "new": "if rest ≠ [] || cidr > 33 then none",
  "claim": "C27: prefix length range"
 },
 {
  "definition": "getLoop",
  "file": "Verif/Model/Uapi.lean",
  "old": "if line = [10] then getEnd s.ret s",
  "new": "if line = [10] then getEnd 0 s",
  "claim": "C24: the errno of the reply decides"
 },
 {
  "definition": "getDevLine",
  "file": "Verif/Model/Uapi.lean",
  "old": "privateKey := k, publicKey := pubOf k",
  "new": "privateKey := k, publicKey := k",
  "claim": "C26: the public key belongs to the private key"
 },
 {
  "definition": "getPeerLine",
  "file": "Verif/Model/Uapi.lean",
  "old": ".go { s with cur := some { p with tx := n } }",
  "new": ".go { s with cur := some { p with rx := n } }",
  "claim": "C26: transfer counters"
 }
]