[
 {
  "definition": "blankLoop",
  "file": "Verif/Model/Terminal.lean",
  "old": "blankSeq sc (len - (i + 2)) (i + 2) buf",
  "new": "blankSeq sc (len - (i + 2)) (i + 3) buf",
  "claim": "C37 first parameter byte of an escape survives / out of bounds"
 },
 {
  "definition": "blankSeq",
  "file": "Verif/Model/Terminal.lean",
  "old": "if isAlphaC sc c then wr buf j 0",
  "new": "if isAlphaC sc c then some buf",
  "claim": "C37 final letter of an escape is printed"
 },
 {
  "definition": "filterAnsi",
  "file": "Verif/Model/Terminal.lean",
  "old": "if color then some text",
  "new": "if !color then some text",
  "claim": "C37 colors off prints raw escapes"
 },
 {
  "definition": "colorMode",
  "file": "Verif/Model/Terminal.lean",
  "old": "if var = some b!\"never\" then false else isatty",
  "new": "if var = some b!\"never\" then isatty else false",
  "claim": "C37 mode"
 },
 {
  "definition": "skipNul",
  "file": "Verif/Model/Terminal.lean",
  "old": "if c ≠ 0 then some j else skipNul buf n (j + 1)",
  "new": "if c ≠ 0 then some (j + 1) else skipNul buf n (j + 1)",
  "claim": "C37 a byte after an escape is lost"
 },
 {
  "definition": "filterAnsi",
  "file": "Verif/Model/Terminal.lean",
  "old": "blankLoop sc len (len - 2) 0 buf",
  "new": "blankLoop sc len (len - 3) 0 buf",
  "claim": "C37 escape at the very end not removed"
 },
 {
  "definition": "peerCmp",
  "file": "Verif/Model/Show.lean",
  "old": "if diff < 0 then 1 else if diff > 0 then -1 else 0",
  "new": "if diff < 0 then -1 else if diff > 0 then 1 else 0",
  "claim": "C35 oldest first"
 },
 {
  "definition": "peerCmp",
  "file": "Verif/Model/Show.lean",
  "old": "a.handshakeNsec - b.handshakeNsec else diff",
  "new": "b.handshakeNsec - a.handshakeNsec else diff",
  "claim": "C35 nanoseconds swapped"
 },
 {
  "definition": "peerCmp",
  "file": "Verif/Model/Show.lean",
  "old": "if a.handshakeSec = 0 ∧ a.handshakeNsec = 0 ∧ (b.handshakeSec ≠ 0 ∨ b.handshakeNsec ≠ 0) then 1",
  "new": "if a.handshakeSec = 0 ∧ a.handshakeNsec = 0 ∧ (b.handshakeSec ≠ 0 ∨ b.handshakeNsec ≠ 0) then -1",
  "claim": "C35 peers without handshake first"
 },
 {
  "definition": "maskedKey",
  "file": "Verif/Model/Show.lean",
  "old": "if hideVar = some b!\"never\" then keyToBase64 k else b!\"(hidden)\"",
  "new": "if hideVar ≠ some b!\"never\" then keyToBase64 k else b!\"(hidden)\"",
  "claim": "C33 keys printed by default"
 },
 {
  "definition": "prettyPeer",
  "file": "Verif/Model/Show.lean",
  "old": "maskedKey env.hideVar p.presharedKey",
  "new": "keyToBase64 p.presharedKey",
  "claim": "C33 preshared key printed"
 },
 {
  "definition": "prettyTime",
  "file": "Verif/Model/Show.lean",
  "old": "let hours := left / (60 * 60)",
  "new": "let hours := left / (24 * 60)",
  "claim": "C36 wrong divisor"
 },
 {
  "definition": "prettyTime",
  "file": "Verif/Model/Show.lean",
  "old": "let seconds := left % 60",
  "new": "let seconds := left % 61",
  "claim": "C36 wrong modulus"
 },
 {
  "definition": "timePart",
  "file": "Verif/Model/Show.lean",
  "old": "if n = 1 then [] else b!\"s\"",
  "new": "if n > 1 then [] else b!\"s\"",
  "claim": "C36 plural inverted"
 },
 {
  "definition": "timePart",
  "file": "Verif/Model/Show.lean",
  "old": "if offset ≠ 0 then b!\", \" else []",
  "new": "if offset = 0 then b!\", \" else []",
  "claim": "C36 separators wrong"
 },
 {
  "definition": "every",
  "file": "Verif/Model/Show.lean",
  "old": "prettyTime (1024 - 6 - 1) seconds.toNat",
  "new": "prettyTime 32 seconds.toNat",
  "claim": "C36 buffer too small"
 },
 {
  "definition": "dumpPrint",
  "file": "Verif/Model/Show.lean",
  "old": "maybeKey d.privateKey d.flags.hasPrivateKey ++ [9] ++ maybeKey d.publicKey d.flags.hasPublicKey ++ [9]",
  "new": "maybeKey d.publicKey d.flags.hasPublicKey ++ [9] ++ maybeKey d.privateKey d.flags.hasPrivateKey ++ [9]",
  "claim": "C34 columns swapped"
 },
 {
  "definition": "dumpPrint",
  "file": "Verif/Model/Show.lean",
  "old": "showDec p.rx ++ [9] ++ showDec p.tx ++ [9] ++ keepaliveText",
  "new": "showDec p.tx ++ [9] ++ showDec p.rx ++ [9] ++ keepaliveText",
  "claim": "C34 rx tx swapped"
 },
 {
  "definition": "dumpPrint",
  "file": "Verif/Model/Show.lean",
  "old": "ipsText env c!\",\" 9 p.allowedIPs",
  "new": "ipsText env 9 9 p.allowedIPs",
  "claim": "C34 allowed ips split into columns"
 },
 {
  "definition": "keepaliveText",
  "file": "Verif/Model/Show.lean",
  "old": "if n ≠ 0 then showDec n.toNat else b!\"off\"",
  "new": "showDec n.toNat",
  "claim": "C34 off missing"
 },
 {
  "definition": "uglyPrint",
  "file": "Verif/Model/Show.lean",
  "old": "some (d.peers.flatMap fun p => i ++ keyToBase64 p.publicKey ++ [9] ++ showDec p.rx ++ [9] ++ showDec p.tx ++ [10])",
  "new": "some (d.peers.flatMap fun p => i ++ keyToBase64 p.publicKey ++ [9] ++ showDec p.rx ++ [9] ++ showDec p.rx ++ [10])",
  "claim": "C34 transfer lists rx twice"
 },
 {
  "definition": "markText",
  "file": "Verif/Model/Show.lean",
  "old": "if m ≠ 0 then b!\"0x\" ++ showHex m.toNat else b!\"off\"",
  "new": "if m ≠ 0 then showHex m.toNat else b!\"off\"",
  "claim": "C34 0x missing"
 },
 {
  "definition": "showAllLoop",
  "file": "Verif/Model/Show.lean",
  "old": "let r := showAllLoop env ipc param 0 rest; ⟨r.end_, o ++ r.out⟩",
  "new": "let r := showAllLoop env ipc param ret rest; ⟨r.end_, o ++ r.out⟩",
  "claim": "C48 status not cleared"
 },
 {
  "definition": "showAll",
  "file": "Verif/Model/Show.lean",
  "old": "(if names = [] then 0 else 1) names",
  "new": "1 names",
  "claim": "C48 no interface is an error"
 },
 {
  "definition": "showOne",
  "file": "Verif/Model/Show.lean",
  "old": "    if code < 0 then ⟨.ok 1, []⟩\n    else\n      match dev with\n      | none => ⟨.ub, []⟩\n      | some d =>\n        match param",
  "new": "    if code ≠ 0 then ⟨.ok 1, []⟩\n    else\n      match dev with\n      | none => ⟨.ub, []⟩\n      | some d =>\n        match param",
  "claim": "C28 counterexample no longer true (bug fixed)"
 },
 {
  "definition": "confIPs",
  "file": "Verif/Model/Show.lean",
  "old": "showDec a.cidr.toNat ++ b!\", \" ++ confIPs o l",
  "new": "showDec a.cidr.toNat ++ b!\" \" ++ confIPs o l",
  "claim": "C38 separator missing"
 },
 {
  "definition": "confEndpoint",
  "file": "Verif/Model/Show.lean",
  "old": "b!\"Endpoint = [\" ++ host ++ c!\"]\" :: c!\":\" :: service ++ [10]",
  "new": "b!\"Endpoint = \" ++ host ++ c!\":\" :: service ++ [10]",
  "claim": "C38 brackets missing"
 },
 {
  "definition": "confPeer",
  "file": "Verif/Model/Show.lean",
  "old": "if p.flags.hasPresharedKey then b!\"PresharedKey = \" ++ keyToBase64 p.presharedKey",
  "new": "if p.flags.hasPresharedKey then b!\"PresharedKey = \" ++ keyToBase64 p.publicKey",
  "claim": "C38 wrong key"
 },
 {
  "definition": "confPeer",
  "file": "Verif/Model/Show.lean",
  "old": "(if p.keepalive ≠ 0 then b!\"PersistentKeepalive = \"",
  "new": "(if p.keepalive > 1 then b!\"PersistentKeepalive = \"",
  "claim": "C38 keepalive 1 lost"
 },
 {
  "definition": "confText",
  "file": "Verif/Model/Show.lean",
  "old": "(if d.fwmark ≠ 0 then b!\"FwMark = 0x\" ++",
  "new": "(if d.fwmark ≠ 0 then b!\"FwMark = \" ++",
  "claim": "C38 mark read in decimal"
 },
 {
  "definition": "confText",
  "file": "Verif/Model/Show.lean",
  "old": "if d.flags.hasPrivateKey then b!\"PrivateKey = \" ++ keyToBase64 d.privateKey",
  "new": "if d.flags.hasPrivateKey then b!\"PrivateKey = \" ++ keyToBase64 d.publicKey",
  "claim": "C38 public key as private key"
 },
 {
  "definition": "namesText",
  "file": "Verif/Model/Show.lean",
  "old": "n ++ [c!\" \"] ++ namesText l",
  "new": "n ++ namesText l",
  "claim": "C48 interface names run together"
 }
]