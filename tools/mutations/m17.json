[
 {
  "definition": "devicePart",
  "file": "Verif/Model/WgJson.lean",
  "old": "emit (priv = b!\"(none)\")",
  "new": "emit false",
  "claim": "C91: a device without a private key shows the key (none)"
 },
 {
  "definition": "devicePart",
  "file": "Verif/Model/WgJson.lean",
  "old": "emitNum (port = b!\"0\")",
  "new": "emitNum (port = b!\"off\")",
  "claim": "C91: an unset port is shown as 0"
 },
 {
  "definition": "devicePart",
  "file": "Verif/Model/WgJson.lean",
  "old": "emitNum (mark = b!\"off\")",
  "new": "emitNum (mark = b!\"0\")",
  "claim": "C91: no output for a device without mark"
 },
 {
  "definition": "devicePart",
  "file": "Verif/Model/WgJson.lean",
  "old": "let pub := v.getD 1 []; let port",
  "new": "let pub := v.getD 0 []; let port",
  "claim": "C91: the private key is shown as the public key"
 },
 {
  "definition": "endText",
  "file": "Verif/Model/WgJson.lean",
  "old": "b!\"\\n\\t\\t}\\n\\t}\"",
  "new": "b!\"\\n\\t\\t}\\n\"",
  "claim": "C91: the object of a device is not closed"
 },
 {
  "definition": "emit",
  "file": "Verif/Model/WgJson.lean",
  "old": "(acc.1 ++ acc.2 ++ body, b!\",\\n\")",
  "new": "(acc.1 ++ acc.2 ++ body, b!\"\\n\")",
  "claim": "C91: no comma between members"
 },
 {
  "definition": "emitNum",
  "file": "Verif/Model/WgJson.lean",
  "old": "(acc.1 ++ acc.2 ++ name ++ v, b!\",\\n\")",
  "new": "(acc.1 ++ acc.2 ++ name ++ v, acc.2)",
  "claim": "C91: no comma after the first number"
 },
 {
  "definition": "peerPart",
  "file": "Verif/Model/WgJson.lean",
  "old": "let rx := v.getD 5 []; let tx := v.getD 6 []",
  "new": "let rx := v.getD 6 []; let tx := v.getD 5 []",
  "claim": "C91: received and sent swapped"
 },
 {
  "definition": "peerPart",
  "file": "Verif/Model/WgJson.lean",
  "old": "(commaWords ips).foldl",
  "new": "((commaWords ips).take 1).foldl",
  "claim": "C91: only the first allowed IP is shown"
 },
 {
  "definition": "peerPart",
  "file": "Verif/Model/WgJson.lean",
  "old": "if ips = b!\"(none)\" then [] else",
  "new": "if false then [] else",
  "claim": "C91: a peer without allowed IPs has the allowed IP (none)"
 },
 {
  "definition": "peerPart",
  "file": "Verif/Model/WgJson.lean",
  "old": "b!\"\\n\\t\\t\\t\\t]\" ++ b!\"\\n\\t\\t\\t}\"",
  "new": "b!\"\\n\\t\\t\\t\\t]\"",
  "claim": "C91: the object of a peer is not closed"
 },
 {
  "definition": "peerPart",
  "file": "Verif/Model/WgJson.lean",
  "old": "emitNum (hs = b!\"0\")",
  "new": "emitNum (rx = b!\"0\")",
  "claim": "C91: the handshake is left out when nothing was received"
 },
 {
  "definition": "peerPart",
  "file": "Verif/Model/WgJson.lean",
  "old": "b!\"\\t\\t\\t\\t\\\"persistentKeepalive\\\": \"",
  "new": "b!\"\\t\\t\\t\\t\\\"persistentKeepalive: \"",
  "claim": "C91: missing quote"
 },
 {
  "definition": "loop",
  "file": "Verif/Model/WgJson.lean",
  "old": "(loop fuel device endText b!\"\\n\" r.2)",
  "new": "(loop fuel device endText b!\",\\n\" r.2)",
  "claim": "C91: a comma before the first peer of the second device"
 },
 {
  "definition": "loop",
  "file": "Verif/Model/WgJson.lean",
  "old": "(loop fuel last fin b!\",\\n\" r.2)",
  "new": "(loop fuel last fin delim r.2)",
  "claim": "C91: no comma between peers"
 },
 {
  "definition": "loop",
  "file": "Verif/Model/WgJson.lean",
  "old": "(if last = [] then b!\"\\n\" else fin ++ b!\",\\n\")",
  "new": "(if last = [] then b!\"\\n\" else b!\",\\n\")",
  "claim": "C91: a device that is not the last one is not closed"
 },
 {
  "definition": "loop",
  "file": "Verif/Model/WgJson.lean",
  "old": "(loop fuel device endText",
  "new": "(loop fuel device []",
  "claim": "C91: devices are not closed"
 },
 {
  "definition": "number",
  "file": "Verif/Model/WgJson.lean",
  "old": "(d :: h)).map fun v => showDec (v % 2 ^ 64)",
  "new": "(d :: h)).map fun v => showDec (v % 2 ^ 16)",
  "claim": "C91: the mark is cut"
 },
 {
  "definition": "number",
  "file": "Verif/Model/WgJson.lean",
  "old": "else (valueOf 10 decDigit 0 s).map fun v => showDec (v % 2 ^ 64)",
  "new": "else (valueOf 10 decDigit 0 s).map fun v => showDec (v % 2 ^ 32)",
  "claim": "C91: counters are cut to 32 bits"
 },
 {
  "definition": "number",
  "file": "Verif/Model/WgJson.lean",
  "old": "else (valueOf 10 decDigit 0 s).map",
  "new": "else (valueOf 16 hexDigit 0 s).map",
  "claim": "C91: decimal numbers are read as hexadecimal"
 },
 {
  "definition": "fields",
  "file": "Verif/Model/WgJson.lean",
  "old": "s.takeWhile (!isIfs \u00b7) :: fields (n + 1) (s.dropWhile (!isIfs \u00b7))",
  "new": "s.takeWhile (!isIfs \u00b7) :: fields (n + 1) s",
  "claim": "C91: all fields are the first one"
 },
 {
  "definition": "readVars",
  "file": "Verif/Model/WgJson.lean",
  "old": "(input.dropWhile (\u00b7 \u2260 10)).drop 1",
  "new": "[]",
  "claim": "C91: only the first line is read"
 },
 {
  "definition": "run",
  "file": "Verif/Model/WgJson.lean",
  "old": "b!\"{\" ++ t",
  "new": "t",
  "claim": "C91: the object is not opened"
 },
 {
  "definition": "commaWords",
  "file": "Verif/Model/WgJson.lean",
  "old": "if ps.getLast? = some [] then ps.dropLast else ps",
  "new": "ps.dropLast",
  "claim": "C91: the last allowed IP is lost"
 },
 {
  "definition": "carry",
  "file": "Verif/Model/JsCurve.lean",
  "old": "(if i < 15 then 1 else 38)",
  "new": "(if i < 15 then 1 else 19)",
  "claim": "C90: wrong fold of the carry"
 },
 {
  "definition": "cswap",
  "file": "Verif/Model/JsCurve.lean",
  "old": "not32 (\u2190 ck (b - 1))",
  "new": "not32 (\u2190 ck b)",
  "claim": "C90: swap when not wanted"
 },
 {
  "definition": "packEnd",
  "file": "Verif/Model/JsCurve.lean",
  "old": "- 0x7fff)",
  "new": "- 0xffff)",
  "claim": "C90: reduction by 2^256-19 instead of 2^255-19"
 },
 {
  "definition": "packEnd",
  "file": "Verif/Model/JsCurve.lean",
  "old": "cswap .pt .pm (1 - b) m",
  "new": "cswap .pt .pm b m",
  "claim": "C90: the wrong one of the numbers is kept"
 },
 {
  "definition": "packRound",
  "file": "Verif/Model/JsCurve.lean",
  "old": "- 0xffed)",
  "new": "- 0xffee)",
  "claim": "C90: reduction by another number"
 },
 {
  "definition": "pack",
  "file": "Verif/Model/JsCurve.lean",
  "old": "forUp 0 2 (fun _ m => packRound m)",
  "new": "forUp 0 1 (fun _ m => packRound m)",
  "claim": "C90: keys between p and 2^255+... not reduced"
 },
 {
  "definition": "pack",
  "file": "Verif/Model/JsCurve.lean",
  "old": "  let m \u2190 carry .pt m\n  let m \u2190 carry .pt m\n  let m \u2190 carry .pt m\n",
  "new": "  let m \u2190 carry .pt m\n",
  "claim": "C90: limbs beyond 16 bits are packed"
 },
 {
  "definition": "multmod",
  "file": "Verif/Model/JsCurve.lean",
  "old": "  let m \u2190 carry o m\n  carry o m\n",
  "new": "  carry o m\n",
  "claim": "C90: limbs grow until doubles round"
 },
 {
  "definition": "multmod",
  "file": "Verif/Model/JsCurve.lean",
  "old": "ck (38 * (\u2190 rd 31 t (i + 16)))",
  "new": "ck (37 * (\u2190 rd 31 t (i + 16)))",
  "claim": "C90: wrong fold"
 },
 {
  "definition": "invert",
  "file": "Verif/Model/JsCurve.lean",
  "old": "if a \u2260 2 \u2227 a \u2260 4",
  "new": "if a \u2260 2 \u2227 a \u2260 3",
  "claim": "C90: wrong exponent"
 },
 {
  "definition": "clamp",
  "file": "Verif/Model/JsCurve.lean",
  "old": "&&& 127) ||| 64",
  "new": "&&& 127) ||| 32",
  "claim": "C90: the fixed bits of a private key"
 },
 {
  "definition": "clamp",
  "file": "Verif/Model/JsCurve.lean",
  "old": "&&& 248",
  "new": "&&& 252",
  "claim": "C90: the fixed bits of a private key"
 },
 {
  "definition": "ladderStep",
  "file": "Verif/Model/JsCurve.lean",
  "old": "multmod .d .b .k9 m",
  "new": "multmod .b .d .k9 m",
  "claim": "C90: swapped arguments in the ladder"
 },
 {
  "definition": "ladderStep",
  "file": "Verif/Model/JsCurve.lean",
  "old": "  let m \u2190 cswap .a .b r m\n  cswap .c .d r m",
  "new": "  cswap .a .b r m",
  "claim": "C90: one of the swaps is missing"
 },
 {
  "definition": "initial",
  "file": "Verif/Model/JsCurve.lean",
  "old": "| .b => arr [9]",
  "new": "| .b => arr [8]",
  "claim": "C90: another base point"
 },
 {
  "definition": "generatePublicKey",
  "file": "Verif/Model/JsCurve.lean",
  "old": "forDown 255 (ladderStep",
  "new": "forDown 254 (ladderStep",
  "claim": "C90: the top bit is not used"
 },
 {
  "definition": "char64",
  "file": "Verif/Model/JsCurve.lean",
  "old": "75 - and32 (sar32 (61 - x) 8) 15",
  "new": "75 - and32 (sar32 (61 - x) 8) 14",
  "claim": "C90: + is encoded wrongly"
 },
 {
  "definition": "char64",
  "file": "Verif/Model/JsCurve.lean",
  "old": "(sar32 (51 - x) 8) 75",
  "new": "(sar32 (52 - x) 8) 75",
  "claim": "C90: wrong boundary of the digits"
 },
 {
  "definition": "values64",
  "file": "Verif/Model/JsCurve.lean",
  "old": "(s 2 >>> 6)",
  "new": "(s 2 >>> 4)",
  "claim": "C90: base64 of the third value"
 },
 {
  "definition": "keyToBase64",
  "file": "Verif/Model/JsCurve.lean",
  "old": "b.set 43 61",
  "new": "b",
  "claim": "C90: no = at the end"
 },
 {
  "definition": "generateKeypair",
  "file": "Verif/Model/JsCurve.lean",
  "old": "some (keyToBase64 publicKey.toList, keyToBase64 privateKey.toList)",
  "new": "some (keyToBase64 privateKey.toList, keyToBase64 publicKey.toList)",
  "claim": "C90: keys swapped"
 }
]