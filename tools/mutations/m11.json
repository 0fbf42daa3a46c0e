[
 {
  "definition": "ipcSet",
  "file": "Verif/Model/Ipc.lean",
  "old": "userspaceSetReply sys.env.sc a.1 a.2",
  "new": "userspaceSetReply sys.env.sc 0 a.2",
  "claim": "C62 errno of the reply lost (retest)",
  "count": 1,
  "tightened": [
   "c24_set_code",
   "c62_socket_code"
  ]
 },
 {
  "definition": "Host.cfg",
  "file": "Verif/Model/QuickMain.lean",
  "old": "file := p.configFile",
  "new": "file := p.iface",
  "claim": "C64 configuration file lost (retest)",
  "count": 1,
  "tightened": [
   "c64_save"
  ]
 },
 {
  "definition": "carry",
  "file": "Verif/Model/EmbCurve.lean",
  "old": "if i = 15 then 38 else 1",
  "new": "if i = 15 then 19 else 1",
  "claim": "C67 wrong fold",
  "count": 1
 },
 {
  "definition": "carry",
  "file": "Verif/Model/EmbCurve.lean",
  "old": "if i = 15 then 38 else 1",
  "new": "if i = 14 then 38 else 1",
  "claim": "C67 fold at wrong limb",
  "count": 1
 },
 {
  "definition": "carry",
  "file": "Verif/Model/EmbCurve.lean",
  "old": "(\u2190 ld m o i) >>> 16\n",
  "new": "(\u2190 ld m o i) >>> 15\n",
  "claim": "C67 wrong shift",
  "count": 1
 },
 {
  "definition": "carry",
  "file": "Verif/Model/EmbCurve.lean",
  "old": "(and64 (\u2190 ld m o i) 0xffff)) m",
  "new": "(and64 (\u2190 ld m o i) 0x7fff)) m",
  "claim": "C67 wrong mask",
  "count": 1
 },
 {
  "definition": "carry",
  "file": "Verif/Model/EmbCurve.lean",
  "old": "    let m \u2190 st m o ((i + 1) % 16) y\n    st m o i",
  "new": "    let m \u2190 st m o (i + 1) y\n    st m o i",
  "claim": "C67 write outside the array",
  "count": 1
 },
 {
  "definition": "cswap",
  "file": "Verif/Model/EmbCurve.lean",
  "old": "let c := not64 (b - 1)",
  "new": "let c := not64 b",
  "claim": "C67 swap always/never",
  "count": 1
 },
 {
  "definition": "cswap",
  "file": "Verif/Model/EmbCurve.lean",
  "old": "st m q i (xor64 (\u2190 ld m q i) t)) m",
  "new": "some m) m",
  "claim": "C67 half a swap",
  "count": 1
 },
 {
  "definition": "packEnd",
  "file": "Verif/Model/EmbCurve.lean",
  "old": "0x7fff",
  "new": "0xffff",
  "claim": "C67 reduction modulo the wrong prime",
  "count": 1
 },
 {
  "definition": "packEnd",
  "file": "Verif/Model/EmbCurve.lean",
  "old": "cswap .pt .pm (1 - b) m",
  "new": "cswap .pt .pm b m",
  "claim": "C67 unreduced kept",
  "count": 1
 },
 {
  "definition": "packEnd",
  "file": "Verif/Model/EmbCurve.lean",
  "old": "let b := and64 ((\u2190 ld m .pm 15) >>> 16) 1",
  "new": "let b := and64 ((\u2190 ld m .pm 15) >>> 15) 1",
  "claim": "C67 wrong borrow bit",
  "count": 1
 },
 {
  "definition": "packRound",
  "file": "Verif/Model/EmbCurve.lean",
  "old": "0xffed",
  "new": "0xffec",
  "claim": "C67 wrong prime",
  "count": 1
 },
 {
  "definition": "packRound",
  "file": "Verif/Model/EmbCurve.lean",
  "old": "forUp 1 14",
  "new": "forUp 1 13",
  "claim": "C67 limb forgotten",
  "count": 1
 },
 {
  "definition": "pack",
  "file": "Verif/Model/EmbCurve.lean",
  "old": "forUp 0 2 (fun _ m => packRound m)",
  "new": "forUp 0 1 (fun _ m => packRound m)",
  "claim": "C67 only one subtraction",
  "count": 1
 },
 {
  "definition": "pack",
  "file": "Verif/Model/EmbCurve.lean",
  "old": "  let m \u2190 carry .pt m\n  let m \u2190 carry .pt m\n  let m \u2190 carry .pt m\n  let m \u2190 forUp 0 2",
  "new": "  let m \u2190 carry .pt m\n  let m \u2190 forUp 0 2",
  "claim": "C67 carries left",
  "count": 1
 },
 {
  "definition": "pack",
  "file": "Verif/Model/EmbCurve.lean",
  "old": "((\u2190 ld m .pt i) >>> 8))) out",
  "new": "((\u2190 ld m .pt i) >>> 7))) out",
  "claim": "C67 high byte wrong",
  "count": 1
 },
 {
  "definition": "pack",
  "file": "Verif/Model/EmbCurve.lean",
  "old": "wr 32 o (2 * i + 1)",
  "new": "wr 32 o (2 * i + 2)",
  "claim": "C67 byte outside",
  "count": 1
 },
 {
  "definition": "subtract",
  "file": "Verif/Model/EmbCurve.lean",
  "old": "(\u2190 ld m x i) - (\u2190 ld m y i)",
  "new": "(\u2190 ld m y i) - (\u2190 ld m x i)",
  "claim": "C67 operands swapped",
  "count": 1
 },
 {
  "definition": "multmod",
  "file": "Verif/Model/EmbCurve.lean",
  "old": "let t \u2190 forUp 0 15 (fun i t",
  "new": "let t \u2190 forUp 0 14 (fun i t",
  "claim": "C67 fold one short",
  "count": 1
 },
 {
  "definition": "multmod",
  "file": "Verif/Model/EmbCurve.lean",
  "old": "let t \u2190 forUp 0 15 (fun i t",
  "new": "let t \u2190 forUp 0 16 (fun i t",
  "claim": "C67 read outside",
  "count": 1
 },
 {
  "definition": "multmod",
  "file": "Verif/Model/EmbCurve.lean",
  "old": "ck (38 * (",
  "new": "ck (19 * (",
  "claim": "C67 wrong fold constant",
  "count": 1
 },
 {
  "definition": "multmod",
  "file": "Verif/Model/EmbCurve.lean",
  "old": "  let m \u2190 carry o m\n  carry o m",
  "new": "  carry o m",
  "claim": "C67 single carry: limbs too big",
  "count": 1
 },
 {
  "definition": "invert",
  "file": "Verif/Model/EmbCurve.lean",
  "old": "a \u2260 2 \u2227 a \u2260 4",
  "new": "a \u2260 2",
  "claim": "C67 wrong exponent",
  "count": 1
 },
 {
  "definition": "invert",
  "file": "Verif/Model/EmbCurve.lean",
  "old": "forDown 254",
  "new": "forDown 255",
  "claim": "C67 wrong exponent",
  "count": 1
 },
 {
  "definition": "invert",
  "file": "Verif/Model/EmbCurve.lean",
  "old": "multmod .ic .ic x m else",
  "new": "multmod .ic x x m else",
  "claim": "C67 wrong product",
  "count": 1
 },
 {
  "definition": "clampKey",
  "file": "Verif/Model/EmbCurve.lean",
  "old": "&&& 127) ||| 64",
  "new": "&&& 127) ||| 128",
  "claim": "C67 wrong clamp",
  "count": 1
 },
 {
  "definition": "clampKey",
  "file": "Verif/Model/EmbCurve.lean",
  "old": "&&& 248",
  "new": "&&& 252",
  "claim": "C67 wrong clamp",
  "count": 1
 },
 {
  "definition": "ladderStep",
  "file": "Verif/Model/EmbCurve.lean",
  "old": "((\u2190 rd 32 z (i >>> 3)).toNat >>> (i &&& 7))",
  "new": "((\u2190 rd 32 z (i >>> 3)).toNat >>> (i &&& 3))",
  "claim": "C67 wrong bit",
  "count": 1
 },
 {
  "definition": "ladderStep",
  "file": "Verif/Model/EmbCurve.lean",
  "old": "let m \u2190 cswap .c .d r m\n",
  "new": "",
  "claim": "C67 no swap of the second pair",
  "count": 1
 },
 {
  "definition": "ladderStep",
  "file": "Verif/Model/EmbCurve.lean",
  "old": "multmod .a .c .a m",
  "new": "multmod .a .c .b m",
  "claim": "C67 wrong operand",
  "count": 1
 },
 {
  "definition": "ladderStep",
  "file": "Verif/Model/EmbCurve.lean",
  "old": "multmod .c .c .a m",
  "new": "multmod .c .c .e m",
  "claim": "C67 wrong operand",
  "count": 1
 },
 {
  "definition": "ladderStep",
  "file": "Verif/Model/EmbCurve.lean",
  "old": "multmod .d .b .k9 m",
  "new": "multmod .d .b .k121665 m",
  "claim": "C67 wrong constant",
  "count": 1
 },
 {
  "definition": "initial",
  "file": "Verif/Model/EmbCurve.lean",
  "old": "0xdb41, 1",
  "new": "0xdb42, 1",
  "claim": "C67 121666",
  "count": 1
 },
 {
  "definition": "initial",
  "file": "Verif/Model/EmbCurve.lean",
  "old": "  | .c => arr [0]\n",
  "new": "",
  "claim": "C67 c uninitialized",
  "count": 1
 },
 {
  "definition": "generatePublicKey",
  "file": "Verif/Model/EmbCurve.lean",
  "old": "forDown 255 (ladderStep z)",
  "new": "forDown 254 (ladderStep z)",
  "claim": "C67 a bit of the key ignored",
  "count": 1
 },
 {
  "definition": "generatePublicKey",
  "file": "Verif/Model/EmbCurve.lean",
  "old": "let z \u2190 clampKey (keyArr privateKey)",
  "new": "let z := keyArr privateKey",
  "claim": "C67 key not clamped",
  "count": 1
 },
 {
  "definition": "generatePublicKey",
  "file": "Verif/Model/EmbCurve.lean",
  "old": "multmod .a .a .c m",
  "new": "multmod .a .a .d m",
  "claim": "C67 not divided",
  "count": 1
 },
 {
  "definition": "keyFromBase64",
  "file": "Verif/Model/EmbKeys.lean",
  "old": "s.length \u2260 44 || g 43 \u2260 61",
  "new": "s.length \u2260 44",
  "claim": "C67 last character not checked",
  "count": 1
 },
 {
  "definition": "keyFromBase64",
  "file": "Verif/Model/EmbKeys.lean",
  "old": "s.length \u2260 44 || g 43 \u2260 61",
  "new": "s.length < 44 || g 43 \u2260 61",
  "claim": "C67 longer text accepted",
  "count": 1
 },
 {
  "definition": "keyFromBase64",
  "file": "Verif/Model/EmbKeys.lean",
  "old": "(List.range 10)",
  "new": "(List.range 9)",
  "claim": "C67 a group not checked",
  "count": 1
 },
 {
  "definition": "keyFromBase64",
  "file": "Verif/Model/EmbKeys.lean",
  "old": "(val 10 >>> 31) ||| (val 10 &&& 0xff)",
  "new": "(val 10 >>> 31)",
  "claim": "C67 non-canonical text accepted",
  "count": 1
 },
 {
  "definition": "keyFromBase64",
  "file": "Verif/Model/EmbKeys.lean",
  "old": "((-errno).toInt, key)",
  "new": "(errno.toInt, key)",
  "claim": "C67 positive error",
  "count": 1
 },
 {
  "definition": "keyFromBase64",
  "file": "Verif/Model/EmbKeys.lean",
  "old": "(16 - 8 * (j % 3))",
  "new": "(8 * (j % 3))",
  "claim": "C67 bytes swapped",
  "count": 1
 },
 {
  "definition": "generatePresharedKey",
  "file": "Verif/Model/EmbKeys.lean",
  "old": "if d.map (\u00b7.length) = some 32",
  "new": "if d.isSome",
  "claim": "C67 short random accepted",
  "count": 1
 },
 {
  "definition": "generatePresharedKey",
  "file": "Verif/Model/EmbKeys.lean",
  "old": "if r.2 = 32 then",
  "new": "if r.2 \u2264 32 then",
  "claim": "C67 short read accepted",
  "count": 1
 },
 {
  "definition": "generatePresharedKey",
  "file": "Verif/Model/EmbKeys.lean",
  "old": "else if !env.openOk then none",
  "new": "else if !env.openOk then some out",
  "claim": "C67 unopened source ignored",
  "count": 1
 },
 {
  "definition": "generatePrivateKey",
  "file": "Verif/Model/EmbKeys.lean",
  "old": "let z \u2190 clampKey fun i => l.getD i 0",
  "new": "let z : Nat \u2192 UInt8 := fun i => l.getD i 0",
  "claim": "C67 not clamped",
  "count": 1
 }
]