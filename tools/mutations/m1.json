[
{
"definition": "getValue",
"file": "Verif/Model/Config.lean",
"old": "if key.length ≥ line.length then none",
"new": "if key.length > line.length then none",
"claim": "C14: a setting line has a nonempty value"
},
{
"definition": "parseFwmark",
"file": "Verif/Model/Config.lean",
"old": "ret > 0xffffffff then none",
"new": "ret > 0xfffffffe then none",
"claim": "C06: fwmark 0xffffffff is accepted"
},
{
"definition": "parseKeepalive",
"file": "Verif/Model/Config.lean",
"old": "ret > 65535 then none",
"new": "ret > 65536 then none",
"claim": "C07: keepalive 65536 is refused"
},
{
"definition": "cidrOf",
"file": "Verif/Model/Config.lean",
"old": "cidr > 32 then none",
"new": "cidr > 128 then none",
"claim": "C08: IPv4 prefix at most 32"
},
{
"definition": "cidrOf",
"file": "Verif/Model/Config.lean",
"old": "    | .v6 _ => some 128",
"new": "    | .v6 _ => some 64",
"claim": "C08: missing IPv6 prefix means /128"
},
{
"definition": "validateLoop",
"file": "Verif/Model/Config.lean",
"old": "if cidr ≥ 32 * (i + 1) then true",
"new": "if cidr > 32 * (i + 1) then true",
"claim": "C09 unchanged semantics? mask shift by 32 at the boundary"
},
{
"definition": "parseKeyfile",
"file": "Verif/Model/Config.lean",
"old": "else if f.errAt ≠ none then none",
"new": "else if false then none",
"claim": "C16: a read error refuses the file"
},
{
"definition": "resolveLoop",
"file": "Verif/Model/Config.lean",
"old": "      | some 0 => (.fail, tick + 1, [])\n",
"new": "      | some 0 => (.running, tick + 1, [])\n",
"claim": "C17: resolution fails when the retries are used up"
},
{
"definition": "splitEndpoint",
"file": "Verif/Model/Config.lean",
"old": "      | 58 :: port => if port = [] then none else some (rest.takeWhile (· ≠ 93), port)",
"new": "      | 58 :: port => some (rest.takeWhile (· ≠ 93), port)",
"claim": "C18: empty port refused"
},
{
"definition": "processLine",
"file": "Verif/Model/Config.lean",
"old": "{ p with allowedIPs := p.allowedIPs ++ as, flags := { p.flags with replaceAllowedIPs := true } }\n    | none =>",
"new": "{ p with allowedIPs := as, flags := { p.flags with replaceAllowedIPs := true } }\n    | none =>",
"claim": "C14: AllowedIPs lines accumulate"
},
{
"definition": "processLine",
"file": "Verif/Model/Config.lean",
"old": "[{ flags := { replaceAllowedIPs := true } }]",
"new": "[{ }]",
"claim": "C13: peers of a file replace their allowed IPs even if none is listed"
},
{
"definition": "configReadInit",
"file": "Verif/Model/Config.lean",
"old": "{ replacePeers := true, hasPrivateKey := true, hasFwmark := true, hasListenPort := true }",
"new": "{ replacePeers := true, hasPrivateKey := true, hasFwmark := true }",
"claim": "C13: setconf resets the listen port"
},
{
"definition": "configReadFinish",
"file": "Verif/Model/Config.lean",
"old": "if ctx.device.peers.all (·.flags.hasPublicKey) then some ctx.device else none",
"new": "if ctx.device.peers.any (·.flags.hasPublicKey) then some ctx.device else none",
"claim": "C12: every peer has a public key"
},
{
"definition": "readCmdLoop",
"file": "Verif/Model/Config.lean",
"old": "if a = b!\"fwmark\" && !peer then",
"new": "if a = b!\"fwmark\" then",
"claim": "C15: device settings come before peers"
},
{
"definition": "readCmdLoop",
"file": "Verif/Model/Config.lean",
"old": "{ publicKey := k, flags := { hasPublicKey := true } }",
"new": "{ publicKey := k, flags := { hasPublicKey := true, replaceAllowedIPs := true } }",
"claim": "C15: allowed IPs not mentioned are not replaced"
},
{
"definition": "cleanLine",
"file": "Verif/Model/Config.lean",
"old": "(input.takeWhile (· ≠ c!\"#\")).filter",
"new": "(input.takeWhile (· ≠ c!\";\")).filter",
"claim": "C10: comments start with #"
},
{
"definition": "setconfMain",
"file": "Verif/Model/Setconf.lean",
"old": "    | .fail => ⟨.ok 1, []⟩\n    | .exit1 => ⟨.ok 1, []⟩\n    | .ub => ⟨.ub, []⟩\n    | .running => ⟨.running, []⟩\n    | .ok d =>\n      let d",
"new": "    | .fail => ⟨.ok 0, []⟩\n    | .exit1 => ⟨.ok 1, []⟩\n    | .ub => ⟨.ub, []⟩\n    | .running => ⟨.running, []⟩\n    | .ok d =>\n      let d",
"claim": "C11: a bad file gives a nonzero status"
},
{
"definition": "sendDevice",
"file": "Verif/Model/Setconf.lean",
"old": "if ipc.set d ≠ 0 then ⟨.ok 1, [.set d]⟩",
"new": "if ipc.set d < 0 then ⟨.ok 1, [.set d]⟩",
"claim": "C11: every failed set gives status 1"
},
{
"definition": "decChar",
"file": "Verif/Model/Encoding.lean",
"old": "(s - (90 + 1))",
"new": "(s - 90)",
"claim": "C01: 'Z' is a base64 character"
},
{
"definition": "getlines",
"file": "Verif/Model/Setconf.lean",
"old": "      | [] => [[c]]\n      | l :: ls => (c :: l) :: ls",
"new": "      | [] => []\n      | l :: ls => (c :: l) :: ls",
"claim": "C14: a last line without line feed counts"
},
{
"definition": "keyFromBase64",
"file": "Verif/Model/Encoding.lean",
"old": "(val 10 &&& 0xff)",
"new": "(val 10 &&& 0x0f)",
"claim": "C01: non-canonical trailing bits are refused"
},
{
"definition": "hexVal",
"file": "Verif/Model/Encoding.lean",
"old": "(u8ToInt cAlpha - 16)",
"new": "(u8ToInt cAlpha - 17)",
"claim": "C03: 'g' is not a hex digit"
}
]