[
 {
  "definition": "cmd",
  "file": "Verif/Model/Android.lean",
  "old": "if r.status.ret ≠ 0 ∧ exiting = false then exitWith",
  "new": "if r.status.ret ≠ 0 ∧ exiting = true then exitWith",
  "claim": "C87: a failed command does not stop up"
 },
 {
  "definition": "Wait.ret",
  "file": "Verif/Model/Android.lean",
  "old": "| .signaled => 5",
  "new": "| .signaled => 0",
  "claim": "C87: a command killed by a signal counts as a success"
 },
 {
  "definition": "cndc",
  "file": "Verif/Model/Android.lean",
  "old": "if 400 ≤ atoi l ∧ atoi l < 600",
  "new": "if 400 < atoi l ∧ atoi l < 600",
  "claim": "C87: an answer 400 of ndc counts as a success"
 },
 {
  "definition": "cndc",
  "file": "Verif/Model/Android.lean",
  "old": "if 400 ≤ atoi l ∧ atoi l < 600",
  "new": "if 400 ≤ atoi l ∧ atoi l < 500",
  "claim": "C87: an answer 500 of ndc counts as a success"
 },
 {
  "definition": "delIf",
  "file": "Verif/Model/Android.lean",
  "old": "(dropRules exiting items b!\"ip6tables\").bind fun _ =>\n",
  "new": "",
  "claim": "C86: the IPv6 rules are left behind"
 },
 {
  "definition": "delIf",
  "file": "Verif/Model/Android.lean",
  "old": "(strtoul (2 ^ 64 - 1) 16 hex)",
  "new": "(strtoul (2 ^ 64 - 1) 10 hex)",
  "claim": "C86: the network destroyed is not that of the rule"
 },
 {
  "definition": "ruleArgs",
  "file": "Verif/Model/Android.lean",
  "old": "matchItems items (fun s => s.head? = some c!\"\\\"\")",
  "new": "matchItems items (fun _ => true)",
  "claim": "C86: rules of interfaces whose name begins with this one are deleted"
 },
 {
  "definition": "pickNetid",
  "file": "Verif/Model/Android.lean",
  "old": "if n < 4096 then",
  "new": "if n < 4095 then",
  "claim": "C87: network numbers that are reserved",
  "note": "random() & 0xfffe is even, so 4095 is never the number: equivalent"
 },
 {
  "definition": "pickNetid",
  "file": "Verif/Model/Android.lean",
  "old": "&&& 0xfffe; if n < 4096",
  "new": "&&& 0x1fffe; if n < 4096",
  "claim": "C87: network number above 65535"
 },
 {
  "definition": "upIf",
  "file": "Verif/Model/Android.lean",
  "old": "(if block then b!\"DROP\" else b!\"ACCEPT\")",
  "new": "(if block then b!\"ACCEPT\" else b!\"DROP\")",
  "claim": "C87: IPv6 blocked when it is in use"
 },
 {
  "definition": "upIf",
  "file": "Verif/Model/Android.lean",
  "old": "(if e.sdk < 31 then b!\" vpn 1 1\" else b!\" vpn 1\")",
  "new": "(if e.sdk ≤ 31 then b!\" vpn 1 1\" else b!\" vpn 1\")",
  "claim": "C87: wrong arguments on Android 12"
 },
 {
  "definition": "upIf",
  "file": "Verif/Model/Android.lean",
  "old": "if port ≠ 0 then",
  "new": "if port = 0 then",
  "claim": "C87: the listening port is not opened"
 },
 {
  "definition": "endpointSeen",
  "file": "Verif/Model/Android.lean",
  "old": "acc.2 && start.head? = some c!\"(\"",
  "new": "acc.2 || start.head? = some c!\"(\"",
  "claim": "C87: IPv6 blocked for the wrong endpoints"
 },
 {
  "definition": "listenPort",
  "file": "Verif/Model/Android.lean",
  "old": "if n > 65535 then 0 else n",
  "new": "n",
  "claim": "C87: a port that is none"
 },
 {
  "definition": "setUsers",
  "file": "Verif/Model/Android.lean",
  "old": "let exclude := excluded.isSome || !included.isSome",
  "new": "let exclude := !included.isSome && excluded.isSome",
  "claim": "C85/C87: no application uses the tunnel when none is listed"
 },
 {
  "definition": "setDnses",
  "file": "Verif/Model/Android.lean",
  "old": "if dnses.length > 65536 then",
  "new": "if dnses.length ≥ 1 then",
  "claim": "C87: no DNS server is set"
 },
 {
  "definition": "setDnses",
  "file": "Verif/Model/Android.lean",
  "old": "(.setResolver netid d.servers d.domains)",
  "new": "(.setResolver netid d.domains d.servers)",
  "claim": "C87: servers and domains swapped"
 },
 {
  "definition": "unquoted",
  "file": "Verif/Model/Android.lean",
  "old": "s.contains c!\"'\" ||",
  "new": "",
  "claim": "C88: a quote in an address reaches the shell"
 },
 {
  "definition": "addAddr",
  "file": "Verif/Model/Android.lean",
  "old": "| [] => 32\n",
  "new": "| [] => 24\n",
  "claim": "C87: an address without length is a /24"
 },
 {
  "definition": "addAddr",
  "file": "Verif/Model/Android.lean",
  "old": "if c!\":\" ∈ addr then",
  "new": "if c!\".\" ∉ addr then",
  "claim": "C87: an IPv6 address with a dotted quad is taken for IPv4"
 },
 {
  "definition": "routeMtu",
  "file": "Verif/Model/Android.lean",
  "old": "if endpoint = b!\"default\" then b!\"ip -o route show \"",
  "new": "if endpoint ≠ b!\"default\" then b!\"ip -o route show \"",
  "claim": "C87: MTU of the wrong route"
 },
 {
  "definition": "mtuLoop",
  "file": "Verif/Model/Android.lean",
  "old": "if next > 0 ∧ next < mtu",
  "new": "if next > mtu",
  "claim": "C87: the largest MTU of the endpoints"
 },
 {
  "definition": "setMtu",
  "file": "Verif/Model/Android.lean",
  "old": "(m - 80)",
  "new": "(m - 60)",
  "claim": "C87: MTU too large"
 },
 {
  "definition": "setMtu",
  "file": "Verif/Model/Android.lean",
  "old": "if mtu ≠ 0 then cndc",
  "new": "if mtu > 1500 then cndc",
  "claim": "C87: MTU of the file ignored"
 },
 {
  "definition": "routesIn",
  "file": "Verif/Model/Android.lean",
  "old": ".filter (· ≠ b!\"(none)\")",
  "new": "",
  "claim": "C87: a route (none)"
 },
 {
  "definition": "setRoutes",
  "file": "Verif/Model/Android.lean",
  "old": "b!\" allowed-ips\"",
  "new": "b!\" endpoints\"",
  "claim": "C87: routes of the endpoints"
 },
 {
  "definition": "setConfig",
  "file": "Verif/Model/Android.lean",
  "old": "| .exited n => exitWith n\n",
  "new": "| .exited _ => Sh.pure ()\n",
  "claim": "C87: a refused configuration counts as success"
 },
 {
  "definition": "setConfig",
  "file": "Verif/Model/Android.lean",
  "old": "if r.failed ≠ 0 then exitWith r.failed\n    else match",
  "new": "match",
  "claim": "C87: wg setconf that could not be started counts as success"
 },
 {
  "definition": "broadcast",
  "file": "Verif/Model/Android.lean",
  "old": "if e.caller = some b!\"com.wireguard.android\" then Sh.pure ()",
  "new": "if e.caller = none then Sh.pure ()",
  "claim": "C87: the application is not told"
 },
 {
  "definition": "upBody",
  "file": "Verif/Model/Android.lean",
  "old": "        (setRoutes c.iface netid).bind fun _ =>\n        (setMtu c.iface c.mtu).bind fun _ =>",
  "new": "        (setMtu c.iface c.mtu).bind fun _ =>",
  "claim": "C87: no routes"
 },
 {
  "definition": "cmdUp",
  "file": "Verif/Model/Android.lean",
  "old": "| (.exit n, h) => undo c.iface n e h\n",
  "new": "| (.exit n, h) => (.exit n, h)\n",
  "claim": "C87: a failing up is not undone"
 },
 {
  "definition": "cmdUp",
  "file": "Verif/Model/Android.lean",
  "old": "| some _ => exitWith 17\n",
  "new": "| some _ => exitWith 0\n",
  "claim": "C87/C89: up of an existing interface is a success"
 },
 {
  "definition": "undo",
  "file": "Verif/Model/Android.lean",
  "old": "(delIf true iface)",
  "new": "(delIf false iface)",
  "claim": "C87: undoing ends at the first failing command"
 },
 {
  "definition": "undo",
  "file": "Verif/Model/Android.lean",
  "old": "exitWith status",
  "new": "exitWith 0",
  "claim": "C87: a failing up ends with 0"
 },
 {
  "definition": "cmdDown",
  "file": "Verif/Model/Android.lean",
  "old": "(delIf false iface)",
  "new": "(delIf true iface)",
  "claim": "C86: down is a success although the interface could not be deleted"
 },
 {
  "definition": "cmdDown",
  "file": "Verif/Model/Android.lean",
  "old": "if iface ∈ strtok",
  "new": "if iface ∉ strtok",
  "claim": "C86: down of an interface that is not there"
 },
 {
  "definition": "main",
  "file": "Verif/Model/Android.lean",
  "old": "if root then",
  "new": "if !root then",
  "claim": "C89: commands as another user"
 },
 {
  "definition": "main",
  "file": "Verif/Model/Android.lean",
  "old": "(if a = b!\"up\" then cmdUp",
  "new": "(if a ≠ b!\"up\" then cmdUp",
  "claim": "C89: up and down swapped"
 },
 {
  "definition": "main",
  "file": "Verif/Model/Android.lean",
  "old": "then .usage 0 else .usage 1",
  "new": "then .usage 0 else .usage 0",
  "claim": "C89: 0 for an unknown argument"
 },
 {
  "definition": "parseLoop",
  "file": "Verif/Model/AndroidParse.lean",
  "old": "| _, c, [] => orEmpty c",
  "new": "| _, c, [] => c",
  "claim": "C84/C87: NULL when there is no address"
 },
 {
  "definition": "ownSetting",
  "file": "Verif/Model/AndroidParse.lean",
  "old": "{ c with dnses := concatAndFree c.dnses b!\",\" (clean.drop 4) }",
  "new": "{ c with dnses := some (clean.drop 4) }",
  "claim": "C84: an earlier DNS line is lost"
 },
 {
  "definition": "sectionAfter",
  "file": "Verif/Model/AndroidParse.lean",
  "old": "if clean.head? = some c!\"[\" then false",
  "new": "if clean = b!\"[Peer]\" then false",
  "claim": "C84: settings of an unknown section are taken"
 }
]