[
 {
  "definition": "findReal",
  "file": "Verif/Model/Bsd.lean",
  "old": "if b!\"wg\".isPrefixOf cur ∧ l = b!\"\\tdescription: wg-quick: \" ++ iface then some cur",
  "new": "if l = b!\"\\tdescription: wg-quick: \" ++ iface then some cur",
  "claim": "C75/C81: only interfaces named wg*"
 },
 {
  "definition": "ifaceLine",
  "file": "Verif/Model/Bsd.lean",
  "old": "∧ 2 < r.length then",
  "new": "then",
  "claim": "C75: name line of ifconfig needs text after it"
 },
 {
  "definition": "realDarwin",
  "file": "Verif/Model/Bsd.lean",
  "old": "if diff ≥ 2 ∨ diff ≤ -2 then",
  "new": "if diff ≥ 2 then",
  "claim": "C75/C81: stale name files do not count"
 },
 {
  "definition": "realDarwin",
  "file": "Verif/Model/Bsd.lean",
  "old": "if t.status ≠ 0 then Sh.pure false\n      else\n        (call (.query [b!\"stat\"",
  "new": "if false then Sh.pure false\n      else\n        (call (.query [b!\"stat\"",
  "claim": "C81: the socket must exist"
 },
 {
  "definition": "addIfFreebsd",
  "file": "Verif/Model/Bsd.lean",
  "old": "  if r.status = 0 then Sh.pure ()\n  else if hasInfix",
  "new": "  if r.status ≤ 1 then Sh.pure ()\n  else if hasInfix",
  "claim": "C75: failing create falls back to userspace"
 },
 {
  "definition": "freeIndex",
  "file": "Verif/Model/Bsd.lean",
  "old": "decide (b!\"wg\" ++ showDec i ∉ names)",
  "new": "decide (b!\"wg\" ++ showDec (i+1) ∉ names)",
  "claim": "C75: a free name"
 },
 {
  "definition": "setDnsOpenbsd",
  "file": "Verif/Model/Bsd.lean",
  "old": "(run true (act [b!\"cp\", b!\"/etc/resolv.conf\", backupFile c])).bind",
  "new": "(run false (act [b!\"cp\", b!\"/etc/resolv.conf\", backupFile c])).bind",
  "claim": "C75: a failing backup stops up"
 },
 {
  "definition": "unsetDnsFreebsd",
  "file": "Verif/Model/Bsd.lean",
  "old": "if c.opts.dns = [] then Sh.pure () else run true (act [b!\"resolvconf\", b!\"-d\", c.iface])",
  "new": "run true (act [b!\"resolvconf\", b!\"-d\", c.iface])",
  "claim": "C81: without DNS resolvconf is not used"
 },
 {
  "definition": "unsetDnsOpenbsd",
  "file": "Verif/Model/Bsd.lean",
  "old": "run true (act [b!\"mv\", backupFile c, b!\"/etc/resolv.conf\"])",
  "new": "run true (act [b!\"cp\", backupFile c, b!\"/etc/resolv.conf\"])",
  "claim": "C75/C81: the backup is moved back"
 },
 {
  "definition": "collectService",
  "file": "Verif/Model/Bsd.lean",
  "old": "if lookup s.svcDns service ≠ [] then Sh.pure ()\n  else",
  "new": "if false then Sh.pure ()\n  else",
  "claim": "C75 (DNS of services recorded once)"
 },
 {
  "definition": "delRoutes",
  "file": "Verif/Model/Bsd.lean",
  "old": "(routeDelete b!\"-inet6\" d)) ((readLoopLines r6.out)",
  "new": "(routeDelete b!\"-inet6\" d)) ((readLoopLines r4.out)",
  "claim": "C75: v6 routes removed"
 },
 {
  "definition": "ownRoute6",
  "file": "Verif/Model/Bsd.lean",
  "old": "(b!\"lo\".isPrefixOf netif ∧ wordAt 1 line = real)",
  "new": "(b!\"lo\".isPrefixOf netif ∧ wordAt 0 line = real)",
  "claim": "C75: own v6 routes"
 },
 {
  "definition": "waitGone",
  "file": "Verif/Model/Bsd.lean",
  "old": "if r.status = 0 then (run true (.query [b!\"sleep\"",
  "new": "if r.status ≠ 0 then (run true (.query [b!\"sleep\"",
  "claim": "C81: waits until it is gone"
 },
 {
  "definition": "delIf",
  "file": "Verif/Model/Bsd.lean",
  "old": "(if t.status = 0 then run true (act [b!\"rm\", b!\"-f\", sockFile c.iface])",
  "new": "(if t.status ≠ 0 then run true (act [b!\"rm\", b!\"-f\", sockFile c.iface])",
  "claim": "C81: kernel interface destroyed"
 },
 {
  "definition": "hookText",
  "file": "Verif/Model/Bsd.lean",
  "old": "subst c!\"I\" c.iface (subst c!\"i\" real h)",
  "new": "subst c!\"i\" real (subst c!\"I\" c.iface h)",
  "claim": "C75/C81: order of replacements (a %i in the name is not replaced)"
 },
 {
  "definition": "addAddr",
  "file": "Verif/Model/Bsd.lean",
  "old": "{ s with first6 := if s.first6 = [] then beforeLastSlash a else s.first6 }",
  "new": "{ s with first6 := beforeLastSlash a }",
  "claim": "C78: first address of the family"
 },
 {
  "definition": "mtuFrom",
  "file": "Verif/Model/Bsd.lean",
  "old": "Sh.pure (max mtu (digitsVal 10 d))",
  "new": "Sh.pure (min mtu (digitsVal 10 d))",
  "claim": "C79: largest MTU"
 },
 {
  "definition": "autoMtuDarwin",
  "file": "Verif/Model/Bsd.lean",
  "old": "(if mtu = 0 then 1500 else (mtu : Int)) - 80",
  "new": "(if mtu = 0 then 1500 else (mtu : Int)) - 60",
  "claim": "C79: 80 less"
 },
 {
  "definition": "gatewayIn",
  "file": "Verif/Model/Bsd.lean",
  "old": "¬ (p = .darwin ∧ b!\"link#\".isPrefixOf (wordAt 1 l))",
  "new": "¬ (b!\"link#\".isPrefixOf (wordAt 1 l))",
  "claim": "C76: gateway of FreeBSD/OpenBSD"
 },
 {
  "definition": "setDirect",
  "file": "Verif/Model/Bsd.lean",
  "old": "let all := decide (s0.gw4 ≠ s.gw4 ∨ s0.gw6 ≠ s.gw6)",
  "new": "let all := decide (s0.gw4 ≠ s.gw4)",
  "claim": "C76: follows the v6 gateway"
 },
 {
  "definition": "dropDirect",
  "file": "Verif/Model/Bsd.lean",
  "old": "if all = false ∧ listed e s.endpoints then Sh.pure ()",
  "new": "if listed e s.endpoints then Sh.pure ()",
  "claim": "C76: old routes removed when the gateway changes"
 },
 {
  "definition": "directVia",
  "file": "Verif/Model/Bsd.lean",
  "old": "[b!\"127.0.0.1\", b!\"-blackhole\"]",
  "new": "[b!\"127.0.0.1\", b!\"-reject\"]",
  "claim": "C76: blackhole without gateway"
 },
 {
  "definition": "addHalves",
  "file": "Verif/Model/Bsd.lean",
  "old": "b!\"8000::/1\"",
  "new": "b!\"::/1\"",
  "claim": "C78: both halves"
 },
 {
  "definition": "addNet",
  "file": "Verif/Model/Bsd.lean",
  "old": "if throughIf s.real (chomp q.out) then Sh.pure () else",
  "new": "if false then Sh.pure () else",
  "claim": "C78: no second route"
 },
 {
  "definition": "addRoute",
  "file": "Verif/Model/Bsd.lean",
  "old": "if (if isV6 r then s.first6 else s.first4) = [] then exitWith 1",
  "new": "if s.first4 = [] then exitWith 1",
  "claim": "C78: needs an address of the family"
 },
 {
  "definition": "upBody",
  "file": "Verif/Model/Bsd.lean",
  "old": "(upDnsEarly c).bind fun _ =>\n  get",
  "new": "get",
  "claim": "C75: DNS set"
 },
 {
  "definition": "cmdUp",
  "file": "Verif/Model/Bsd.lean",
  "old": "if b then exitWith 1",
  "new": "if false then exitWith 1",
  "claim": "C75: existing interface refused"
 },
 {
  "definition": "monitorStep",
  "file": "Verif/Model/Bsd.lean",
  "old": "if i.status ≠ 0 then Sh.pure false",
  "new": "if i.status ≠ 0 then Sh.pure true",
  "claim": "C76: monitor ends when the interface is gone"
 },
 {
  "definition": "monitorDarwin",
  "file": "Verif/Model/Bsd.lean",
  "old": "(if c.opts.mtu = [] then setMtu c else Sh.pure ())",
  "new": "(Sh.pure ())",
  "claim": "C79: MTU follows on macOS"
 },
 {
  "definition": "netstatAddrsOpenbsd",
  "file": "Verif/Model/Bsd.lean",
  "old": "!hasInfix b!\"Link\" (wordAt 2 l)",
  "new": "!hasInfix b!\"Link\" (wordAt 3 l)",
  "claim": "C80: link lines are not addresses"
 },
 {
  "definition": "netstatAddrs",
  "file": "Verif/Model/Bsd.lean",
  "old": "| _ :: ls => some (ls.map (wordAt 3))\n\n/-- o:346",
  "new": "| ls => some (ls.map (wordAt 3))\n\n/-- o:346",
  "claim": "C80: heading is not an address"
 },
 {
  "definition": "inetWord",
  "file": "Verif/Model/Bsd.lean",
  "old": "if b!\"inet6 \".isPrefixOf t then t.drop 6 else []",
  "new": "[]",
  "claim": "C80: v6 addresses saved on macOS"
 },
 {
  "definition": "savedDns",
  "file": "Verif/Model/Bsd.lean",
  "old": "| _ => Sh.pure c.opts.dns",
  "new": "| _ => Sh.pure []",
  "claim": "C80: DNS saved"
 },
 {
  "definition": "savedMtu",
  "file": "Verif/Model/Bsd.lean",
  "old": "if o.mtu = [] then none else some o.mtu",
  "new": "none",
  "claim": "C80: MTU saved"
 },
 {
  "definition": "saveConfig",
  "file": "Verif/Model/Bsd.lean",
  "old": "if r.status ≠ 0 then exitWith r.status\n  else\n    (setTrap .save)",
  "new": "if false then exitWith r.status\n  else\n    (setTrap .save)",
  "claim": "C80: failing showconf writes nothing"
 },
 {
  "definition": "saveConfig",
  "file": "Verif/Model/Bsd.lean",
  "old": "    (setTrap .save).bind fun _ =>\n",
  "new": "",
  "claim": "C80: temporary file removed on failure"
 },
 {
  "definition": "saveBody",
  "file": "Verif/Model/Bsd.lean",
  "old": "(run true (act [b!\"sync\", tmpFile c])).bind",
  "new": "(run false (act [b!\"sync\", tmpFile c])).bind",
  "claim": "C80: crash safety with failing sync"
 },
 {
  "definition": "checkIface",
  "file": "Verif/Model/Bsd.lean",
  "old": "then Sh.pure () else exitWith 1\n  | .openbsd",
  "new": "then Sh.pure () else Sh.pure ()\n  | .openbsd",
  "claim": "C81: missing interface refused"
 },
 {
  "definition": "cmdDown",
  "file": "Verif/Model/Bsd.lean",
  "old": "  (delIf c).bind fun _ =>\n  (match",
  "new": "  (match",
  "claim": "C81: interface removed"
 },
 {
  "definition": "cmdDown",
  "file": "Verif/Model/Bsd.lean",
  "old": "(executeHooks c c.opts.preDown).bind fun _ =>\n  (if c.opts.saveConfig then saveConfig c else Sh.pure ()).bind fun _ =>",
  "new": "(if c.opts.saveConfig then saveConfig c else Sh.pure ()).bind fun _ =>\n  (executeHooks c c.opts.preDown).bind fun _ =>",
  "claim": "C81: order of the steps"
 },
 {
  "definition": "trapBody",
  "file": "Verif/Model/Bsd.lean",
  "old": "| .save => (run true (act [b!\"rm\", b!\"-f\", tmpFile c])).bind fun _ => cleanIf c",
  "new": "| .save => (run true (act [b!\"rm\", b!\"-f\", c.file])).bind fun _ => cleanIf c",
  "claim": "C80: the trap removes the temporary file"
 },
 {
  "definition": "trapBody",
  "file": "Verif/Model/Bsd.lean",
  "old": "| .daemon => (delRoutes c).bind fun _ =>",
  "new": "| .daemon =>",
  "claim": "C76: daemon removes routes"
 }
]