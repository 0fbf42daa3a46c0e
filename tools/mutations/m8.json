[
 {
  "definition": "readLine",
  "file": "Verif/Model/QuickParse.lean",
  "old": "trim isIfs (raw.filter (· ≠ 0))",
  "new": "trim isIfs raw",
  "claim": "C51 NUL bytes not dropped"
 },
 {
  "definition": "bodyLines",
  "file": "Verif/Model/QuickParse.lean",
  "old": "else if readLine raw = [] then none else some (readLine raw)",
  "new": "else none",
  "claim": "C51 a last line without line feed is lost"
 },
 {
  "definition": "strippedOf",
  "file": "Verif/Model/QuickParse.lean",
  "old": "line.takeWhile (· ≠ c!\"#\")",
  "new": "line.takeWhile (· ≠ c!\";\")",
  "claim": "C54 comments kept in values"
 },
 {
  "definition": "keyOf",
  "file": "Verif/Model/QuickParse.lean",
  "old": "trim isBlank (stripped.takeWhile (· ≠ c!\"=\"))",
  "new": "(stripped.takeWhile (· ≠ c!\"=\"))",
  "claim": "C51/C54 blanks around key not trimmed"
 },
 {
  "definition": "valueOf",
  "file": "Verif/Model/QuickParse.lean",
  "old": "(stripped.dropWhile (· ≠ c!\"=\")).drop 1",
  "new": "(stripped.reverse.takeWhile (· ≠ c!\"=\")).reverse",
  "claim": "C54 value cut at the last = (hooks with = broken)"
 },
 {
  "definition": "commaWords",
  "file": "Verif/Model/QuickParse.lean",
  "old": "if c = c!\",\" then",
  "new": "if c = c!\";\" then",
  "claim": "C54 commas do not separate"
 },
 {
  "definition": "isNameserver",
  "file": "Verif/Model/QuickParse.lean",
  "old": "(v ≠ [] && v.all fun c => (48 ≤ c && c ≤ 57) || c == c!\".\") || c!\":\" ∈ v",
  "new": "(v ≠ [] && v.all fun c => (48 ≤ c && c ≤ 57) || c == c!\".\")",
  "claim": "C54 IPv6 servers taken for search domains"
 },
 {
  "definition": "readBool",
  "file": "Verif/Model/QuickParse.lean",
  "old": "if strcaseeq value b!\"true\" then some true",
  "new": "if value = b!\"true\" then some true",
  "claim": "C54 SaveConfig=True refused"
 },
 {
  "definition": "ownSetting",
  "file": "Verif/Model/QuickParse.lean",
  "old": "addresses := o.addresses ++ commaWords value",
  "new": "addresses := commaWords value",
  "claim": "C54 only last Address line counts"
 },
 {
  "definition": "ownSetting",
  "file": "Verif/Model/QuickParse.lean",
  "old": "preDown := o.preDown ++ [value]",
  "new": "postDown := o.postDown ++ [value]",
  "claim": "C54 PreDown run after"
 },
 {
  "definition": "ownSetting",
  "file": "Verif/Model/QuickParse.lean",
  "old": "postUp := o.postUp ++ [value]",
  "new": "postUp := value :: o.postUp",
  "claim": "C54 hooks in reverse order"
 },
 {
  "definition": "ownSetting",
  "file": "Verif/Model/QuickParse.lean",
  "old": "    | none => none\n  else some none",
  "new": "    | none => some (some o)\n  else some none",
  "claim": "C54 bad SaveConfig ignored"
 },
 {
  "definition": "sectionAfter",
  "file": "Verif/Model/QuickParse.lean",
  "old": "else if key.head? = some c!\"[\" then false else sec",
  "new": "else sec",
  "claim": "C51 MTU of peer section stripped (settings in peer sections)"
 },
 {
  "definition": "parseLine",
  "file": "Verif/Model/QuickParse.lean",
  "old": "    | some none => some (sec', keepLine o line)",
  "new": "    | some none => some (sec', o)",
  "claim": "C51 wg's own interface settings dropped"
 },
 {
  "definition": "parseConf",
  "file": "Verif/Model/QuickParse.lean",
  "old": "parseLoop false {} (bodyLines content)",
  "new": "parseLoop true {} (bodyLines content)",
  "claim": "C51/C54 settings before any section accepted"
 },
 {
  "definition": "stripText",
  "file": "Verif/Model/QuickParse.lean",
  "old": "o.wgConfig ++ [10]",
  "new": "o.wgConfig",
  "claim": "C51 output without final line feed"
 },
 {
  "definition": "isNameByte",
  "file": "Verif/Model/QuickParse.lean",
  "old": "|| c == c!\"-\"",
  "new": "|| c == c!\"-\" || c == c!\"/\"",
  "claim": "C55 slash in names"
 },
 {
  "definition": "isName",
  "file": "Verif/Model/QuickParse.lean",
  "old": "s.length ≤ 15",
  "new": "s.length ≤ 16",
  "claim": "C55 16-byte names"
 },
 {
  "definition": "nameAt",
  "file": "Verif/Model/QuickParse.lean",
  "old": "match (if start then tryName rest else none) with",
  "new": "match tryName rest with",
  "claim": "C55 name = a suffix of the last component"
 },
 {
  "definition": "parseOptions",
  "file": "Verif/Model/QuickParse.lean",
  "old": "some ⟨iface, file, o⟩",
  "new": "some ⟨iface, path, o⟩",
  "claim": "C55/C52 file not resolved"
 },
 {
  "definition": "guarded",
  "file": "Verif/Model/QuickRun.lean",
  "old": "  | (.exit n, s) => onExit cleanup n w s\n  | (.signal n, s) =>",
  "new": "  | (.exit n, s) => (.exit n, s)\n  | (.signal n, s) =>",
  "claim": "C50 no cleanup when a command fails"
 },
 {
  "definition": "addIf",
  "file": "Verif/Model/QuickRun.lean",
  "old": "else run true (.act [c.userspace, c.iface] [])",
  "new": "else run false (.act [c.userspace, c.iface] [])",
  "claim": "C50 failing userspace implementation ignored"
 },
 {
  "definition": "substI",
  "file": "Verif/Model/QuickRun.lean",
  "old": "then iface ++ substI iface t",
  "new": "then iface ++ t",
  "claim": "C50/C58 only first %i replaced"
 },
 {
  "definition": "mtuFrom",
  "file": "Verif/Model/QuickRun.lean",
  "old": "  | some d => Sh.pure (max mtu (digitsVal 10 d))\n  | none =>\n    match devIn",
  "new": "  | some d => Sh.pure (digitsVal 10 d)\n  | none =>\n    match devIn",
  "claim": "C56 last MTU rather than largest"
 },
 {
  "definition": "minus80",
  "file": "Verif/Model/QuickRun.lean",
  "old": "else showDec (n - 80)",
  "new": "else showDec (n - 60)",
  "claim": "C56 60 less"
 },
 {
  "definition": "setMtuUp",
  "file": "Verif/Model/QuickRun.lean",
  "old": "if mtu = 0 then 1500 else mtu",
  "new": "if mtu = 0 then 1420 else mtu",
  "claim": "C56 default 1420"
 },
 {
  "definition": "mtuDefault",
  "file": "Verif/Model/QuickRun.lean",
  "old": "if mtu = 0 then\n    (call",
  "new": "if mtu ≠ 0 then\n    (call",
  "claim": "C56 default route consulted in the wrong case"
 },
 {
  "definition": "endpointHost",
  "file": "Verif/Model/QuickRun.lean",
  "old": "|| c == c!\":\" || c == c!\".\")",
  "new": "|| c == c!\".\")",
  "claim": "C56 IPv6 endpoints ignored"
 },
 {
  "definition": "resolvText",
  "file": "Verif/Model/QuickRun.lean",
  "old": "(fun d => b!\"nameserver \" ++ d ++ [10])",
  "new": "(fun d => b!\"search \" ++ d ++ [10])",
  "claim": "C50/C59 DNS servers as search"
 },
 {
  "definition": "setDns",
  "file": "Verif/Model/QuickRun.lean",
  "old": "fun pre => (run true (dnsAdd c pre)).bind fun _ => setHaveDns",
  "new": "fun pre => setHaveDns.bind fun _ => run true (dnsAdd c pre)",
  "claim": "C50 (order) flag set before resolvconf (fixes the signal finding)"
 },
 {
  "definition": "setDns",
  "file": "Verif/Model/QuickRun.lean",
  "old": "(run true (dnsAdd c pre)).bind fun _ => setHaveDns",
  "new": "run true (dnsAdd c pre)",
  "claim": "C50 DNS not undone after a later failure"
 },
 {
  "definition": "unsetDns",
  "file": "Verif/Model/QuickRun.lean",
  "old": "if c.opts.dns = [] then Sh.pure ()\n  else ifacePrefix.bind fun pre => run e (dnsDelete c pre)",
  "new": "Sh.pure ()",
  "claim": "C58 DNS not removed"
 },
 {
  "definition": "getFwmark",
  "file": "Verif/Model/QuickRun.lean",
  "old": "chomp r.out = [] ∨ chomp r.out = b!\"off\"",
  "new": "chomp r.out = []",
  "claim": "C57 off taken as a mark"
 },
 {
  "definition": "nftDelete",
  "file": "Verif/Model/QuickRun.lean",
  "old": "(b!\" wg-quick-\" ++ c.iface).isSuffixOf t",
  "new": "(b!\"wg-quick-\" ++ c.iface).isSuffixOf t",
  "claim": "C61 deletes my-wg-quick-wg0"
 },
 {
  "definition": "iptRestore",
  "file": "Verif/Model/QuickRun.lean",
  "old": "++ c.iface ++ b!\"\\\"\") (l.drop 3)",
  "new": "++ c.iface) (l.drop 3)",
  "claim": "C61 rules of wg01 deleted"
 },
 {
  "definition": "removeFirewall",
  "file": "Verif/Model/QuickRun.lean",
  "old": "(removeIpt c e b!\"iptables\").bind fun _ => removeIpt c e b!\"ip6tables\"",
  "new": "removeIpt c e b!\"iptables\"",
  "claim": "C61 ip6tables rules left"
 },
 {
  "definition": "hasDefaultRoute",
  "file": "Verif/Model/QuickRun.lean",
  "old": "|| (t.drop 2).head? = some 10)",
  "new": "|| true)",
  "claim": "C60 10.0.0.0/08 style or /01 taken for default? (any /0…)"
 },
 {
  "definition": "removeRules",
  "file": "Verif/Model/QuickRun.lean",
  "old": "(ruleLoop b!\"-6\" (b!\"lookup \" ++ table) [table] c.patience).bind fun _ =>",
  "new": "(ruleLoop b!\"-4\" (b!\"lookup \" ++ table) [table] c.patience).bind fun _ =>",
  "claim": "C60 IPv6 lookup rule left"
 },
 {
  "definition": "removeDefault",
  "file": "Verif/Model/QuickRun.lean",
  "old": "if c.opts.table = [] ∨ c.opts.table = b!\"auto\" then\n    (getFwmark",
  "new": "if c.opts.table = [] then\n    (getFwmark",
  "claim": "C60 Table=auto rules left"
 },
 {
  "definition": "delIf",
  "file": "Verif/Model/QuickRun.lean",
  "old": "(if d then unsetDns c true else Sh.pure ()).bind fun _ =>",
  "new": "",
  "claim": "C50 DNS stays after failed up"
 },
 {
  "definition": "delIf",
  "file": "Verif/Model/QuickRun.lean",
  "old": "  (removeDefault c).bind fun _ =>\n  run true (linkDelete c)",
  "new": "  (run true (linkDelete c)).bind fun _ => removeDefault c",
  "claim": "C60 rules looked up after the interface is gone / C50 order"
 },
 {
  "definition": "freeTable",
  "file": "Verif/Model/QuickRun.lean",
  "old": "if chomp r6.out ≠ [] then freeTable n (table + 1) else Sh.pure table",
  "new": "Sh.pure table",
  "claim": "C57 table with IPv6 routes used"
 },
 {
  "definition": "markTable",
  "file": "Verif/Model/QuickRun.lean",
  "old": "freeTable c.patience 51820",
  "new": "freeTable c.patience 51821",
  "claim": "C57 first table"
 },
 {
  "definition": "inetAddr",
  "file": "Verif/Model/QuickRun.lean",
  "old": "rest.head? = some c!\"/\"",
  "new": "True",
  "claim": "C57 address without prefix in firewall"
 },
 {
  "definition": "addDefault",
  "file": "Verif/Model/QuickRun.lean",
  "old": "b!\"rule\", b!\"add\", b!\"not\", b!\"fwmark\", table",
  "new": "b!\"rule\", b!\"add\", b!\"fwmark\", table",
  "claim": "C57 rule selects marked packets"
 },
 {
  "definition": "addDefault",
  "file": "Verif/Model/QuickRun.lean",
  "old": "(readLoopLines a.out).filterMap inetAddr)))).bind fun _ =>\n  setHaveFw",
  "new": "(readLoopLines a.out).filterMap inetAddr)))).bind fun _ =>\n  Sh.pure ()",
  "claim": "C50 firewall stays after failure"
 },
 {
  "definition": "addRoute",
  "file": "Verif/Model/QuickRun.lean",
  "old": "if c.opts.table = b!\"off\" then Sh.pure ()\n  else",
  "new": "",
  "claim": "C57 Table=off adds routes"
 },
 {
  "definition": "addRoute",
  "file": "Verif/Model/QuickRun.lean",
  "old": "if chomp q.out ≠ [] then Sh.pure ()",
  "new": "if chomp q.out = [] then Sh.pure ()",
  "claim": "C57 skips the wrong networks"
 },
 {
  "definition": "routesIn",
  "file": "Verif/Model/QuickRun.lean",
  "old": "(wordsAux [] (afterFirst line)).filter isRoute",
  "new": "(wordsAux [] line).filter isRoute",
  "claim": "C57 key taken as route"
 },
 {
  "definition": "upBody",
  "file": "Verif/Model/QuickRun.lean",
  "old": "  (executeHooks c c.opts.preUp).bind fun _ =>\n  (setConfig c).bind fun _ =>",
  "new": "  (setConfig c).bind fun _ =>\n  (executeHooks c c.opts.preUp).bind fun _ =>",
  "claim": "C50/C56 PreUp after config"
 },
 {
  "definition": "upBody",
  "file": "Verif/Model/QuickRun.lean",
  "old": "(c.sort (routesIn r.out))",
  "new": "(routesIn r.out)",
  "claim": "C57 order of routes"
 },
 {
  "definition": "cmdUp",
  "file": "Verif/Model/QuickRun.lean",
  "old": "if chomp r.out ≠ [] then exitWith 1\n  else guarded",
  "new": "if r.status = 0 then exitWith 1\n  else guarded",
  "claim": "C50 existing interface check by status"
 },
 {
  "definition": "briefAddrs",
  "file": "Verif/Model/QuickRun.lean",
  "old": "if 2 ≤ sp.length ∧",
  "new": "if 3 ≤ sp.length ∧",
  "claim": "C59 addresses lost"
 },
 {
  "definition": "nameserverOf",
  "file": "Verif/Model/QuickRun.lean",
  "old": "b!\"nameserver \".isPrefixOf line ∧",
  "new": "",
  "claim": "C59 search lines saved as DNS"
 },
 {
  "definition": "ownText",
  "file": "Verif/Model/QuickRun.lean",
  "old": "(if o.saveConfig then b!\"SaveConfig = true\\n\" else [])",
  "new": "[]",
  "claim": "C59 SaveConfig lost"
 },
 {
  "definition": "ownText",
  "file": "Verif/Model/QuickRun.lean",
  "old": "o.preDown.flatMap (confLine b!\"PreDown\")",
  "new": "o.preDown.flatMap (confLine b!\"PostDown\")",
  "claim": "C59 PreDown becomes PostDown"
 },
 {
  "definition": "replaceFirst",
  "file": "Verif/Model/QuickRun.lean",
  "old": "new ++ (c :: t).drop pat.length",
  "new": "new ++ (c :: t)",
  "claim": "C59/C52 section header twice"
 },
 {
  "definition": "writeTmp",
  "file": "Verif/Model/QuickRun.lean",
  "old": "b!\"077\"",
  "new": "b!\"022\"",
  "claim": "C52 readable temporary file"
 },
 {
  "definition": "saveBody",
  "file": "Verif/Model/QuickRun.lean",
  "old": "(run true (syncTmp c)).bind fun _ =>",
  "new": "",
  "claim": "C52 no sync before rename"
 },
 {
  "definition": "saveBody",
  "file": "Verif/Model/QuickRun.lean",
  "old": "if r.status ≠ 0 then exitWith 1\n  else\n    (run",
  "new": "if False then exitWith 1\n  else\n    (run",
  "claim": "C52 failed write ignored"
 },
 {
  "definition": "savedMtu",
  "file": "Verif/Model/QuickRun.lean",
  "old": "if c.opts.mtu = [] then Sh.pure none\n  else",
  "new": "",
  "claim": "C59 MTU saved though not configured"
 },
 {
  "definition": "saveConfig",
  "file": "Verif/Model/QuickRun.lean",
  "old": "if s.status ≠ 0 then exitWith s.status\n  else\n    guarded",
  "new": "if False then exitWith s.status\n  else\n    guarded",
  "claim": "C52 showconf failure ignored"
 },
 {
  "definition": "checkIface",
  "file": "Verif/Model/QuickRun.lean",
  "old": "hasInfix (b!\" \" ++ c.iface ++ b!\" \") (b!\" \" ++ chomp r.out ++ b!\" \")",
  "new": "hasInfix c.iface (chomp r.out)",
  "claim": "C58 wg0 accepted when wg01 is up"
 },
 {
  "definition": "cmdDown",
  "file": "Verif/Model/QuickRun.lean",
  "old": "  (executeHooks c c.opts.preDown).bind fun _ =>\n  (if c.opts.saveConfig then saveConfig c else Sh.pure ()).bind fun _ =>",
  "new": "  (if c.opts.saveConfig then saveConfig c else Sh.pure ()).bind fun _ =>\n  (executeHooks c c.opts.preDown).bind fun _ =>",
  "claim": "C58 saved before PreDown"
 },
 {
  "definition": "cmdDown",
  "file": "Verif/Model/QuickRun.lean",
  "old": "(unsetDns c false).bind fun _ =>\n  (removeFirewall c false)",
  "new": "(unsetDns c true).bind fun _ =>\n  (removeFirewall c false)",
  "claim": "C58 failing resolvconf aborts down"
 },
 {
  "definition": "cmdDown",
  "file": "Verif/Model/QuickRun.lean",
  "old": "(removeFirewall c false).bind fun _ =>\n  executeHooks c c.opts.postDown",
  "new": "executeHooks c c.opts.postDown",
  "claim": "C61 firewall not removed"
 }
]