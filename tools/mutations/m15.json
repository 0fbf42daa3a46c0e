[
 {
  "definition": "searchPaths",
  "file": "Verif/Model/BsdMain.lean",
  "old": "[b!\"/etc/wireguard\", b!\"/usr/local/etc/wireguard\"]",
  "new": "[b!\"/usr/local/etc/wireguard\", b!\"/etc/wireguard\"]",
  "claim": "C83 order of search path"
 },
 {
  "definition": "searchPaths",
  "file": "Verif/Model/BsdMain.lean",
  "old": "  | .openbsd => [b!\"/etc/wireguard\"]\n",
  "new": "",
  "claim": "C83 OpenBSD looks only in /etc/wireguard"
 },
 {
  "definition": "searchLoop",
  "file": "Verif/Model/BsdMain.lean",
  "old": "if ex p then p else searchLoop ex arg p ds",
  "new": "if ex p then searchLoop ex arg p ds else searchLoop ex arg cur ds",
  "claim": "C83 first directory that has it"
 },
 {
  "definition": "confPath",
  "file": "Verif/Model/BsdMain.lean",
  "old": "if isName arg then searchLoop h.fs.exists_ arg arg (searchPaths h.plat) else arg",
  "new": "if h.fs.exists_ arg then arg else searchLoop h.fs.exists_ arg arg (searchPaths h.plat)",
  "claim": "C83 interface name is not a file in cwd"
 },
 {
  "definition": "resolved",
  "file": "Verif/Model/BsdMain.lean",
  "old": "h.fs.cd (beforeLastSlash path)",
  "new": "h.fs.cd (afterLastSlash path)",
  "claim": "C83 file read on macOS"
 },
 {
  "definition": "resolved",
  "file": "Verif/Model/BsdMain.lean",
  "old": "| _ => some (h.fs.resolve path)",
  "new": "| _ => some path",
  "claim": "C83 link resolved"
 },
 {
  "definition": "parseOptions",
  "file": "Verif/Model/BsdMain.lean",
  "old": "match ifaceOf path with",
  "new": "match ifaceOf (h.fs.resolve path) with",
  "claim": "C83 name is that of the unresolved path"
 },
 {
  "definition": "parseOptions",
  "file": "Verif/Model/BsdMain.lean",
  "old": "match h.fs.content file with",
  "new": "match h.fs.content path with",
  "claim": "C83 which file is read"
 },
 {
  "definition": "parseOptions",
  "file": "Verif/Model/BsdMain.lean",
  "old": "  if h.fs.exists_ path then\n",
  "new": "  if h.fs.exists_ arg then\n",
  "claim": "C83 existence of file"
 },
 {
  "definition": "suArgv",
  "file": "Verif/Model/BsdMain.lean",
  "old": "[h.bash, b!\"--\", h.self] ++ args",
  "new": "[h.bash, b!\"--\", h.self] ++ args.take 1",
  "claim": "C83 same arguments"
 },
 {
  "definition": "suArgv",
  "file": "Verif/Model/BsdMain.lean",
  "old": "| .openbsd => [b!\"doas\", b!\"--\"]",
  "new": "| .openbsd => [b!\"doas\"]",
  "claim": "C83 doas --"
 },
 {
  "definition": "usage",
  "file": "Verif/Model/BsdMain.lean",
  "old": "if n = 0 then Sh.pure () else exitWith n",
  "new": "Sh.pure ()",
  "claim": "C83 wrong usage has status 1"
 },
 {
  "definition": "operatedStrip",
  "file": "Verif/Model/BsdMain.lean",
  "old": "if started c w then stripText c.opts else []",
  "new": "stripText c.opts",
  "claim": "C83 nothing printed if no temp dir"
 },
 {
  "definition": "operatedStrip",
  "file": "Verif/Model/BsdMain.lean",
  "old": "operated c (Sh.pure ()) w with",
  "new": "operated c (exitWith 1) w with",
  "claim": "C83 strip status 0"
 },
 {
  "definition": "operate",
  "file": "Verif/Model/BsdMain.lean",
  "old": "| none => operated h.bare (exitWith 1) w",
  "new": "| none => operated h.bare (Sh.pure ()) w",
  "claim": "C83 refusal status 1"
 },
 {
  "definition": "operate",
  "file": "Verif/Model/BsdMain.lean",
  "old": "  if h.root then\n",
  "new": "  if !h.root then\n",
  "claim": "C83 root"
 },
 {
  "definition": "operate",
  "file": "Verif/Model/BsdMain.lean",
  "old": "{ end_ := .exec (suArgv h args), st := s }",
  "new": "{ end_ := .exec (suArgv h args), st := (script h.bare (Sh.pure ()) w).2 }",
  "claim": "C83 temp dir left by exec"
 },
 {
  "definition": "bsdMain",
  "file": "Verif/Model/BsdMain.lean",
  "old": "operated c (cmdDown c) w\n",
  "new": "operated c (cmdUp c) w\n",
  "claim": "C83 the operation asked for"
 },
 {
  "definition": "bsdMain",
  "file": "Verif/Model/BsdMain.lean",
  "old": "\u2228 a = b!\"help\"",
  "new": "",
  "claim": "C83 help"
 },
 {
  "definition": "bsdMain",
  "file": "Verif/Model/BsdMain.lean",
  "old": "| [op, arg] =>",
  "new": "| op :: arg :: _ =>",
  "claim": "C83 exactly one argument"
 },
 {
  "definition": "operatedUp",
  "file": "Verif/Model/BsdMain.lean",
  "old": "h.plat = .darwin && h.launchd",
  "new": "h.plat = .darwin && !h.launchd",
  "claim": "C83 waits"
 },
 {
  "definition": "collectService",
  "file": "Verif/Model/Bsd.lean",
  "old": "if lookup s.svcDns service \u2260 [] then Sh.pure ()",
  "new": "if False then Sh.pure ()",
  "claim": "C82 known services are not asked again"
 },
 {
  "definition": "collectService",
  "file": "Verif/Model/Bsd.lean",
  "old": "svcDns := assign s.svcDns service (svcAnswer r.out)",
  "new": "svcDns := assign s.svcDns service r.out",
  "claim": "C82 former setting"
 },
 {
  "definition": "collectService",
  "file": "Verif/Model/Bsd.lean",
  "old": "svcSearch := assign s.svcSearch service (svcAnswer r.out)",
  "new": "svcSearch := assign s.svcSearch service []",
  "claim": "C82 former search domains"
 },
 {
  "definition": "collectServices",
  "file": "Verif/Model/Bsd.lean",
  "old": "(readLoopLines r.out).drop 1",
  "new": "readLoopLines r.out",
  "claim": "C82 header line"
 },
 {
  "definition": "collectServices",
  "file": "Verif/Model/Bsd.lean",
  "old": "svcDns := s.svcDns.filter (fun p => p.1 \u2209 gone)",
  "new": "svcDns := s.svcDns",
  "claim": "C82 vanished services"
 },
 {
  "definition": "setDnsDarwin",
  "file": "Verif/Model/Bsd.lean",
  "old": "if c.opts.dnsSearch = [] then [b!\"Empty\"] else c.opts.dnsSearch",
  "new": "c.opts.dnsSearch",
  "claim": "C82 exactly the configured domains"
 },
 {
  "definition": "setDnsDarwin",
  "file": "Verif/Model/Bsd.lean",
  "old": "    if r.status \u2260 0 then Sh.pure ()\n    else run",
  "new": "    if r.status \u2260 0 then exitWith 1\n    else run",
  "claim": "C82/C76 failing networksetup does not end the script"
 },
 {
  "definition": "delDns",
  "file": "Verif/Model/Bsd.lean",
  "old": "[b!\"networksetup\", b!\"-setsearchdomains\", service] ++ wordsAux [] (lookup s.svcSearch service)",
  "new": "[b!\"networksetup\", b!\"-setsearchdomains\", service] ++ wordsAux [] (lookup s.svcDns service)",
  "claim": "C82 former search domains"
 },
 {
  "definition": "delDns",
  "file": "Verif/Model/Bsd.lean",
  "old": "    (c.order (s.svcDns.map (\u00b7.1)))\n\n/-! ### Removal",
  "new": "    ((c.order (s.svcDns.map (\u00b7.1))).take 1)\n\n/-! ### Removal",
  "claim": "C82 every service"
 },
 {
  "definition": "monitorDarwin",
  "file": "Verif/Model/Bsd.lean",
  "old": "if c.opts.dns = [] then Sh.pure () else setDnsDarwin c\n",
  "new": "Sh.pure ()\n",
  "claim": "C82 after an event"
 },
 {
  "definition": "monitorDarwin",
  "file": "Verif/Model/Bsd.lean",
  "old": "if c.opts.dns = [] then Sh.pure () else setDnsDarwin c\n",
  "new": "setDnsDarwin c\n",
  "claim": "C82 no DNS, no setting touched"
 },
 {
  "definition": "monitorAlarm",
  "file": "Verif/Model/Bsd.lean",
  "old": "    if c.opts.dns = [] then Sh.pure ()\n    else (call",
  "new": "    if False then Sh.pure ()\n    else (call",
  "claim": "C82 no DNS, no setting touched"
 }
]