[
 {
  "definition": "endOf",
  "file": "Verif/Model/QuickMain.lean",
  "old": "| (.exit n, s) => { end_ := .exit n",
  "new": "| (.exit n, s) => { end_ := .exit 0",
  "claim": "C64 failing operation exits 0",
  "count": 1
 },
 {
  "definition": "endOf",
  "file": "Verif/Model/QuickMain.lean",
  "old": "| (.ok _, s) => { end_ := .exit 0, hist := s.hist }",
  "new": "| (.ok _, s) => { end_ := .exit 0, hist := [] }",
  "claim": "C64 commands lost",
  "count": 1
 },
 {
  "definition": "autoSu",
  "file": "Verif/Model/QuickMain.lean",
  "old": "if h.root then none",
  "new": "if true then none",
  "claim": "C64 no sudo when not root",
  "count": 1
 },
 {
  "definition": "autoSu",
  "file": "Verif/Model/QuickMain.lean",
  "old": "h.self] ++ args",
  "new": "h.self]",
  "claim": "C64 arguments dropped under sudo",
  "count": 1
 },
 {
  "definition": "autoSu",
  "file": "Verif/Model/QuickMain.lean",
  "old": "b!\"--\", h.self]",
  "new": "h.self]",
  "claim": "C64 option terminator dropped",
  "count": 1
 },
 {
  "definition": "operate",
  "file": "Verif/Model/QuickMain.lean",
  "old": "| none => { end_ := .exit 1 }",
  "new": "| none => { end_ := .exit 0 }",
  "claim": "C64 parse error exits 0",
  "count": 1
 },
 {
  "definition": "quickMain",
  "file": "Verif/Model/QuickMain.lean",
  "old": "if op = b!\"down\" then operate h args arg fun p => endOf (cmdDown",
  "new": "if op = b!\"down\" then operate h args arg fun p => endOf (cmdSave",
  "claim": "C64 down runs save",
  "count": 1
 },
 {
  "definition": "quickMain",
  "file": "Verif/Model/QuickMain.lean",
  "old": "if op = b!\"up\" then",
  "new": "if op = b!\"up\" ∨ op = b!\"start\" then",
  "claim": "C64 undocumented operation accepted",
  "count": 1
 },
 {
  "definition": "quickMain",
  "file": "Verif/Model/QuickMain.lean",
  "old": "out := stripText p.opts }",
  "new": "out := stripText p.opts, hist := [] , usage := true}",
  "claim": "C64 strip prints usage",
  "count": 1
 },
 {
  "definition": "quickMain",
  "file": "Verif/Model/QuickMain.lean",
  "old": "operate h args arg fun p => { end_",
  "new": "operate h [op] arg fun p => { end_",
  "claim": "C64 strip loses args under sudo",
  "count": 1
 },
 {
  "definition": "Host.cfg",
  "file": "Verif/Model/QuickMain.lean",
  "old": "file := p.configFile",
  "new": "file := p.iface",
  "claim": "C64 configuration file lost",
  "count": 1
 },
 {
  "definition": "epUnion",
  "file": "Verif/Model/IpcOpenbsd.lean",
  "old": "[16, 2, UInt8",
  "new": "[16, 24, UInt8",
  "claim": "C65 wrong family of IPv4 endpoints",
  "count": 1
 },
 {
  "definition": "epUnion",
  "file": "Verif/Model/IpcOpenbsd.lean",
  "old": "UInt8.ofNat (p.toNat / 256), UInt8.ofNat p.toNat] ++ a.toList ++ List.replicate 20 0",
  "new": "UInt8.ofNat p.toNat, UInt8.ofNat (p.toNat / 256)] ++ a.toList ++ List.replicate 20 0",
  "claim": "C65 port in host order",
  "count": 1
 },
 {
  "definition": "setAip",
  "file": "Verif/Model/IpcOpenbsd.lean",
  "old": "(i + 4) (leBytes 4 a.cidr",
  "new": "(i + 3) (leBytes 4 a.cidr",
  "claim": "C65 prefix length at wrong offset",
  "count": 1
 },
 {
  "definition": "setAips",
  "file": "Verif/Model/IpcOpenbsd.lean",
  "old": "setAips mem (i + 24) (n + 1) l",
  "new": "setAips mem (i + 20) (n + 1) l",
  "claim": "C65 wrong stride",
  "count": 1
 },
 {
  "definition": "setAips",
  "file": "Verif/Model/IpcOpenbsd.lean",
  "old": "(n + 1) l",
  "new": "n l",
  "claim": "C65 wrong count of allowed IPs",
  "count": 1
 },
 {
  "definition": "setPeer",
  "file": "Verif/Model/IpcOpenbsd.lean",
  "old": "p.presharedKey.toList i 4 2",
  "new": "p.presharedKey.toList i 4 4",
  "claim": "C65 wrong flag for psk",
  "count": 1
 },
 {
  "definition": "setPeer",
  "file": "Verif/Model/IpcOpenbsd.lean",
  "old": "storeFlagged p.flags.hasPresharedKey",
  "new": "storeFlagged true",
  "claim": "C65 psk always sent",
  "count": 1
 },
 {
  "definition": "setPeer",
  "file": "Verif/Model/IpcOpenbsd.lean",
  "old": "∧ len ≤ 28)",
  "new": "∧ len ≤ 16)",
  "claim": "C65 IPv6 endpoints not sent",
  "count": 1
 },
 {
  "definition": "setPeer",
  "file": "Verif/Model/IpcOpenbsd.lean",
  "old": "(orIf p.flags.removeMe mem i 4 32)",
  "new": "(orIf p.flags.removeMe mem i 4 16)",
  "claim": "C65 remove becomes replace",
  "count": 1
 },
 {
  "definition": "setPeer",
  "file": "Verif/Model/IpcOpenbsd.lean",
  "old": "(storeBytes (some r.1) (i + 136) (leBytes 8 r.2.2))",
  "new": "(storeBytes (some r.1) (i + 136) (leBytes 4 r.2.2))",
  "claim": "C65 count stored in 4 bytes (differs only beyond 2^32)",
  "count": 1
 },
 {
  "definition": "setPeers",
  "file": "Verif/Model/IpcOpenbsd.lean",
  "old": "setPeers r.1 r.2 (n + 1) l",
  "new": "setPeers r.1 (i + 144) (n + 1) l",
  "claim": "C65 peers overwrite allowed IPs",
  "count": 1
 },
 {
  "definition": "setSize",
  "file": "Verif/Model/IpcOpenbsd.lean",
  "old": "(n + 144)) 80",
  "new": "(n + 144)) 72",
  "claim": "C65 buffer too small",
  "count": 1
 },
 {
  "definition": "setBuffer",
  "file": "Verif/Model/IpcOpenbsd.lean",
  "old": "mem 40 d.privateKey",
  "new": "mem 8 d.privateKey",
  "claim": "C65 private key sent as public",
  "count": 1
 },
 {
  "definition": "setBuffer",
  "file": "Verif/Model/IpcOpenbsd.lean",
  "old": "(orIf d.flags.replacePeers mem 0 1 16)",
  "new": "(orIf true mem 0 1 16)",
  "claim": "C65 peers always replaced",
  "count": 1
 },
 {
  "definition": "kernelSet",
  "file": "Verif/Model/IpcOpenbsd.lean",
  "old": "let name := d.name.take 15",
  "new": "let name := d.name.take 14",
  "claim": "C65 name cut",
  "count": 1
 },
 {
  "definition": "kernelSet",
  "file": "Verif/Model/IpcOpenbsd.lean",
  "old": "| some e => .ok (-e, some (name, mem))",
  "new": "| some e => .ok (0, some (name, mem))",
  "claim": "C65 error swallowed",
  "count": 1
 },
 {
  "definition": "getLoop",
  "file": "Verif/Model/IpcOpenbsd.lean",
  "old": "if last ≥ size then",
  "new": "if last > size then",
  "claim": "C65 endless when size is stable",
  "count": 1
 },
 {
  "definition": "getLoop",
  "file": "Verif/Model/IpcOpenbsd.lean",
  "old": "if last ≥ size then",
  "new": "if last ≥ size ∨ 0 < k then",
  "claim": "C65 short buffer used",
  "count": 1
 },
 {
  "definition": "getAip",
  "file": "Verif/Model/IpcOpenbsd.lean",
  "old": "if af = 2 then (rdBytes mem (i + 8) 4)",
  "new": "if af = 2 then (rdBytes mem (i + 8) 16)",
  "claim": "C65 reads too much (value the same)",
  "count": 1
 },
 {
  "definition": "getAip",
  "file": "Verif/Model/IpcOpenbsd.lean",
  "old": "else if af = 24 then",
  "new": "else if af = 10 then",
  "claim": "C65 IPv6 allowed IPs lost",
  "count": 1
 },
 {
  "definition": "getPeer",
  "file": "Verif/Model/IpcOpenbsd.lean",
  "old": "(saLen.any (· ≤ 16))",
  "new": "(saLen.any (· ≤ 28))",
  "claim": "C65 fixed code: IPv6 endpoints shown (counterexample must fail)",
  "count": 1
 },
 {
  "definition": "getPeer",
  "file": "Verif/Model/IpcOpenbsd.lean",
  "old": "(rdNum mem (i + 112) 8).bind fun rx",
  "new": "(rdNum mem (i + 104) 8).bind fun rx",
  "claim": "C65 rx shown as tx",
  "count": 1
 },
 {
  "definition": "getPeer",
  "file": "Verif/Model/IpcOpenbsd.lean",
  "old": "psk.any (¬ allZero ·)",
  "new": "psk.isSome",
  "claim": "C65 zero psk shown",
  "count": 1
 },
 {
  "definition": "getPeers",
  "file": "Verif/Model/IpcOpenbsd.lean",
  "old": "(getPeers mem n r.2)",
  "new": "(getPeers mem n (i + 144))",
  "claim": "C65 next peer at wrong place",
  "count": 1
 },
 {
  "definition": "getDevice",
  "file": "Verif/Model/IpcOpenbsd.lean",
  "old": "(rdNum mem 72 8)",
  "new": "(rdNum mem 72 1)",
  "claim": "C65 only 255 peers",
  "count": 1
 },
 {
  "definition": "kernelList",
  "file": "Verif/Model/IpcOpenbsd.lean",
  "old": ".ok (if e = 2 then 0 else -e, l)",
  "new": ".ok (-e, l)",
  "claim": "C65 no group is an error",
  "count": 1
 },
 {
  "definition": "listLoop",
  "file": "Verif/Model/IpcOpenbsd.lean",
  "old": "(i + 16) ((left",
  "new": "(i + 15) ((left",
  "claim": "C65 wrong stride in list",
  "count": 1
 },
 {
  "definition": "listLoop",
  "file": "Verif/Model/IpcOpenbsd.lean",
  "old": "if left = 0 then",
  "new": "if left ≤ 16 then",
  "claim": "C65 last interface lost",
  "count": 1
 },
 {
  "definition": "epUnion",
  "file": "Verif/Model/IpcFreebsd.lean",
  "old": "[28, 28, UInt8",
  "new": "[28, 24, UInt8",
  "claim": "C66 wrong family",
  "count": 1
 },
 {
  "definition": "addIf",
  "file": "Verif/Model/IpcFreebsd.lean",
  "old": "if b then l ++",
  "new": "if true then l ++",
  "claim": "C66 everything is always sent",
  "count": 1
 },
 {
  "definition": "aipList",
  "file": "Verif/Model/IpcFreebsd.lean",
  "old": "(b!\"ipv6\", .bin b.toList)",
  "new": "(b!\"ipv4\", .bin b.toList)",
  "claim": "C66 IPv6 address under ipv4",
  "count": 1
 },
 {
  "definition": "peerList",
  "file": "Verif/Model/IpcFreebsd.lean",
  "old": "b!\"remove\" (.flag true)",
  "new": "b!\"remove\" (.flag false)",
  "claim": "C66 remove flag false",
  "count": 1
 },
 {
  "definition": "peerList",
  "file": "Verif/Model/IpcFreebsd.lean",
  "old": "addIf p.flags.hasKeepalive",
  "new": "addIf (p.flags.hasKeepalive ∧ p.keepalive ≠ 0)",
  "claim": "C66 keepalive 0 not sent",
  "count": 1
 },
 {
  "definition": "peerList",
  "file": "Verif/Model/IpcFreebsd.lean",
  "old": "addIf (p.allowedIPs.length ≠ 0)",
  "new": "addIf (p.allowedIPs.length > 1)",
  "claim": "C66 single allowed IP lost",
  "count": 1
 },
 {
  "definition": "deviceList",
  "file": "Verif/Model/IpcFreebsd.lean",
  "old": "b!\"user-cookie\" (.num d.fwmark.toNat)",
  "new": "b!\"user-cookie\" (.num d.listenPort.toNat)",
  "claim": "C66 wrong mark",
  "count": 1
 },
 {
  "definition": "deviceList",
  "file": "Verif/Model/IpcFreebsd.lean",
  "old": "addIf d.flags.replacePeers",
  "new": "addIf d.flags.hasPrivateKey",
  "claim": "C66 wrong flag",
  "count": 1
 },
 {
  "definition": "createPeer",
  "file": "Verif/Model/IpcFreebsd.lean",
  "old": "| (.error e, m) => (.error e, release m (some p))",
  "new": "| (.error e, m) => (.error e, m)",
  "claim": "C66 leak of the peer list",
  "count": 1
 },
 {
  "definition": "createPeer",
  "file": "Verif/Model/IpcFreebsd.lean",
  "old": "(.error e, release (release (releaseAll m l) (some arr)) (some p))",
  "new": "(.error e, release (releaseAll m l) (some arr))",
  "claim": "C66 leak of the peer list",
  "count": 1
 },
 {
  "definition": "createPeer",
  "file": "Verif/Model/IpcFreebsd.lean",
  "old": "(.ok p, release (releaseAll m l) (some arr))",
  "new": "(.ok p, releaseAll m l)",
  "claim": "C66 array leaked",
  "count": 1
 },
 {
  "definition": "createPeer",
  "file": "Verif/Model/IpcFreebsd.lean",
  "old": "(.ok p, release (releaseAll m l) (some arr))",
  "new": "(.ok p, release (release (releaseAll m l) (some arr)) (some arr))",
  "claim": "C66 double free",
  "count": 1
 },
 {
  "definition": "kernelSet",
  "file": "Verif/Model/IpcFreebsd.lean",
  "old": "⟨-e, some e, none, release (release (releaseAll m l) arr) (some dv)⟩",
  "new": "⟨-e, some e, none, release (releaseAll m l) (some dv)⟩",
  "claim": "C66 array leaked on failure",
  "count": 1
 },
 {
  "definition": "kernelSet",
  "file": "Verif/Model/IpcFreebsd.lean",
  "old": "let m := release m (some dv)",
  "new": "let m := m",
  "claim": "C66 device list leaked",
  "count": 1
 },
 {
  "definition": "kernelSet",
  "file": "Verif/Model/IpcFreebsd.lean",
  "old": "| some e => ⟨-1, some e, some",
  "new": "| some e => ⟨0, some e, some",
  "claim": "C66 kernel error swallowed",
  "count": 1
 },
 {
  "definition": "kernelSet",
  "file": "Verif/Model/IpcFreebsd.lean",
  "old": "let name := d.name.take 15",
  "new": "let name := d.name.take 16",
  "claim": "C66 name not terminated",
  "count": 1
 },
 {
  "definition": "binOf",
  "file": "Verif/Model/IpcFreebsd.lean",
  "old": "if b.length = size",
  "new": "if b.length ≥ size",
  "claim": "C66 longer keys accepted (not observable for readable lists)",
  "count": 1
 },
 {
  "definition": "numUpTo",
  "file": "Verif/Model/IpcFreebsd.lean",
  "old": "if n ≤ max",
  "new": "if n < max",
  "claim": "C66 port 65535 lost",
  "count": 1
 },
 {
  "definition": "getAips",
  "file": "Verif/Model/IpcFreebsd.lean",
  "old": "if n > 32 then",
  "new": "if n ≥ 32 then",
  "claim": "C66 /32 refused",
  "count": 1
 },
 {
  "definition": "getAips",
  "file": "Verif/Model/IpcFreebsd.lean",
  "old": "if n > 128 then",
  "new": "if n > 127 then",
  "claim": "C66 /128 refused",
  "count": 1
 },
 {
  "definition": "getEndpoint",
  "file": "Verif/Model/IpcFreebsd.lean",
  "old": "b.length ≤ 28 ∧",
  "new": "b.length < 28 ∧",
  "claim": "C66 IPv6 endpoints not shown",
  "count": 1
 },
 {
  "definition": "getEndpoint",
  "file": "Verif/Model/IpcFreebsd.lean",
  "old": "b.length ≥ 16",
  "new": "b.length ≥ 28",
  "claim": "C66 IPv4 endpoints not shown",
  "count": 1
 },
 {
  "definition": "getPeer",
  "file": "Verif/Model/IpcFreebsd.lean",
  "old": "(find Nv.num? l b!\"rx-bytes\")",
  "new": "(find Nv.num? l b!\"tx-bytes\")",
  "claim": "C66 rx shown as tx",
  "count": 1
 },
 {
  "definition": "getPeer",
  "file": "Verif/Model/IpcFreebsd.lean",
  "old": "psk.any (¬ allZero ·)",
  "new": "psk.isSome",
  "claim": "C66 zero psk shown",
  "count": 1
 },
 {
  "definition": "getPeers",
  "file": "Verif/Model/IpcFreebsd.lean",
  "old": "| none => .ok none",
  "new": "| none => .ok (some [])",
  "claim": "C66 invalid peer hidden",
  "count": 1
 },
 {
  "definition": "kernelGet",
  "file": "Verif/Model/IpcFreebsd.lean",
  "old": "| .ok (.error e) => .ok (-e, none)",
  "new": "| .ok (.error e) => .ok (0, none)",
  "claim": "C66 unpack error swallowed",
  "count": 1
 },
 {
  "definition": "kernelGet",
  "file": "Verif/Model/IpcFreebsd.lean",
  "old": "| none => .ok (22, none)",
  "new": "| none => .ok (-22, none)",
  "claim": "C66 fixed code (counterexample must fail)",
  "count": 1
 },
 {
  "definition": "kernelGet",
  "file": "Verif/Model/IpcFreebsd.lean",
  "old": "numUpTo l b!\"user-cookie\" 4294967295",
  "new": "numUpTo l b!\"user-cookie\" 65535",
  "claim": "C66 large marks lost",
  "count": 1
 }
]