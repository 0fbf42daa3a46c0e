[
 {
  "definition": "getDevice",
  "file": "Verif/Model/EmbIpc.lean",
  "old": "if ret = 4 then let r := getDevice size name env fuel (i + 1) ret;",
  "new": "if ret = 4 then let r := getDevice size name env fuel (i + 1) 0;",
  "claim": "C68 defect fixed: ret reset (counterexample must fail)",
  "count": 1
 },
 {
  "definition": "getDevice",
  "file": "Verif/Model/EmbIpc.lean",
  "old": "(.ok (-ret, none), ev)",
  "new": "(.ok (-ret, none), ev ++ [.give .dev])",
  "claim": "C68 double release",
  "count": 1
 },
 {
  "definition": "getDevice",
  "file": "Verif/Model/EmbIpc.lean",
  "old": "let ev := ev ++ mnlgClose ++ [.give .dev]",
  "new": "let ev := ev ++ mnlgClose",
  "claim": "C68 device leaked on error",
  "count": 1
 },
 {
  "definition": "getDevice",
  "file": "Verif/Model/EmbIpc.lean",
  "old": "else (.ok (0, some dev.see), ev ++ mnlgClose)",
  "new": "else (.ok (0, some dev.see), ev)",
  "claim": "C68 socket leaked on success",
  "count": 1
 },
 {
  "definition": "getDevice",
  "file": "Verif/Model/EmbIpc.lean",
  "old": "(.ok (-e, none), [.take .dev] ++ ev ++ [.give .dev])",
  "new": "(.ok (e, none), [.take .dev] ++ ev ++ [.give .dev])",
  "claim": "C68 sign of the error",
  "count": 1
 },
 {
  "definition": "getDevice",
  "file": "Verif/Model/EmbIpc.lean",
  "old": "| some ps => out ret { d with peers := ps }",
  "new": "| some _ => out ret d",
  "claim": "C68 peers not coalesced",
  "count": 1
 },
 {
  "definition": "getDevice",
  "file": "Verif/Model/EmbIpc.lean",
  "old": "if errno ≠ 0 then errno else 22",
  "new": "errno",
  "claim": "C68 EINVAL fallback lost",
  "count": 1
 },
 {
  "definition": "linkChange",
  "file": "Verif/Model/EmbIpc.lean",
  "old": "if add then 0x605 else 5",
  "new": "if add then 0x405 else 5",
  "claim": "C68 NLM_F_EXCL lost: existing interface taken over",
  "count": 1
 },
 {
  "definition": "linkChange",
  "file": "Verif/Model/EmbIpc.lean",
  "old": "if add then 16 else 17",
  "new": "if add then 17 else 16",
  "claim": "C68 add and delete swapped",
  "count": 1
 },
 {
  "definition": "linkChange",
  "file": "Verif/Model/EmbIpc.lean",
  "old": "let body := putAttr [] 3 (name ++ [0])",
  "new": "let body := putAttr [] 4 (name ++ [0])",
  "claim": "C68 wrong attribute of the name",
  "count": 1
 },
 {
  "definition": "linkChange",
  "file": "Verif/Model/EmbIpc.lean",
  "old": "putAttr [] 3 (name ++ [0])",
  "new": "putAttr [] 3 name",
  "claim": "C68 NUL of the name lost",
  "count": 1
 },
 {
  "definition": "addDelIface",
  "file": "Verif/Model/EmbIpc.lean",
  "old": "(.ok (-e), [.take .buf] ++ ev ++ [.give .buf])",
  "new": "(.ok (-e), [.take .buf] ++ ev)",
  "claim": "C68 buffer leaked",
  "count": 1
 },
 {
  "definition": "addDelIface",
  "file": "Verif/Model/EmbIpc.lean",
  "old": "(.ok (if r < 0 then -errno else 0), ev ++ cleanup)",
  "new": "(.ok 0, ev ++ cleanup)",
  "claim": "C68 kernel's error lost",
  "count": 1
 },
 {
  "definition": "addDelIface",
  "file": "Verif/Model/EmbIpc.lean",
  "old": "let cleanup : List NlEv := [.give .buf] ++ mnlClose",
  "new": "let cleanup : List NlEv := [.give .buf]",
  "claim": "C68 socket leaked",
  "count": 1
 },
 {
  "definition": "listDeviceNames",
  "file": "Verif/Model/EmbIpc.lean",
  "old": "(.ok (none, -ret), ev)",
  "new": "(.ok (none, ret), ev)",
  "claim": "C68 sign of errno",
  "count": 1
 },
 {
  "definition": "listDeviceNames",
  "file": "Verif/Model/EmbIpc.lean",
  "old": "if strdup then (some [0], 0) else",
  "new": "if strdup then (some [], 0) else",
  "claim": "C68 empty list not terminated",
  "count": 1
 },
 {
  "definition": "forEachName",
  "file": "Verif/Model/EmbIpc.lean",
  "old": "fuel (i + s.length + 1)",
  "new": "fuel (i + s.length)",
  "claim": "C68 names walked wrongly",
  "count": 1
 },
 {
  "definition": "parsePeer",
  "file": "Verif/Model/EmbIpc.lean",
  "old": "{ st.2 with rx := x }",
  "new": "{ st.2 with tx := x }",
  "claim": "C68 rx into tx",
  "count": 1
 },
 {
  "definition": "parseAllowedips",
  "file": "Verif/Model/EmbIpc.lean",
  "old": "ip.family = 10 ∧ ip.cidr ≤ 128",
  "new": "ip.family = 10 ∧ ip.cidr ≤ 32",
  "claim": "C68 IPv6 networks refused",
  "count": 1
 },
 {
  "definition": "parsePeers",
  "file": "Verif/Model/EmbIpc.lean",
  "old": "if p.hasPub then .ok (1, errno, d) else .ok (-1, 6, d)",
  "new": ".ok (1, errno, d)",
  "claim": "C68 peer without key accepted",
  "count": 1
 },
 {
  "definition": "epUnion",
  "file": "Verif/Model/IpcWindows.lean",
  "old": "[23, 0, UInt8.ofNat (p.toNat / 256)",
  "new": "[10, 0, UInt8.ofNat (p.toNat / 256)",
  "claim": "C69 Linux AF_INET6",
  "count": 1
 },
 {
  "definition": "epUnion",
  "file": "Verif/Model/IpcWindows.lean",
  "old": "[2, 0, UInt8.ofNat (p.toNat / 256), UInt8.ofNat p.toNat]",
  "new": "[2, 0, UInt8.ofNat p.toNat, UInt8.ofNat (p.toNat / 256)]",
  "claim": "C69 port byte order",
  "count": 1
 },
 {
  "definition": "famNum",
  "file": "Verif/Model/IpcWindows.lean",
  "old": "| .v6 _ => 23",
  "new": "| .v6 _ => 10",
  "claim": "C69 family of allowed IPs",
  "count": 1
 },
 {
  "definition": "setAip",
  "file": "Verif/Model/IpcWindows.lean",
  "old": "(i + 18) [a.cidr]",
  "new": "(i + 20) [a.cidr]",
  "claim": "C69 cidr at the wrong place",
  "count": 1
 },
 {
  "definition": "setAips",
  "file": "Verif/Model/IpcWindows.lean",
  "old": "setAips mem (i + 24) (n + 1) l",
  "new": "setAips mem (i + 20) (n + 1) l",
  "claim": "C69 stride of allowed IPs",
  "count": 1
 },
 {
  "definition": "setPeer",
  "file": "Verif/Model/IpcWindows.lean",
  "old": "(i + 40) p.presharedKey.toList i 4 2",
  "new": "(i + 40) p.presharedKey.toList i 4 4",
  "claim": "C69 flag of the preshared key",
  "count": 1
 },
 {
  "definition": "setPeer",
  "file": "Verif/Model/IpcWindows.lean",
  "old": "orIf p.flags.removeMe mem i 4 64",
  "new": "orIf p.flags.removeMe mem i 4 16",
  "claim": "C69 remove flag",
  "count": 1
 },
 {
  "definition": "setPeer",
  "file": "Verif/Model/IpcWindows.lean",
  "old": "orIf p.flags.replaceAllowedIPs mem i 4 32",
  "new": "orIf p.flags.removeMe mem i 4 32",
  "claim": "C69 replace from the wrong flag",
  "count": 1
 },
 {
  "definition": "setPeer",
  "file": "Verif/Model/IpcWindows.lean",
  "old": "(u.take (if fam = 2 then 16 else 28))",
  "new": "(u.take 16)",
  "claim": "C69 IPv6 endpoint cut",
  "count": 1
 },
 {
  "definition": "setPeer",
  "file": "Verif/Model/IpcWindows.lean",
  "old": "(i + 128) (leBytes 4 r.2.2)",
  "new": "(i + 128) (leBytes 2 r.2.2)",
  "claim": "C69 count of allowed IPs in 16 bits",
  "count": 1
 },
 {
  "definition": "addAips",
  "file": "Verif/Model/IpcWindows.lean",
  "old": "2 ^ 32 - 1 - n < 24",
  "new": "2 ^ 32 - 1 - n < 0",
  "claim": "C69 overflow check dropped",
  "count": 1
 },
 {
  "definition": "addPeers",
  "file": "Verif/Model/IpcWindows.lean",
  "old": "2 ^ 32 - 1 - n < 136",
  "new": "2 ^ 32 - n < 136",
  "claim": "C69 overflow check off by one",
  "count": 1
 },
 {
  "definition": "setBuffer",
  "file": "Verif/Model/IpcWindows.lean",
  "old": "mem 6 d.privateKey.toList 0 4 2",
  "new": "mem 8 d.privateKey.toList 0 4 2",
  "claim": "C69 private key at the wrong place",
  "count": 1
 },
 {
  "definition": "setBuffer",
  "file": "Verif/Model/IpcWindows.lean",
  "old": "storeBytes (some r.1) 72 (leBytes 4 r.2)",
  "new": ".ok r.1",
  "claim": "C69 peer count not stored",
  "count": 1
 },
 {
  "definition": "kernelSet",
  "file": "Verif/Model/IpcWindows.lean",
  "old": "else .ok ⟨-13, some mem, true, true⟩",
  "new": "else .ok ⟨0, some mem, true, true⟩",
  "claim": "C69 refusal ignored",
  "count": 1
 },
 {
  "definition": "kernelSet",
  "file": "Verif/Model/IpcWindows.lean",
  "old": "| some e => .ok ⟨-e, none, true, true⟩",
  "new": "| some e => .ok ⟨-e, none, true, false⟩",
  "claim": "C69 handle leaked without memory",
  "count": 1
 },
 {
  "definition": "getLoop",
  "file": "Verif/Model/IpcWindows.lean",
  "old": "getLoop env fuel (k + 1) (some ((List.range size)",
  "new": "getLoop env fuel (k + 1) (some ((List.range (size - 1))",
  "claim": "C69 buffer one byte short",
  "count": 1
 },
 {
  "definition": "getAip",
  "file": "Verif/Model/IpcWindows.lean",
  "old": "else if af = 23 then",
  "new": "else if af = 10 then",
  "claim": "C69 family while reading",
  "count": 1
 },
 {
  "definition": "getAips",
  "file": "Verif/Model/IpcWindows.lean",
  "old": "getAips mem n (i + 24)",
  "new": "getAips mem n (i + 20)",
  "claim": "C69 stride while reading",
  "count": 1
 },
 {
  "definition": "handshakeSecOf",
  "file": "Verif/Model/IpcWindows.lean",
  "old": "11644473600",
  "new": "11644473601",
  "claim": "C69 epoch off by one second",
  "count": 1
 },
 {
  "definition": "handshakeNsecOf",
  "file": "Verif/Model/IpcWindows.lean",
  "old": "t % 10000000 * 100",
  "new": "t % 10000000",
  "claim": "C69 unit of nanoseconds",
  "count": 1
 },
 {
  "definition": "getPeer",
  "file": "Verif/Model/IpcWindows.lean",
  "old": "(rdNum mem (i + 112) 8).bind fun rx",
  "new": "(rdNum mem (i + 104) 8).bind fun rx",
  "claim": "C69 rx reads tx",
  "count": 1
 },
 {
  "definition": "getPeer",
  "file": "Verif/Model/IpcWindows.lean",
  "old": "psk.any (¬ allZero ·)",
  "new": "psk.isSome",
  "claim": "C69 zero preshared key shown",
  "count": 1
 },
 {
  "definition": "getDevice",
  "file": "Verif/Model/IpcWindows.lean",
  "old": "(rdIf (fl.testBit 2) (rdNum mem 4 2)).bind fun port",
  "new": "(rdIf (fl.testBit 3) (rdNum mem 4 2)).bind fun port",
  "claim": "C69 port flag while reading",
  "count": 1
 },
 {
  "definition": "getDevice",
  "file": "Verif/Model/IpcWindows.lean",
  "old": "rdBytes mem 38 32",
  "new": "rdBytes mem 6 32",
  "claim": "C69 private key shown as public",
  "count": 1
 },
 {
  "definition": "kernelGet",
  "file": "Verif/Model/IpcWindows.lean",
  "old": "| .error e => .ok ⟨-e, none, true, false⟩",
  "new": "| .error e => .ok ⟨-e, none, true, true⟩",
  "claim": "C69 defect fixed (counterexample must fail)",
  "count": 1
 },
 {
  "definition": "bucketOf",
  "file": "Verif/Model/WinFind.lean",
  "old": "&&& 1023",
  "new": "&&& 1024",
  "claim": "C70 (neutral for the map: any bucket function works)",
  "count": 1
 },
 {
  "definition": "findEntry",
  "file": "Verif/Model/WinFind.lean",
  "old": "fun e => e.1 = key",
  "new": "fun _ => true",
  "claim": "C70 any entry of the bucket found",
  "count": 1
 },
 {
  "definition": "findOrInsert",
  "file": "Verif/Model/WinFind.lean",
  "old": "if b = bucketOf sc key then t b ++ [(key, v)] else t b)",
  "new": "if b = bucketOf sc key then [(key, v)] else t b)",
  "claim": "C70 insertion drops colliding names",
  "count": 1
 },
 {
  "definition": "findOrInsert",
  "file": "Verif/Model/WinFind.lean",
  "old": "else (false, t)\n",
  "new": "else (true, t)\n",
  "claim": "C70 lack of memory not reported",
  "count": 1
 },
 {
  "definition": "setValue",
  "file": "Verif/Model/WinFind.lean",
  "old": "if e.1 = key then (key, v) else e",
  "new": "(e.1, v)",
  "claim": "C70 all names of the bucket get the identifier",
  "count": 1
 },
 {
  "definition": "nameArray",
  "file": "Verif/Model/WinFind.lean",
  "old": "++ [48]) else none",
  "new": "++ [0]) else none",
  "claim": "C70 defect fixed (counterexample must fail)",
  "count": 1
 },
 {
  "definition": "running",
  "file": "Verif/Model/WinFind.lean",
  "old": "s &&& 10 = 10",
  "new": "s &&& 10 ≠ 0",
  "claim": "C70 stopped adapters listed",
  "count": 1
 },
 {
  "definition": "remember",
  "file": "Verif/Model/WinFind.lean",
  "old": "| .id i => setValue env.sc t name (some i)",
  "new": "| .id _ => t",
  "claim": "C70 identifier not remembered",
  "count": 1
 },
 {
  "definition": "listLoop",
  "file": "Verif/Model/WinFind.lean",
  "old": "| .failed => listLoop heap env fuel (i + 1) l t",
  "new": "| .failed => .ok (l, t)",
  "claim": "C70 list ends at an error",
  "count": 1
 },
 {
  "definition": "kernelList",
  "file": "Verif/Model/WinFind.lean",
  "old": ".ok (0, r.1, ⟨true, r.2⟩)",
  "new": ".ok (0, r.1, ⟨true, c.table⟩)",
  "claim": "C70 empty table used",
  "count": 1
 },
 {
  "definition": "findLoop",
  "file": "Verif/Model/WinFind.lean",
  "old": "if name ≠ iface then",
  "new": "if name.length ≠ iface.length then",
  "claim": "C70 names compared by length",
  "count": 1
 },
 {
  "definition": "findLoop",
  "file": "Verif/Model/WinFind.lean",
  "old": "| none => findLoop env iface fuel (i + 1)\n          | _",
  "new": "| none => .ok (some [])\n          | _",
  "claim": "C70 adapter without an interface opened",
  "count": 1
 },
 {
  "definition": "interfaceHandle",
  "file": "Verif/Model/WinFind.lean",
  "old": "| none => .ok (.error 2)",
  "new": "| none => .ok (.error 13)",
  "claim": "C70 ENOENT lost",
  "count": 1
 },
 {
  "definition": "interfaceHandle",
  "file": "Verif/Model/WinFind.lean",
  "old": "if ¬ env.classDevs then .ok (.error errno)",
  "new": "if ¬ env.classDevs then .ok (.error 13)",
  "claim": "C70 defect fixed (counterexample must fail)",
  "count": 1
 },
 {
  "definition": "interfaceFile",
  "file": "Verif/Model/WinFind.lean",
  "old": "| some false => (.error 13, [.opened path, .closed path])",
  "new": "| some false => (.ok path, [.opened path])",
  "claim": "C70 pipe of another owner used",
  "count": 1
 },
 {
  "definition": "interfaceFile",
  "file": "Verif/Model/WinFind.lean",
  "old": "| none => (.error 13, [.opened path, .closed path])",
  "new": "| none => (.error 13, [.opened path])",
  "claim": "C70 pipe leaked",
  "count": 1
 },
 {
  "definition": "interfaceFile",
  "file": "Verif/Model/WinFind.lean",
  "old": ".take 259",
  "new": ".take 60",
  "claim": "C70 path of the pipe cut",
  "count": 1
 },
 {
  "definition": "hasInterface",
  "file": "Verif/Model/WinFind.lean",
  "old": "| none => true",
  "new": "| none => false",
  "claim": "C70 defect fixed (counterexample must fail)",
  "count": 1
 },
 {
  "definition": "hasInterface",
  "file": "Verif/Model/WinFind.lean",
  "old": "files.any (· = fname)",
  "new": "files.any (fname <+: ·)",
  "claim": "C70 prefix of a pipe's name taken",
  "count": 1
 },
 {
  "definition": "pipeLoop",
  "file": "Verif/Model/WinFind.lean",
  "old": "let iface := f.drop pipePrefix.length",
  "new": "let iface := f.drop (pipePrefix.length - 1)",
  "claim": "C70 names with a backslash",
  "count": 1
 },
 {
  "definition": "pipeLoop",
  "file": "Verif/Model/WinFind.lean",
  "old": "if r.1 < 0 then .ok (r.1, r.2, t, false)",
  "new": "if r.1 < 0 then .ok (r.1, r.2, t, true)",
  "claim": "C70 incomplete table used",
  "count": 1
 },
 {
  "definition": "listDevices",
  "file": "Verif/Model/WinFind.lean",
  "old": "if r.1 < 0 then .ok (r.1, r.2.1, r.2.2, pc)",
  "new": "if r.1 ≤ 0 then .ok (r.1, r.2.1, r.2.2, pc)",
  "claim": "C70 pipes not listed",
  "count": 1
 },
 {
  "definition": "goesTo",
  "file": "Verif/Model/WinFind.lean",
  "old": "if hasInterface penv pc iface then",
  "new": "if ¬ hasInterface penv pc iface then",
  "claim": "C70 driver preferred",
  "count": 1
 },
 {
  "definition": "getdelimLoop",
  "file": "Verif/Model/WinLibc.lean",
  "old": "else if b.siz ≤ ptr + 1 + 2 then",
  "new": "else if b.siz ≤ ptr + 1 then",
  "claim": "C71 buffer grown too late",
  "count": 1
 },
 {
  "definition": "getdelimLoop",
  "file": "Verif/Model/WinLibc.lean",
  "old": "else if b.siz ≤ ptr + 1 + 2 then",
  "new": "else if b.siz ≤ ptr + 1 + 1 then",
  "claim": "C71 buffer grown too late by one (harmless: ptr + 1 < size still leaves room for one more character and no NUL)",
  "count": 1
 },
 {
  "definition": "getdelimLoop",
  "file": "Verif/Model/WinLibc.lean",
  "old": "if ptr ≠ 0 then (storeBytes",
  "new": "if ptr = 0 then (storeBytes",
  "claim": "C71 last line lost",
  "count": 1
 },
 {
  "definition": "getdelimLoop",
  "file": "Verif/Model/WinLibc.lean",
  "old": "if err then .ok (-1, b, ⟨[], err⟩)\n    else if",
  "new": "if",
  "claim": "C71 read error taken as the end",
  "count": 1
 },
 {
  "definition": "getdelimLoop",
  "file": "Verif/Model/WinLibc.lean",
  "old": ".ok ((ptr + 1 : Nat), { b with buf := some m }, ⟨rest, err⟩)",
  "new": ".ok ((ptr : Nat), { b with buf := some m }, ⟨rest, err⟩)",
  "claim": "C71 length one short",
  "count": 1
 },
 {
  "definition": "getdelimLoop",
  "file": "Verif/Model/WinLibc.lean",
  "old": "siz := b.siz * 2 % 2 ^ 64, calls",
  "new": "siz := b.siz, calls",
  "claim": "C71 size not updated",
  "count": 1
 },
 {
  "definition": "getdelim",
  "file": "Verif/Model/WinLibc.lean",
  "old": "if b.buf = none ∨ b.siz = 0 then",
  "new": "if b.buf = none then",
  "claim": "C71 size 0 with a buffer",
  "count": 1
 },
 {
  "definition": "getdelim",
  "file": "Verif/Model/WinLibc.lean",
  "old": "{ buf := some (reallocBytes heap b.calls none 512), siz := 512,",
  "new": "{ buf := some (reallocBytes heap b.calls none 512), siz := 1024,",
  "claim": "C71 wrong size of the first buffer",
  "count": 1
 },
 {
  "definition": "strsepMem",
  "file": "Verif/Model/WinLibc.lean",
  "old": "mem.set end_ 0, some (end_ + 1)",
  "new": "mem.set end_ 0, some end_",
  "claim": "C71 endless empty pieces",
  "count": 1
 },
 {
  "definition": "strsepMem",
  "file": "Verif/Model/WinLibc.lean",
  "old": "mem.set end_ 0, some (end_ + 1)",
  "new": "mem, some (end_ + 1)",
  "claim": "C71 pieces not terminated",
  "count": 1
 }
]