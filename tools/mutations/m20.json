[
 {
  "definition": "readKmem",
  "file": "Verif/Model/ExtractKeys.lean",
  "old": "env.errno addr",
  "new": "22",
  "claim": "C98: the status does not say what failed",
  "count": 1
 },
 {
  "definition": "hostNat",
  "file": "Verif/Model/ExtractKeys.lean",
  "old": "if env.big then b.reverse else b",
  "new": "b",
  "claim": "C98: wrong numbers on big-endian machines",
  "count": 1
 },
 {
  "definition": "le32toh",
  "file": "Verif/Model/ExtractKeys.lean",
  "old": "if env.big then leNat (Obsd.leBytes 4 n).reverse else n",
  "new": "n",
  "claim": "C98: indices swapped on big-endian machines",
  "count": 1
 },
 {
  "definition": "readInt",
  "file": "Verif/Model/ExtractKeys.lean",
  "old": "readKmem env 4",
  "new": "readKmem env 2",
  "claim": "C98: half an index",
  "count": 1
 },
 {
  "definition": "addressField",
  "file": "Verif/Model/ExtractKeys.lean",
  "old": "line.reverse.tail.dropWhile (· = 32)",
  "new": "line.reverse.dropWhile (· = 32)",
  "claim": "C98: the line feed taken for a field",
  "count": 1
 },
 {
  "definition": "addressField",
  "file": "Verif/Model/ExtractKeys.lean",
  "old": "| _ :: _ :: r =>",
  "new": "| _ :: r =>",
  "claim": "C98: another field",
  "count": 1
 },
 {
  "definition": "findLoop",
  "file": "Verif/Model/ExtractKeys.lean",
  "old": "(addr + env.lay.sockDevice)",
  "new": "addr",
  "claim": "C98: wrong pointer followed",
  "count": 1
 },
 {
  "definition": "findLoop",
  "file": "Verif/Model/ExtractKeys.lean",
  "old": "strtoul (2 ^ 64 - 1) 16 field",
  "new": "strtoul (2 ^ 64 - 1) 10 field",
  "claim": "C98: address read as decimal",
  "count": 1
 },
 {
  "definition": "findLoop",
  "file": "Verif/Model/ExtractKeys.lean",
  "old": "PunchClient.cstr name = iface then .ok addr",
  "new": "PunchClient.cstr name ≠ iface then .ok addr",
  "claim": "C98: another interface",
  "count": 1
 },
 {
  "definition": "findLoop",
  "file": "Verif/Model/ExtractKeys.lean",
  "old": "(addr + env.lay.deviceName)",
  "new": "(addr + env.lay.devicePeers)",
  "claim": "C98: name elsewhere",
  "count": 1
 },
 {
  "definition": "findInterface",
  "file": "Verif/Model/ExtractKeys.lean",
  "old": "(PunchClient.fgets 255 text).2",
  "new": "text",
  "claim": "C98: the heading taken for a socket",
  "count": 1
 },
 {
  "definition": "hex08",
  "file": "Verif/Model/ExtractKeys.lean",
  "old": "(8 - (showHex n).length)",
  "new": "(7 - (showHex n).length)",
  "claim": "C98: seven digits",
  "count": 1
 },
 {
  "definition": "printKey",
  "file": "Verif/Model/ExtractKeys.lean",
  "old": "Spec.rfc4648 receiving ++ b!\"\\n\" ++",
  "new": "Spec.rfc4648 sending ++ b!\"\\n\" ++",
  "claim": "C98: wrong key with the local index",
  "count": 1
 },
 {
  "definition": "printKey",
  "file": "Verif/Model/ExtractKeys.lean",
  "old": "hex08 (le32toh env localIndex)",
  "new": "hex08 (le32toh env remoteIndex)",
  "claim": "C98: wrong index",
  "count": 1
 },
 {
  "definition": "printKey",
  "file": "Verif/Model/ExtractKeys.lean",
  "old": "if key = 0 then .ok []",
  "new": "if key = 1 then .ok []",
  "claim": "C98: null pointer followed",
  "count": 1
 },
 {
  "definition": "printKey",
  "file": "Verif/Model/ExtractKeys.lean",
  "old": "readKmem env 32 (key + env.lay.keySending)",
  "new": "readKmem env 31 (key + env.lay.keySending)",
  "claim": "C98: key cut short",
  "count": 1
 },
 {
  "definition": "printKeys",
  "file": "Verif/Model/ExtractKeys.lean",
  "old": "printKeys env l (out ++ t)",
  "new": "printKeys env l (t ++ out)",
  "claim": "C98: wrong order",
  "count": 1
 },
 {
  "definition": "walkPeers",
  "file": "Verif/Model/ExtractKeys.lean",
  "old": "peer + env.lay.peerPrevious, peer + env.lay.peerNext",
  "new": "peer + env.lay.peerNext, peer + env.lay.peerPrevious",
  "claim": "C98: wrong order of sessions",
  "count": 1
 },
 {
  "definition": "walkPeers",
  "file": "Verif/Model/ExtractKeys.lean",
  "old": "readLong env entry with",
  "new": "readLong env (entry + 8) with",
  "claim": "C98: ring walked backwards",
  "count": 1
 },
 {
  "definition": "walkPeers",
  "file": "Verif/Model/ExtractKeys.lean",
  "old": "if entry = head then",
  "new": "if entry = 0 then",
  "claim": "C98: no end of the ring",
  "count": 1
 },
 {
  "definition": "main",
  "file": "Verif/Model/ExtractKeys.lean",
  "old": "if out = [] then 126 else 0",
  "new": "0",
  "claim": "C98: no session not reported",
  "count": 1
 },
 {
  "definition": "main",
  "file": "Verif/Model/ExtractKeys.lean",
  "old": "if dev = 0 then ([], .exit 57)",
  "new": "if dev = 0 then ([], .exit 0)",
  "claim": "C98: no interface not reported",
  "count": 1
 },
 {
  "definition": "unitEnv",
  "file": "Verif/Model/Systemd.lean",
  "old": "some b!\"infinity\"",
  "new": "none",
  "claim": "C99: limited retries",
  "count": 1
 },
 {
  "definition": "pipe",
  "file": "Verif/Model/Systemd.lean",
  "old": "| .exec _ => other\n  | _ => r.out",
  "new": "| .exec _ => other\n  | .exit 0 => r.out\n  | _ => other",
  "claim": "C99: output of another program",
  "count": 1
 },
 {
  "definition": "pipe",
  "file": "Verif/Model/Systemd.lean",
  "old": "b!\"strip\", inst",
  "new": "b!\"save\", inst",
  "claim": "C99: nothing stripped",
  "count": 1
 },
 {
  "definition": "reload",
  "file": "Verif/Model/Systemd.lean",
  "old": "[b!\"syncconf\", inst, fd]",
  "new": "[b!\"setconf\", inst, fd]",
  "claim": "C99: staying peers disturbed",
  "count": 1
 },
 {
  "definition": "reload",
  "file": "Verif/Model/Systemd.lean",
  "old": "[b!\"syncconf\", inst, fd]",
  "new": "[b!\"addconf\", inst, fd]",
  "claim": "C99: old peers stay",
  "count": 1
 },
 {
  "definition": "reload",
  "file": "Verif/Model/Systemd.lean",
  "old": "content := pipe h w other inst,",
  "new": "content := (pipe h w other inst).take 4096,",
  "claim": "C99: configuration cut",
  "count": 1
 },
 {
  "definition": "contains",
  "file": "Verif/Model/CompletionQuick.lean",
  "old": "part.isPrefixOf (c :: r) || contains r part",
  "new": "part.isPrefixOf (c :: r)",
  "claim": "C100: OSTYPE darwin only at the beginning",
  "count": 1
 },
 {
  "definition": "compgenW",
  "file": "Verif/Model/CompletionQuick.lean",
  "old": "cur.isPrefixOf w",
  "new": "cur.isSuffixOf w",
  "claim": "C100: wrong filter",
  "count": 1
 },
 {
  "definition": "glob",
  "file": "Verif/Model/CompletionQuick.lean",
  "old": "ext.isSuffixOf n && n.head? != some c!\".\"",
  "new": "ext.isSuffixOf n",
  "claim": "C100: hidden files offered",
  "count": 1
 },
 {
  "definition": "glob",
  "file": "Verif/Model/CompletionQuick.lean",
  "old": "ext.isSuffixOf n && n.head? != some c!\".\"",
  "new": "n.head? != some c!\".\"",
  "claim": "C100: other files offered",
  "count": 1
 },
 {
  "definition": "without",
  "file": "Verif/Model/CompletionQuick.lean",
  "old": "n.take (n.length - ext.length)",
  "new": "n",
  "claim": "C100: names with extension",
  "count": 1
 },
 {
  "definition": "searchPaths",
  "file": "Verif/Model/CompletionQuick.lean",
  "old": "contains env.ostype b!\"freebsd\" ∨ contains env.ostype b!\"darwin\"",
  "new": "contains env.ostype b!\"openbsd\" ∨ contains env.ostype b!\"darwin\"",
  "claim": "C100: wrong directories on FreeBSD",
  "count": 1
 },
 {
  "definition": "complete",
  "file": "Verif/Model/CompletionQuick.lean",
  "old": "if contains env.ostype b!\"openbsd\" ∨ contains env.ostype b!\"darwin\" then",
  "new": "if contains env.ostype b!\"freebsd\" ∨ contains env.ostype b!\"darwin\" then",
  "claim": "C100: wrong interfaces on OpenBSD",
  "count": 1
 },
 {
  "definition": "complete",
  "file": "Verif/Model/CompletionQuick.lean",
  "old": "(env.files cur).filter (fun f => b!\".conf\".isSuffixOf f)",
  "new": "(env.files cur)",
  "claim": "C100: any file offered",
  "count": 1
 },
 {
  "definition": "complete",
  "file": "Verif/Model/CompletionQuick.lean",
  "old": " ++ env.directories cur",
  "new": "",
  "claim": "C100: no directories",
  "count": 1
 },
 {
  "definition": "complete",
  "file": "Verif/Model/CompletionQuick.lean",
  "old": "b!\"up down\"",
  "new": "b!\"up down strip save reload\"",
  "claim": "C100: an operation that does not exist",
  "count": 1
 },
 {
  "definition": "complete",
  "file": "Verif/Model/CompletionQuick.lean",
  "old": "compgenW env (substituted env.interfaces) cur",
  "new": "compgenW env env.interfaces cur",
  "claim": "C100: unchanged (blanks do not matter)",
  "count": 1
 },
 {
  "definition": "isOpenresolv",
  "file": "Verif/Model/Hatchet.lean",
  "old": "b!\"openresolv \".isPrefixOf (chomp r.out)",
  "new": "b!\"openresolv\".isPrefixOf (chomp r.out)",
  "claim": "C101: other resolvconf taken for openresolv",
  "count": 1
 },
 {
  "definition": "header",
  "file": "Verif/Model/Hatchet.lean",
  "old": "b!\"# This file",
  "new": "b!\"nameserver 8.8.8.8\\n# This file",
  "claim": "C101: another server",
  "count": 1
 },
 {
  "definition": "mountOver",
  "file": "Verif/Model/Hatchet.lean",
  "old": "(header c.iface ++ resolvText c.opts)",
  "new": "(resolvText c.opts ++ resolvText c.opts)",
  "claim": "C101: servers twice",
  "count": 1
 },
 {
  "definition": "setDns",
  "file": "Verif/Model/Hatchet.lean",
  "old": "if t.status = 0 then Sh.pure () else run true touchFile",
  "new": "run true umountFile",
  "claim": "C101: what was mounted before is removed",
  "count": 1
 },
 {
  "definition": "setDns",
  "file": "Verif/Model/Hatchet.lean",
  "old": "run true (mountOver c)).bind fun _ => setHaveDns",
  "new": "run false (mountOver c)).bind fun _ => setHaveDns",
  "claim": "C101: failing mount not noticed",
  "count": 1
 },
 {
  "definition": "setDns",
  "file": "Verif/Model/Hatchet.lean",
  "old": "run true (mountOver c)).bind fun _ => setHaveDns",
  "new": "(setHaveDns.bind fun _ => run true (mountOver c))).bind fun _ => Sh.pure ()",
  "claim": "C101: cleanup undoes what was not done",
  "count": 1
 },
 {
  "definition": "unsetDns",
  "file": "Verif/Model/Hatchet.lean",
  "old": "if o then deleteRecord c else umountFile",
  "new": "if o then umountFile else deleteRecord c",
  "claim": "C101: wrong command",
  "count": 1
 },
 {
  "definition": "unsetDns",
  "file": "Verif/Model/Hatchet.lean",
  "old": "if c.opts.dns = [] then Sh.pure ()\n  else isOpenresolv.bind fun o => run e",
  "new": "isOpenresolv.bind fun o => run e",
  "claim": "C101: umount without servers",
  "count": 1
 },
 {
  "definition": "innerSteps",
  "file": "Verif/Model/Hatchet.lean",
  "old": ".must b!\"remount\", .must b!\"bind\"",
  "new": ".must b!\"bind\", .must b!\"remount\"",
  "claim": "C101: mounted although the script fails",
  "count": 1
 },
 {
  "definition": "addRecord",
  "file": "Verif/Model/Hatchet.lean",
  "old": "b!\"-a\", c.iface,",
  "new": "b!\"-a\", c.file,",
  "claim": "C101: record under another name",
  "count": 1
 }
]