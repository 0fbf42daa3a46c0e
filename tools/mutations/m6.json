[
{"definition":"stringListAdd","file":"Verif/Model/IpcList.lean","old":"else if len ≥ (l.cap + 2 ^ 64 - l.len) % 2 ^ 64 then","new":"else if len > (l.cap + 2 ^ 64 - l.len) % 2 ^ 64 then","claim":"C44 final NUL written outside of the allocation when a name just fits"},
{"definition":"stringListAdd","file":"Verif/Model/IpcList.lean","old":"let need := (l.len + len + 1) % 2 ^ 64","new":"let need := (l.len + len) % 2 ^ 64","claim":"C44 one byte too few allocated"},
{"definition":"listPut","file":"Verif/Model/IpcList.lean","old":"(storeBytes (some b) n [0]).bind","new":"(storeBytes (some b) (n - 1) [0]).bind","claim":"C44 no final NUL: the walk does not stop at the last name"},
{"definition":"listPut","file":"Verif/Model/IpcList.lean","old":"(storeBytes l.buf l.len (str ++ [0]))","new":"(storeBytes l.buf l.len str)","claim":"C44 names not separated"},
{"definition":"stringListAdd","file":"Verif/Model/IpcList.lean","old":"if len = 1 then .ok (0, l)","new":"if len = 0 then .ok (0, l)","claim":"C44 empty names end the list early"},
{"definition":"hasInterface","file":"Verif/Model/IpcList.lean","old":"if iface.contains c!\"/\" then (false, tr)","new":"if iface.contains c!\"\\\\\" then (false, tr)","claim":"C46 a name with a slash escapes the directory"},
{"definition":"interfaceFile","file":"Verif/Model/IpcList.lean","old":"| some e => if e = 111 then","new":"| some e => if e = 13 then","claim":"C46 a socket is removed although something listens"},
{"definition":"hasInterface","file":"Verif/Model/IpcList.lean","old":"| .ok false => (false, tr)\n    | .ok true =>","new":"| .ok _ =>","claim":"C46 a file that is no socket can be removed"},
{"definition":"hasInterface","file":"Verif/Model/IpcList.lean","old":"if c = some 111 then (false, tr ++ [.unlink path])","new":"if c.isSome then (false, tr ++ [.unlink path])","claim":"C46 removed for any error (permission denied)"},
{"definition":"entryName","file":"Verif/Model/IpcList.lean","old":"if ent.length ≤ 5 then none","new":"if ent.length < 5 then none","claim":"C44 file `.sock` taken as interface with empty name"},
{"definition":"userspaceLoop","file":"Verif/Model/IpcList.lean","old":"| (false, tr) => userspaceLoop heap env rest l tr","new":"| (false, tr) => .ok (0, l, tr)","claim":"C44 interfaces behind a dead socket are missing"},
{"definition":"userspaceList","file":"Verif/Model/IpcList.lean","old":"| .error e => .ok (if e = 2 then 0 else -e, l, tr)","new":"| .error e => .ok (-e, l, tr)","claim":"C44 a missing directory makes listing fail"},
{"definition":"parseLinkinfo","file":"Verif/Model/IpcList.lean","old":"(strEqAt mem b!\"wireguard\" (a + 4))","new":"(strEqAt mem b!\"wireguar\" (a + 4))","claim":"C53 wrong kind"},
{"definition":"parseLinkinfo","file":"Verif/Model/IpcList.lean","old":"fun eq => .ok (1, if eq then { s with isWg := true } else s)","new":"fun eq => .ok (1, { s with isWg := true })","claim":"C53 interfaces of any kind are listed"},
{"definition":"parseInfomsg","file":"Verif/Model/IpcList.lean","old":"if t = 18 then parseNested mem a (parseLinkinfo mem) s","new":"if t = 18 then parseLinkinfo mem a s","claim":"C53 nest not entered"},
{"definition":"linkRun","file":"Verif/Model/IpcList.lean","old":"else if v.1 = 2 then linkRun heap seq portid rest v.2","new":"else if v.1 = 1 then linkRun heap seq portid rest v.2","claim":"C53 only the first datagram is read"},
{"definition":"ipcListDevices","file":"Verif/Model/IpcList.lean","old":"(userspaceList heap env l tr).bind","new":"(userspaceList heap env {} tr).bind","claim":"C44 kernel interfaces are lost"},
{"definition":"ipcListDevices","file":"Verif/Model/IpcList.lean","old":".ok (some (l.buf.getD [0]), tr)","new":".ok (l.buf, tr)","claim":"C44 no interfaces is reported as an error"},
{"definition":"ipcSetDevice","file":"Verif/Model/IpcList.lean","old":"match hasInterface env dev.name tr with\n  | (true, tr) =>\n    match interfaceFile env dev.name tr with\n    | (none, tr) => (.socket (sockPath env dev.name), tr)","new":"match hasInterface env dev.name tr with\n  | (true, tr) =>\n    match interfaceFile env (dev.name.take 8) tr with\n    | (none, tr) => (.socket (sockPath env dev.name), tr)","claim":"C46 another interface's socket is opened"},
{"definition":"ipcGetDevice","file":"Verif/Model/IpcList.lean","old":"| (false, tr) => (.kernel iface, tr)","new":"| (false, tr) => (.kernel (iface.take 15), tr)","claim":"C46/C47 another kernel interface is read"},
{"definition":"walkNames","file":"Verif/Model/IpcList.lean","old":"(walkNames mem fuel (i + s.length + 1)).bind","new":"(walkNames mem fuel (i + s.length)).bind","claim":"C44 walk stops after the first name"},
{"definition":"wgMain","file":"Verif/Model/Main.lean","old":"if rest = [] ∧ (w = b!\"-v\"","new":"if (w = b!\"-v\"","claim":"C45 version words with more arguments","count":1},
{"definition":"subcommands","file":"Verif/Model/Main.lean","old":"(b!\"addconf\", .setconf,","new":"(b!\"addconf\", .set,","claim":"C45 addconf runs set"},
{"definition":"wgMain","file":"Verif/Model/Main.lean","old":"++ mainUsage prog, 1⟩","new":"++ mainUsage prog, 0⟩","claim":"C45 exit status of unknown words"},
{"definition":"wgMain","file":"Verif/Model/Main.lean","old":"| [] => runSub m prog .show [b!\"show\"]","new":"| [] => .text ⟨mainUsage prog, [], 0⟩","claim":"C45 default is show"},
{"definition":"findSub","file":"Verif/Model/Main.lean","old":"if word = s.1 then some s.2.1","new":"if word.isPrefixOf s.1 then some s.2.1","claim":"C45 abbreviations accepted"},
{"definition":"copyName","file":"Verif/Model/Setconf.lean","old":"name.take 15","new":"name.take 14","claim":"C47 names of 15 bytes cut"},
{"definition":"kernelGet","file":"Verif/Model/IpcLinux.lean","old":"if iface.length ≥ 16 then","new":"if iface.length ≥ 17 then","claim":"C47 reading a name that is too long is not refused"}
]
