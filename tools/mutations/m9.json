[
 {
  "definition": "mnlOpen",
  "file": "Verif/Model/NetlinkOpen.lean",
  "old": "| some e => (some e, [.take .nl, .give .nl])",
  "new": "| some e => (some e, [.take .nl])",
  "claim": "C63 mnl_socket leaked when socket() fails",
  "count": 1
 },
 {
  "definition": "mnlClose",
  "file": "Verif/Model/NetlinkOpen.lean",
  "old": "[.give .fd, .give .nl]",
  "new": "[.give .nl]",
  "claim": "C63 descriptor leaked",
  "count": 1
 },
 {
  "definition": "famAttrCb",
  "file": "Verif/Model/NetlinkOpen.lean",
  "old": "if t = 1 then validFixed mem a 2 else .ok true",
  "new": ".ok true",
  "claim": "C63 size of the id not checked",
  "count": 1
 },
 {
  "definition": "famAttrCb",
  "file": "Verif/Model/NetlinkOpen.lean",
  "old": "if t > max then .ok (-1, 95, st.2) -- EOPNOTSUPP\n  else",
  "new": "if t > max then .ok (1, st.1, st.2) else",
  "claim": "C63 unknown attribute: continue (code stops)",
  "count": 1
 },
 {
  "definition": "famAttrCb",
  "file": "Verif/Model/NetlinkOpen.lean",
  "old": "if t = 1 then some a else st.2",
  "new": "if t = 2 then some a else st.2",
  "claim": "C63 id taken from another attribute",
  "count": 1
 },
 {
  "definition": "famAttrCb",
  "file": "Verif/Model/NetlinkOpen.lean",
  "old": "some a else st.2",
  "new": "if st.2 = none then some a else st.2 else st.2",
  "claim": "C63 first attribute wins instead of last",
  "count": 1
 },
 {
  "definition": "famCb",
  "file": "Verif/Model/NetlinkOpen.lean",
  "old": "parseMsg mem h 4",
  "new": "parseMsg mem h 0",
  "claim": "C63 attributes start at wrong offset",
  "count": 1
 },
 {
  "definition": "famCb",
  "file": "Verif/Model/NetlinkOpen.lean",
  "old": "| none => .ok (-1, errno, st.2)",
  "new": "| none => .ok (1, errno, st.2)",
  "claim": "C63 reply without id accepted",
  "count": 1
 },
 {
  "definition": "famCb",
  "file": "Verif/Model/NetlinkOpen.lean",
  "old": "rdNum mem (a + 4) 2",
  "new": "rdNum mem (a + 4) 4",
  "claim": "C63 id read as 32 bits: outside of attribute",
  "count": 1
 },
 {
  "definition": "famCb",
  "file": "Verif/Model/NetlinkOpen.lean",
  "old": "rdNum mem (a + 4) 2",
  "new": "rdNum mem (a + 2) 2",
  "claim": "C63 id read from the wrong place",
  "count": 1
 },
 {
  "definition": "famRequest",
  "file": "Verif/Model/NetlinkOpen.lean",
  "old": "body.length 5 seq 3",
  "new": "body.length 1 seq 3",
  "claim": "C63 request without ACK: reader waits forever",
  "count": 1
 },
 {
  "definition": "famRequest",
  "file": "Verif/Model/NetlinkOpen.lean",
  "old": "body.length 5 seq 3",
  "new": "body.length 5 seq 1",
  "claim": "C63 wrong controller command",
  "count": 1
 },
 {
  "definition": "famRequest",
  "file": "Verif/Model/NetlinkOpen.lean",
  "old": "id := 16",
  "new": "id := 17",
  "claim": "C63 sent to another family",
  "count": 1
 },
 {
  "definition": "famRequest",
  "file": "Verif/Model/NetlinkOpen.lean",
  "old": "putAttr [] 2 (name ++ [0])",
  "new": "putAttr [] 2 name",
  "claim": "C63 name without terminator",
  "count": 1
 },
 {
  "definition": "mnlgOpen",
  "file": "Verif/Model/NetlinkOpen.lean",
  "old": "if !o.mallocBuf then (.ok (.error 12), ev ++ errBuf)",
  "new": "if !o.mallocBuf then (.ok (.error 12), ev)",
  "claim": "C63 leak",
  "count": 1
 },
 {
  "definition": "mnlgOpen",
  "file": "Verif/Model/NetlinkOpen.lean",
  "old": "| (some e, ev') => (.ok (.error e), ev ++ ev' ++ errOpen)",
  "new": "| (some e, ev') => (.ok (.error e), ev ++ ev' ++ mnlClose ++ errOpen)",
  "claim": "C63 close of a socket that was not opened",
  "count": 1
 },
 {
  "definition": "mnlgOpen",
  "file": "Verif/Model/NetlinkOpen.lean",
  "old": "| some e => (.ok (.error e), ev ++ errBind)\n          | none =>",
  "new": "| some e => (.ok (.error e), ev ++ errOpen)\n          | none =>",
  "claim": "C63 socket leaked when sending fails",
  "count": 1
 },
 {
  "definition": "mnlgOpen",
  "file": "Verif/Model/NetlinkOpen.lean",
  "old": "recvRun o.seq.toNat o.sock.portid",
  "new": "recvRun 0 o.sock.portid",
  "claim": "C63 replies to other requests accepted",
  "count": 1
 },
 {
  "definition": "mnlgOpen",
  "file": "Verif/Model/NetlinkOpen.lean",
  "old": "recvRun o.seq.toNat o.sock.portid",
  "new": "recvRun o.seq.toNat 0",
  "claim": "C63 replies for other ports accepted",
  "count": 1
 },
 {
  "definition": "mnlgOpen",
  "file": "Verif/Model/NetlinkOpen.lean",
  "old": "if errno = 2 then 93 else errno",
  "new": "errno",
  "claim": "C63 unknown family reported as ENOENT",
  "count": 1
 },
 {
  "definition": "mnlgOpen",
  "file": "Verif/Model/NetlinkOpen.lean",
  "old": "if errno \u2260 0 then errno else 38",
  "new": "errno",
  "claim": "C63 failure with errno 0 reported as 0",
  "count": 1
 },
 {
  "definition": "mnlgOpen",
  "file": "Verif/Model/NetlinkOpen.lean",
  "old": "if ret < 0 then",
  "new": "if ret \u2264 0 then",
  "claim": "C63 success taken as failure",
  "count": 1
 },
 {
  "definition": "mnlgOpen",
  "file": "Verif/Model/NetlinkOpen.lean",
  "old": "else (.ok (.ok id), ev)",
  "new": "else (.ok (.ok 16), ev)",
  "claim": "C63 id not stored",
  "count": 1
 },
 {
  "definition": "mnlgClose",
  "file": "Verif/Model/NetlinkOpen.lean",
  "old": "[.give .buf, .give .nlg]",
  "new": "[.give .nlg]",
  "claim": "C63 buffer leaked",
  "count": 1
 },
 {
  "definition": "kernelSetDevice",
  "file": "Verif/Model/NetlinkOpen.lean",
  "old": "id := id, version",
  "new": "id := 16, version",
  "claim": "C63 family id not used",
  "count": 1
 },
 {
  "definition": "kernelSetDevice",
  "file": "Verif/Model/NetlinkOpen.lean",
  "old": "ev ++ msgs.map .send ++ mnlgClose",
  "new": "ev ++ msgs.map .send",
  "claim": "C63 socket leaked",
  "count": 1
 },
 {
  "definition": "kernelSetDevice",
  "file": "Verif/Model/NetlinkOpen.lean",
  "old": "(.ok (-e), ev)",
  "new": "(.ok e, ev)",
  "claim": "C63 sign of the error",
  "count": 1
 },
 {
  "definition": "kernelSetDevice",
  "file": "Verif/Model/NetlinkOpen.lean",
  "old": "o.sock.portid seq send",
  "new": "0 seq send",
  "claim": "C63 answers for other ports accepted",
  "count": 1
 },
 {
  "definition": "getRequest",
  "file": "Verif/Model/NetlinkOpen.lean",
  "old": "putAttr [] 2 (iface",
  "new": "putAttr [] 1 (iface",
  "claim": "C63 interface named in the wrong attribute",
  "count": 1
 },
 {
  "definition": "getRequest",
  "file": "Verif/Model/NetlinkOpen.lean",
  "old": "0x305 seq 0",
  "new": "5 seq 0",
  "claim": "C63 get without dump flag",
  "count": 1
 },
 {
  "definition": "getRequest",
  "file": "Verif/Model/NetlinkOpen.lean",
  "old": "0x305 seq 0",
  "new": "0x305 seq 1",
  "claim": "C63 a read sends a set command",
  "count": 1
 },
 {
  "definition": "getRequest",
  "file": "Verif/Model/NetlinkOpen.lean",
  "old": "id := id",
  "new": "id := 16",
  "claim": "C63 get sent to the controller",
  "count": 1
 },
 {
  "definition": "kernelGetDevice",
  "file": "Verif/Model/NetlinkOpen.lean",
  "old": "[.take .dev] ++ ev ++ [.give .dev])",
  "new": "[.take .dev] ++ ev)",
  "claim": "C63 device leaked when opening fails",
  "count": 1
 },
 {
  "definition": "kernelGetDevice",
  "file": "Verif/Model/NetlinkOpen.lean",
  "old": "let ev := ev ++ mnlgClose ++ [.give .dev]",
  "new": "let ev := ev ++ mnlgClose",
  "claim": "C63 device leaked",
  "count": 1
 },
 {
  "definition": "kernelGetDevice",
  "file": "Verif/Model/NetlinkOpen.lean",
  "old": "let ev := ev ++ mnlgClose ++ [.give .dev]",
  "new": "let ev := ev ++ [.give .dev]",
  "claim": "C63 socket leaked on errors",
  "count": 1
 },
 {
  "definition": "kernelGetDevice",
  "file": "Verif/Model/NetlinkOpen.lean",
  "old": "if e = 4 then let r",
  "new": "if e = 11 then let r",
  "claim": "C63/C31 interrupted dump not retried",
  "count": 1
 },
 {
  "definition": "kernelGetDevice",
  "file": "Verif/Model/NetlinkOpen.lean",
  "old": "if errno \u2260 0 then errno else 22",
  "new": "errno",
  "claim": "C63/C31 failure with errno 0",
  "count": 1
 },
 {
  "definition": "kernelGetDevice",
  "file": "Verif/Model/NetlinkOpen.lean",
  "old": "ev ++ mnlgClose)\n          | .ub",
  "new": "ev ++ mnlgClose ++ [.give .dev])\n          | .ub",
  "claim": "C63 returned device freed",
  "count": 1
 },
 {
  "definition": "kernelGetDevice",
  "file": "Verif/Model/NetlinkOpen.lean",
  "old": "if iface.length \u2265 16 then",
  "new": "if iface.length > 16 then",
  "claim": "C63 name of 16 bytes",
  "count": 1
 },
 {
  "definition": "linkRequest",
  "file": "Verif/Model/NetlinkOpen.lean",
  "old": "u16b 0x305",
  "new": "u16b 5",
  "claim": "C63 links: no dump",
  "count": 1
 },
 {
  "definition": "linkRequest",
  "file": "Verif/Model/NetlinkOpen.lean",
  "old": "u16b 18",
  "new": "u16b 16",
  "claim": "C63 links: RTM_NEWLINK",
  "count": 1
 },
 {
  "definition": "linkRequest",
  "file": "Verif/Model/NetlinkOpen.lean",
  "old": "List.replicate 16 0",
  "new": "[0,0,0,0,1,0,0,0] ++ List.replicate 8 0",
  "claim": "C63 links: only one interface",
  "count": 1
 },
 {
  "definition": "kernelLinks",
  "file": "Verif/Model/NetlinkOpen.lean",
  "old": "let cleanup : List NlEv := [.give .buf] ++ mnlClose",
  "new": "let cleanup : List NlEv := mnlClose",
  "claim": "C63 buffer leaked",
  "count": 1
 },
 {
  "definition": "kernelLinks",
  "file": "Verif/Model/NetlinkOpen.lean",
  "old": "[.take .buf] ++ ev ++ [.give .buf])",
  "new": "[.take .buf] ++ ev)",
  "claim": "C63 buffer leaked if open fails",
  "count": 1
 },
 {
  "definition": "kernelLinks",
  "file": "Verif/Model/NetlinkOpen.lean",
  "old": "| some e => (.ok (-e, l), ev ++ cleanup)\n      | none =>",
  "new": "| some e => (.ok (0, l), ev ++ cleanup)\n      | none =>",
  "claim": "C63 bind error ignored",
  "count": 1
 },
 {
  "definition": "ipcSet",
  "file": "Verif/Model/Ipc.lean",
  "old": "| some e => (.ok (-e), .nothing, tr)",
  "new": "| some e => (.ok 0, .nothing, tr)",
  "claim": "C62 open error ignored: success without effect",
  "count": 1
 },
 {
  "definition": "ipcSet",
  "file": "Verif/Model/Ipc.lean",
  "old": "userspaceSetReply sys.env.sc a.1 a.2",
  "new": "userspaceSetReply sys.env.sc 0 a.2",
  "claim": "C62 errno of the reply lost",
  "count": 1
 },
 {
  "definition": "ipcSet",
  "file": "Verif/Model/Ipc.lean",
  "old": "(.noSocket e, tr) => (.ok (-e), .nothing",
  "new": "(.noSocket e, tr) => (.ok 0, .nothing",
  "claim": "C62 socket error ignored",
  "count": 1
 },
 {
  "definition": "ipcSet",
  "file": "Verif/Model/Ipc.lean",
  "old": "sys.replies d sys.fuel 0 .start",
  "new": "sys.replies { d with peers := [] } sys.fuel 0 .start",
  "claim": "C62 peers dropped",
  "count": 1
 },
 {
  "definition": "ipcGet",
  "file": "Verif/Model/Ipc.lean",
  "old": "| (.noSocket e, tr) => (.ok (-e, none), tr)",
  "new": "| (.noSocket e, tr) => (.ok (0, some {}), tr)",
  "claim": "C62 unreadable interface shown as empty",
  "count": 1
 },
 {
  "definition": "ipcGet",
  "file": "Verif/Model/Ipc.lean",
  "old": "userspaceGetReply sys.env sys.pubOf iface",
  "new": "userspaceGetReply sys.env sys.pubOf []",
  "claim": "C62 name of the interface lost",
  "count": 1
 }
]