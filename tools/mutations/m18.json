[
 {
  "definition": "stale",
  "file": "Verif/Model/Reresolve.lean",
  "old": ".toInt > 135)",
  "new": ".toInt \u2265 135)",
  "claim": "C92: a peer whose handshake is exactly 135 seconds ago is updated"
 },
 {
  "definition": "stale",
  "file": "Verif/Model/Reresolve.lean",
  "old": "(now - t)",
  "new": "(t - now)",
  "claim": "C92: swapped operands: old handshakes never count as stale"
 },
 {
  "definition": "stale",
  "file": "Verif/Model/Reresolve.lean",
  "old": "| none => false",
  "new": "| none => true",
  "claim": "C92: a bad number counts as stale"
 },
 {
  "definition": "processPeer",
  "file": "Verif/Model/Reresolve.lean",
  "old": "st.key = [] \u2228 st.endpoint = []",
  "new": "st.endpoint = []",
  "claim": "C92: a section without a key is processed"
 },
 {
  "definition": "processPeer",
  "file": "Verif/Model/Reresolve.lean",
  "old": "st.key = [] \u2228 st.endpoint = []",
  "new": "st.key = []",
  "claim": "C92: a section without an endpoint is processed"
 },
 {
  "definition": "processPeer",
  "file": "Verif/Model/Reresolve.lean",
  "old": "Call.setEndpoint iface st.key st.endpoint",
  "new": "Call.setEndpoint iface st.endpoint st.key",
  "claim": "C92: swapped arguments"
 },
 {
  "definition": "processPeer",
  "file": "Verif/Model/Reresolve.lean",
  "old": "if r.status \u2260 0 then (tr, st, some r.status) else (tr, {}, none)",
  "new": "(tr, {}, none)",
  "claim": "C92: a failed wg set does not end the script"
 },
 {
  "definition": "processPeer",
  "file": "Verif/Model/Reresolve.lean",
  "old": "if r.status \u2260 0 then (tr, st, some r.status)",
  "new": "if r.status \u2260 0 then (tr, st, some 1)",
  "claim": "C92: another exit status"
 },
 {
  "definition": "processPeer",
  "file": "Verif/Model/Reresolve.lean",
  "old": "if stale c.time d = false then",
  "new": "if stale c.time d = true then",
  "claim": "C92: inverted test"
 },
 {
  "definition": "loop",
  "file": "Verif/Model/Reresolve.lean",
  "old": "| (tr, _, none) => next {} tr",
  "new": "| (tr, st, none) => next st tr",
  "claim": "C92: the section is not reset: a peer without a key takes the one before"
 },
 {
  "definition": "loop",
  "file": "Verif/Model/Reresolve.lean",
  "old": "{ st with peer := true }",
  "new": "{ st with peer := false }",
  "claim": "C92: no section is a peer"
 },
 {
  "definition": "loop",
  "file": "Verif/Model/Reresolve.lean",
  "old": "if st.peer then\n          if strcaseeq key b!\"PublicKey\"",
  "new": "if true then\n          if strcaseeq key b!\"PublicKey\"",
  "claim": "C92: keys outside peer sections count"
 },
 {
  "definition": "loop",
  "file": "Verif/Model/Reresolve.lean",
  "old": "strcaseeq key b!\"Endpoint\" then { st with endpoint := value }",
  "new": "strcaseeq key b!\"AllowedIPs\" then { st with endpoint := value }",
  "claim": "C92: another field is the endpoint"
 },
 {
  "definition": "loop",
  "file": "Verif/Model/Reresolve.lean",
  "old": "b!\"[Peer]\" then",
  "new": "b!\"[Interface]\" then",
  "claim": "C92: another section"
 },
 {
  "definition": "loop",
  "file": "Verif/Model/Reresolve.lean",
  "old": "| st, tr, [] => match processPeer env iface st tr with\n    | (tr, _, s) => (tr, s.getD 0)",
  "new": "| _, tr, [] => (tr, 0)",
  "claim": "C92: the last peer of the file is forgotten"
 },
 {
  "definition": "matchAt",
  "file": "Verif/Model/Reresolve.lean",
  "old": "| 9 :: t =>",
  "new": "| 32 :: t =>",
  "claim": "C92: another separator"
 },
 {
  "definition": "interfaceOf",
  "file": "Verif/Model/Reresolve.lean",
  "old": ".take 15).reverse",
  "new": ".take 16).reverse",
  "claim": "C92: sixteen characters of a name"
 },
 {
  "definition": "configFile",
  "file": "Verif/Model/Reresolve.lean",
  "old": "arg.length \u2264 15",
  "new": "arg.length \u2264 16",
  "claim": "C92: sixteen characters of a name"
 },
 {
  "definition": "run",
  "file": "Verif/Model/Reresolve.lean",
  "old": "loop env iface {} [] (bodyLines content)",
  "new": "loop env arg {} [] (bodyLines content)",
  "claim": "C92: the argument instead of the name of the interface"
 },
 {
  "definition": "handshakeOf",
  "file": "Verif/Model/Reresolve.lean",
  "old": "if literalKey key then search key text else",
  "new": "if literalKey key then matchAt key text else",
  "claim": "C92: only the first line of the listing"
 },
 {
  "definition": "findOrInsert",
  "file": "Verif/Model/PunchServer.lean",
  "old": "let i := t.next % maxEntries",
  "new": "let i := 0",
  "claim": "C93: the first entry is always replaced"
 },
 {
  "definition": "findOrInsert",
  "file": "Verif/Model/PunchServer.lean",
  "old": "(t.next + 1) % 2 ^ 32",
  "new": "t.next",
  "claim": "C93: the counter is not advanced"
 },
 {
  "definition": "findOrInsert",
  "file": "Verif/Model/PunchServer.lean",
  "old": "(t.next + 1) % 2 ^ 32",
  "new": "(t.next + 1) % 1000",
  "claim": "C93: the counter wraps too early"
 },
 {
  "definition": "findOrInsert",
  "file": "Verif/Model/PunchServer.lean",
  "old": "{ e with pubkey := key }",
  "new": "e",
  "claim": "C93: the key is not stored"
 },
 {
  "definition": "findOrInsert",
  "file": "Verif/Model/PunchServer.lean",
  "old": "| some i => (i, t)",
  "new": "| some i => (i + 1, t)",
  "claim": "C93: the next entry is renewed"
 },
 {
  "definition": "turn",
  "file": "Verif/Model/PunchServer.lean",
  "old": "if packet.length \u2260 64 then (t, [])",
  "new": "if packet.length < 32 then (t, [])",
  "claim": "C93: short datagrams are taken for requests"
 },
 {
  "definition": "turn",
  "file": "Verif/Model/PunchServer.lean",
  "old": "let packet := data.take 64",
  "new": "let packet := data",
  "claim": "C93: long datagrams are not taken"
 },
 {
  "definition": "turn",
  "file": "Verif/Model/PunchServer.lean",
  "old": "{ e with addr := sender }",
  "new": "e",
  "claim": "C93: the address is not stored"
 },
 {
  "definition": "turn",
  "file": "Verif/Model/PunchServer.lean",
  "old": "findOrInsert t (packet.take 32)",
  "new": "findOrInsert t (packet.drop 32)",
  "claim": "C93: swapped keys"
 },
 {
  "definition": "turn",
  "file": "Verif/Model/PunchServer.lean",
  "old": "reply t (packet.drop 32) sender",
  "new": "reply t (packet.take 32) sender",
  "claim": "C93: the sender is told its own address"
 },
 {
  "definition": "reply",
  "file": "Verif/Model/PunchServer.lean",
  "old": "[\u27e8e.addr.ip ++ e.addr.port, sender\u27e9]",
  "new": "[\u27e8e.addr.port ++ e.addr.ip, sender\u27e9]",
  "claim": "C93: swapped fields of the answer"
 },
 {
  "definition": "reply",
  "file": "Verif/Model/PunchServer.lean",
  "old": "[\u27e8e.addr.ip ++ e.addr.port, sender\u27e9]",
  "new": "[\u27e8e.addr.ip ++ e.addr.port, e.addr\u27e9]",
  "claim": "C93: the answer goes to the wanted peer"
 },
 {
  "definition": "reply",
  "file": "Verif/Model/PunchServer.lean",
  "old": "| none => [\u27e8[], sender\u27e9]",
  "new": "| none => []",
  "claim": "C93: no answer for unknown keys: the client waits for ever"
 },
 {
  "definition": "maxEntries",
  "file": "Verif/Model/PunchServer.lean",
  "old": "maxEntries : Nat := 65536",
  "new": "maxEntries : Nat := 32768",
  "claim": "C93: half of the places"
 },
 {
  "definition": "program",
  "file": "Verif/Model/PunchClient.lean",
  "old": ".ldWord 12",
  "new": ".ldWord 16",
  "claim": "C94: the filter looks at the destination address"
 },
 {
  "definition": "program",
  "file": "Verif/Model/PunchClient.lean",
  "old": ".jeq ip 0 5",
  "new": ".jeq ip 0 4",
  "claim": "C94: packets from elsewhere are let through"
 },
 {
  "definition": "program",
  "file": "Verif/Model/PunchClient.lean",
  "old": ".jeq 49918 0 3",
  "new": ".jeq 49918 0 2",
  "claim": "C94: packets from other ports are let through"
 },
 {
  "definition": "program",
  "file": "Verif/Model/PunchClient.lean",
  "old": ".ldHalf 22",
  "new": ".ldHalf 20",
  "claim": "C94: the source port is compared with the port of the interface"
 },
 {
  "definition": "program",
  "file": "Verif/Model/PunchClient.lean",
  "old": ".jeq port 0 1",
  "new": ".jeq port 1 0",
  "claim": "C94: inverted jump"
 },
 {
  "definition": "program",
  "file": "Verif/Model/PunchClient.lean",
  "old": ".ret (2 ^ 32 - 1), .ret 0",
  "new": ".ret 0, .ret 0",
  "claim": "C94: nothing gets through"
 },
 {
  "definition": "packet",
  "file": "Verif/Model/PunchClient.lean",
  "old": "be16 49918 ++ be16 72",
  "new": "be16 49918 ++ be16 64",
  "claim": "C94: wrong length in the UDP header"
 },
 {
  "definition": "packet",
  "file": "Verif/Model/PunchClient.lean",
  "old": "be16 port ++ be16 49918",
  "new": "be16 49918 ++ be16 port",
  "claim": "C94: swapped ports"
 },
 {
  "definition": "packet",
  "file": "Verif/Model/PunchClient.lean",
  "old": "++ own ++ their",
  "new": "++ their ++ own",
  "claim": "C94: swapped keys"
 },
 {
  "definition": "setCommand",
  "file": "Verif/Model/PunchClient.lean",
  "old": "(reply.drop 28).take 4",
  "new": "(reply.drop 12).take 4",
  "claim": "C94: the address of the server is given to the peer"
 },
 {
  "definition": "setCommand",
  "file": "Verif/Model/PunchClient.lean",
  "old": "(reply.drop 32).take 2",
  "new": "(reply.drop 20).take 2",
  "claim": "C94: the port of the server is given to the peer"
 },
 {
  "definition": "round",
  "file": "Verif/Model/PunchClient.lean",
  "old": "let got := r.out.take 34\n            if got.length \u2260 34",
  "new": "let got := r.out\n            if got.length < 28",
  "claim": "C94: an empty answer is taken for an address"
 },
 {
  "definition": "round",
  "file": "Verif/Model/PunchClient.lean",
  "old": ".ok ({ p with seen := true } :: ps, rep)",
  "new": ".ok (p :: ps, rep)",
  "claim": "C94: a peer is asked for and set again"
 },
 {
  "definition": "round",
  "file": "Verif/Model/PunchClient.lean",
  "old": "| (h, .ok (ps, _)) => (h, .ok (p :: ps, true))",
  "new": "| (h, .ok (ps, rep)) => (h, .ok (p :: ps, rep))",
  "claim": "C94: ends with 0 though a peer has no address"
 },
 {
  "definition": "round",
  "file": "Verif/Model/PunchClient.lean",
  "old": "| (h, .ok (ps, _)) => (h, .ok (p :: ps, true))",
  "new": "| (h, .ok (ps, _)) => (h, .ok ({ p with seen := true } :: ps, true))",
  "claim": "C94: a peer without an answer is never asked for again"
 },
 {
  "definition": "rounds",
  "file": "Verif/Model/PunchClient.lean",
  "old": "| (h, .ok (_, false)) => (h, .exit 0)",
  "new": "| (h, .ok (_, false)) => (h, .exit 1)",
  "claim": "C94: the wrong status at the end"
 },
 {
  "definition": "rounds",
  "file": "Verif/Model/PunchClient.lean",
  "old": "| (h, .error e) => (h, e)",
  "new": "| (h, .error _) => (h, .exit 0)",
  "claim": "C94: failures end with 0"
 },
 {
  "definition": "readPeers",
  "file": "Verif/Model/PunchClient.lean",
  "old": "s.length \u2260 44 \u2227 s.length \u2260 45",
  "new": "s.length \u2260 45",
  "claim": "C94: no key is read"
 },
 {
  "definition": "readPeers",
  "file": "Verif/Model/PunchClient.lean",
  "old": "fgets 44 text",
  "new": "fgets 45 text",
  "claim": "C94: another size of the buffer: equivalent on listings of keys"
 },
 {
  "definition": "readPeers",
  "file": "Verif/Model/PunchClient.lean",
  "old": "else if total \u2265 maxPeers then none",
  "new": "else if total > maxPeers then none",
  "claim": "C94: off by one in the room of the table"
 },
 {
  "definition": "readPeers",
  "file": "Verif/Model/PunchClient.lean",
  "old": "readPeers fuel (total + 1) rest",
  "new": "readPeers fuel total rest",
  "claim": "C94: every key is stored in the same place, no overflow"
 },
 {
  "definition": "connect",
  "file": "Verif/Model/PunchClient.lean",
  "old": "WG.Android.atoi text % 65536",
  "new": "WG.Android.atoi text % 256",
  "claim": "C94: eight bits of the port"
 },
 {
  "definition": "connect",
  "file": "Verif/Model/PunchClient.lean",
  "old": "program port (be16val ip)",
  "new": "program port 0",
  "claim": "C94: the filter is for address 0"
 },
 {
  "definition": "connect",
  "file": "Verif/Model/PunchClient.lean",
  "old": "b!\" listen-port\"",
  "new": "b!\" fwmark\"",
  "claim": "C94: the mark is taken for the port"
 },
 {
  "definition": "identify",
  "file": "Verif/Model/PunchClient.lean",
  "old": "b!\" public-key\"",
  "new": "b!\" private-key\"",
  "claim": "C94: the private key is sent"
 },
 {
  "definition": "main",
  "file": "Verif/Model/PunchClient.lean",
  "old": "if env.uid \u2260 0 then ([], .exit 1)",
  "new": "if env.uid \u2260 0 then ([], .exit 0)",
  "claim": "C94: ends with 0 without root"
 }
]