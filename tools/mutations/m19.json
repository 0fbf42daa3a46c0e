[{"definition": "makeRoom", "file": "Verif/Model/DemoServer.lean", "old": "d.length \u2265 253", "new": "d.length \u2265 254", "claim": "C95: a 254th peer makes room too late", "count": 1}, {"definition": "makeRoom", "file": "Verif/Model/DemoServer.lean", "old": "p.key \u2260 k", "new": "p.key = k", "claim": "C95: all peers but the oldest are removed", "count": 1}, {"definition": "nextIp", "file": "Verif/Model/DemoServer.lean", "old": "(List.range 253).map (\u00b7 + 2)", "new": "(List.range 253).map (\u00b7 + 1)", "claim": "C95: the address of the server is given out", "count": 1}, {"definition": "nextIp", "file": "Verif/Model/DemoServer.lean", "old": "(List.range 253)", "new": "(List.range 252)", "claim": "C95: the last address is never given", "count": 1}, {"definition": "nextIp", "file": "Verif/Model/DemoServer.lean", "old": "(ipText i ++ b!\"/32\") <:+: allowedText d", "new": "(ipText i) <:+: allowedText d", "claim": "C95: an address that begins another one is thought taken", "count": 1}, {"definition": "give", "file": "Verif/Model/DemoServer.lean", "old": "p.hosts.filter (\u00b7 \u2260 h)", "new": "p.hosts", "claim": "C95: address shared", "count": 1}, {"definition": "give", "file": "Verif/Model/DemoServer.lean", "old": "others ++ [\u27e8k, [h], 0\u27e9]", "new": "others", "claim": "C95: new client not added", "count": 1}, {"definition": "readLine", "file": "Verif/Model/DemoServer.lean", "old": "c = 32 \u2228 c = 9", "new": "c = 32", "claim": "C95: tab kept", "count": 1}, {"definition": "assign", "file": "Verif/Model/DemoServer.lean", "old": "keyFromBase64 true text, ip", "new": "keyFromBase64 true (text.take 44), ip", "claim": "C95: longer text taken for a key", "count": 1}, {"definition": "answer", "file": "Verif/Model/DemoServer.lean", "old": "b!\"OK:\" ++ keyToBase64 pub ++ b!\":\" ++ showDec port", "new": "b!\"OK:\" ++ keyToBase64 pub ++ b!\":\" ++ showDec (port % 65535)", "claim": "C95: port wrong", "count": 1}, {"definition": "answer", "file": "Verif/Model/DemoServer.lean", "old": "b!\"ERROR\\n\"", "new": "b!\"OK\\n\"", "claim": "C95: refusal looks like success", "count": 1}, {"definition": "session", "file": "Verif/Model/DemoServer.lean", "old": "match assign d text (nextIp d)", "new": "match assign d text (nextIp [])", "claim": "C95: address of somebody else", "count": 1}, {"definition": "clientReads", "file": "Verif/Model/DemoServer.lean", "old": "if status = b!\"OK\" then", "new": "if status \u2260 b!\"ERROR\" then", "claim": "C95: garbage accepted", "count": 1}, {"definition": "argText", "file": "Verif/Model/ExtractHandshakes.lean", "old": "showDec (i * 8 + s.offset)", "new": "showDec (i * 4 + s.offset)", "claim": "C96: wrong words", "count": 1}, {"definition": "argText", "file": "Verif/Model/ExtractHandshakes.lean", "old": "b!\"+\" ++ showDec ind ++ b!\"(\" ++ reg", "new": "b!\"+\" ++ showDec s.offset ++ b!\"(\" ++ reg", "claim": "C96: wrong pointer", "count": 1}, {"definition": "unpack", "file": "Verif/Model/ExtractHandshakes.lean", "old": "List.replicate (16 - s.length) c!\"0\" ++ s", "new": "s ++ List.replicate (16 - s.length) c!\"0\"", "claim": "C96: big endian padded at the end", "count": 1}, {"definition": "unpack", "file": "Verif/Model/ExtractHandshakes.lean", "old": "if s.length % 2 = 1 then c!\"0\" :: s else s", "new": "s", "claim": "C96: odd digits", "count": 1}, {"definition": "unpack", "file": "Verif/Model/ExtractHandshakes.lean", "old": "(7 - i) * 2", "new": "i * 2", "claim": "C96: bytes reversed", "count": 1}, {"definition": "hexVal", "file": "Verif/Model/ExtractHandshakes.lean", "old": "97 \u2264 c \u2227 c \u2264 102", "new": "97 \u2264 c \u2227 c < 102", "claim": "C96: f no digit", "count": 1}, {"definition": "shown", "file": "Verif/Model/ExtractHandshakes.lean", "old": "4 * j + i", "new": "4 * i + j", "claim": "C96: words of other keys", "count": 1}, {"definition": "shown", "file": "Verif/Model/ExtractHandshakes.lean", "old": "List.range 4).flatMap fun i => unpack", "new": "List.range 3).flatMap fun i => unpack", "claim": "C96: short key", "count": 1}, {"definition": "shown", "file": "Verif/Model/ExtractHandshakes.lean", "old": "| none => []\n  | some caps", "new": "| none => [b!\"?\"]\n  | some caps", "claim": "C96: other lines shown", "count": 1}, {"definition": "regexNames", "file": "Verif/Model/ExtractHandshakes.lean", "old": "(List.range 4).map fun i => argName s i", "new": "(List.range 4).map fun i => argName s (3 - i)", "claim": "C96: names in wrong order", "count": 1}, {"definition": "devLoop", "file": "Verif/Model/Completion.lean", "old": "(i + 2) s", "new": "(i + 1) s", "claim": "C97: a value taken for an option", "count": 1}, {"definition": "devLoop", "file": "Verif/Model/Completion.lean", "old": "if w = b!\"fwmark\" then { s with fwmark := true }", "new": "if w = b!\"fwmark\" then { s with listenPort := true }", "claim": "C97: fwmark offered again", "count": 1}, {"definition": "devLoop", "file": "Verif/Model/Completion.lean", "old": "if w = b!\"private-key\" then { s with privateKey := true } else s", "new": "s", "claim": "C97: private-key offered again", "count": 1}, {"definition": "peerLoop", "file": "Verif/Model/Completion.lean", "old": "(if words.getD (i + 2) [] = b!\"=\" then i + 2 else i + 1) + 1", "new": "(i + 1) + 1", "claim": "C97: broken keys", "count": 1}, {"definition": "peerLoop", "file": "Verif/Model/Completion.lean", "old": "else i + 1) + 1) {}", "new": "else i + 1) + 1) g", "claim": "C97: options of the first peer never offered for the second", "count": 1}, {"definition": "peerLoop", "file": "Verif/Model/Completion.lean", "old": "if w = b!\"remove\" then i else i + 1", "new": "i + 1", "claim": "C97: remove has a value", "count": 1}, {"definition": "peerLoop", "file": "Verif/Model/Completion.lean", "old": "if w = b!\"remove\" then { g with remove := true } else g", "new": "g", "claim": "C97: options offered for a removed peer", "count": 1}, {"definition": "devWords", "file": "Verif/Model/Completion.lean", "old": "++ [b!\"peer\"]", "new": "", "claim": "C97: peer not offered", "count": 1}, {"definition": "peerWords", "file": "Verif/Model/Completion.lean", "old": "++ [b!\"remove\"]) ++ [b!\"peer\"]", "new": ") ++ [b!\"peer\"]", "claim": "C97: remove not offered", "count": 1}, {"definition": "completeSet", "file": "Verif/Model/Completion.lean", "old": "if cword % 2 \u2260 0 then", "new": "if cword % 2 = 0 then", "claim": "C97: options offered for values", "count": 1}, {"definition": "completeSet", "file": "Verif/Model/Completion.lean", "old": "b!\"-key\".isSuffixOf before", "new": "b!\"key\".isSuffixOf cur", "claim": "C97: no files for private-key", "count": 1}, {"definition": "completeSet", "file": "Verif/Model/Completion.lean", "old": "words.getD 2 []", "new": "words.getD 1 []", "claim": "C97: peers of the wrong interface", "count": 1}, {"definition": "completeSet", "file": "Verif/Model/Completion.lean", "old": "if i = cword then", "new": "if i \u2265 cword then", "claim": "C97: options offered for values of peers", "count": 1}, {"definition": "completeSet", "file": "Verif/Model/Completion.lean", "old": "words cword s.peer {}", "new": "words cword 3 {}", "claim": "C97: starts at the wrong place", "count": 1}, {"definition": "complete", "file": "Verif/Model/Completion.lean", "old": "syncconf genkey genpsk pubkey\" cur", "new": "syncconf genkey pubkey\" cur", "claim": "C97: genpsk not offered", "count": 1}, {"definition": "complete", "file": "Verif/Model/Completion.lean", "old": "if sub = b!\"show\" then b!\" all interfaces\"", "new": "if sub = b!\"set\" then b!\" all interfaces\"", "claim": "C97: all offered to wg set", "count": 1}, {"definition": "complete", "file": "Verif/Model/Completion.lean", "old": "sub = b!\"show\" \u2227 words.getD 2 [] \u2260 b!\"interfaces\"", "new": "sub = b!\"show\"", "claim": "C97: words offered after wg show interfaces", "count": 1}, {"definition": "complete", "file": "Verif/Model/Completion.lean", "old": "fwmark latest-handshakes", "new": "fwmark latest-handshake", "claim": "C97: a word wg show does not take", "count": 1}, {"definition": "complete", "file": "Verif/Model/Completion.lean", "old": "sub = b!\"setconf\" \u2228 sub = b!\"addconf\" \u2228 sub = b!\"syncconf\")", "new": "sub = b!\"setconf\" \u2228 sub = b!\"addconf\")", "claim": "C97: no files for syncconf", "count": 1}, {"definition": "substituted", "file": "Verif/Model/Completion.lean", "old": "(out.reverse.dropWhile (\u00b7 = 10)).reverse", "new": "out.takeWhile (\u00b7 \u2260 10)", "claim": "C97: only the first key offered", "count": 1}, {"definition": "compgenW", "file": "Verif/Model/Completion.lean", "old": "cur.isPrefixOf w", "new": "cur.isSuffixOf w", "claim": "C97: wrong filter", "count": 1}]