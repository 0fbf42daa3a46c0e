[
{
"definition": "setAt",
"file": "Verif/Model/Sticky.lean",
"old": "l.take off ++ new ++ l.drop (off + new.length)",
"new": "new ++ l.drop (off + new.length)",
"claim": "C102: scope stored at the wrong place",
"count": 1
},
{
"definition": "hdr4",
"file": "Verif/Model/Sticky.lean",
"old": "[28, 0, 0, 0, 0, 0, 0, 0] ++ [0, 0, 0, 0] ++ [8, 0, 0, 0]",
"new": "[32, 0, 0, 0, 0, 0, 0, 0] ++ [0, 0, 0, 0] ++ [8, 0, 0, 0]",
"claim": "C102: sizeof instead of CMSG_LEN",
"count": 1
},
{
"definition": "hdr6",
"file": "Verif/Model/Sticky.lean",
"old": "[41, 0, 0, 0] ++ [50, 0, 0, 0]",
"new": "[41, 0, 0, 0] ++ [49, 0, 0, 0]",
"claim": "C102: IPV6_RECVPKTINFO instead of IPV6_PKTINFO",
"count": 1
},
{
"definition": "msg4",
"file": "Verif/Model/Sticky.lean",
"old": "hdr4 ++ (ifindex ++ spec ++ zeros 4)",
"new": "hdr4 ++ (ifindex ++ zeros 4 ++ spec)",
"claim": "C102: ipi_addr instead of ipi_spec_dst",
"count": 1
},
{
"definition": "msg4",
"file": "Verif/Model/Sticky.lean",
"old": "⟨e.name.take 16, hdr4",
"new": "⟨e.name, hdr4",
"claim": "C102: 28 bytes of address for IPv4",
"count": 1
},
{
"definition": "send4",
"file": "Verif/Model/Sticky.lean",
"old": "let m := msg4 e ((e.src.drop 4).take 4) (e.src.take 4) buf",
"new": "let m := msg4 e (e.src.take 4) ((e.src.drop 4).take 4) buf",
"claim": "C102: source and interface swapped",
"count": 1
},
{
"definition": "send4",
"file": "Verif/Model/Sticky.lean",
"old": "(k (sent ++ [m, m']), sent ++ [m, m'], { e with src := setAt e.src 0 (zeros 8) })",
"new": "(k (sent ++ [m, m']), sent ++ [m, m'], e)",
"claim": "C102: source not forgotten",
"count": 1
},
{
"definition": "send4",
"file": "Verif/Model/Sticky.lean",
"old": "let m' := msg4 e (zeros 4) (zeros 4) buf",
"new": "let m' := msg4 e ((e.src.drop 4).take 4) (zeros 4) buf",
"claim": "C102: interface not forgotten in the second try",
"count": 1
},
{
"definition": "send4",
"file": "Verif/Model/Sticky.lean",
"old": "(k (sent ++ [m, m']), sent ++ [m, m'], { e with src := setAt e.src 0 (zeros 8) })",
"new": "(k (sent ++ [m, m']), sent ++ [m, m'], { e with src := setAt e.src 0 (zeros 4) })",
"claim": "C102: interface not forgotten",
"count": 1
},
{
"definition": "send4",
"file": "Verif/Model/Sticky.lean",
"old": "if n = EINVAL then\n      let m' := msg4",
"new": "if n ≠ 0 then\n      let m' := msg4",
"claim": "C102: again after every error",
"count": 1
},
{
"definition": "send4",
"file": "Verif/Model/Sticky.lean",
"old": "if n = EINVAL then\n      let m' := msg4 e (zeros 4) (zeros 4) buf\n      (k (sent ++ [m, m']), sent ++ [m, m'], { e with src := setAt e.src 0 (zeros 8) })\n    else (.error n, sent ++ [m], e)",
"new": "(.error n, sent ++ [m], if n = EINVAL then { e with src := setAt e.src 0 (zeros 8) } else e)",
"claim": "C102: not sent again",
"count": 1
},
{
"definition": "send4",
"file": "Verif/Model/Sticky.lean",
"old": "(k (sent ++ [m, m']), sent ++ [m, m'], { e with src := setAt e.src 0 (zeros 8) })",
"new": "(.error n, sent ++ [m, m'], { e with src := setAt e.src 0 (zeros 8) })",
"claim": "C102: error although sent",
"count": 1
},
{
"definition": "msg6",
"file": "Verif/Model/Sticky.lean",
"old": "hdr6 ++ (addr ++ ifindex) ++ zeros 4",
"new": "hdr6 ++ (ifindex ++ addr) ++ zeros 4",
"claim": "C102: swapped pktinfo",
"count": 1
},
{
"definition": "send6",
"file": "Verif/Model/Sticky.lean",
"old": "if e.src ≠ zeros 16 then e.name.drop 24 else zeros 4",
"new": "e.name.drop 24",
"claim": "C102: interface without a source",
"count": 1
},
{
"definition": "send6",
"file": "Verif/Model/Sticky.lean",
"old": "if e.src ≠ zeros 16 then e.name.drop 24 else zeros 4",
"new": "zeros 4",
"claim": "C102: no interface",
"count": 1
},
{
"definition": "send6",
"file": "Verif/Model/Sticky.lean",
"old": "sent ++ [m, m'], { e with src := zeros 16 })",
"new": "sent ++ [m, m'], { name := setAt e.name 24 (zeros 4), src := zeros 16 })",
"claim": "C102: scope forgotten too",
"count": 1
},
{
"definition": "send6",
"file": "Verif/Model/Sticky.lean",
"old": "sent ++ [m, m'], { e with src := zeros 16 })",
"new": "sent ++ [m, m'], e)",
"claim": "C102: source not forgotten (IPv6)",
"count": 1
},
{
"definition": "send6",
"file": "Verif/Model/Sticky.lean",
"old": "let m' := msg6 e (zeros 16) (zeros 4) buf",
"new": "let m' := msg6 e (zeros 16) (e.name.drop 24) buf",
"claim": "C102: interface in the second try",
"count": 1
},
{
"definition": "num",
"file": "Verif/Model/Sticky.lean",
"old": "b.toNat + 256 * num l",
"new": "b.toNat + 10 * num l",
"claim": "C102: %d of the interface",
"count": 1
},
{
"definition": "receive4",
"file": "Verif/Model/Sticky.lean",
"old": "setAt e.name 0 (name.take 16)",
"new": "setAt e.name 0 (name.take 8)",
"claim": "C102: short name",
"count": 1
},
{
"definition": "receive4",
"file": "Verif/Model/Sticky.lean",
"old": "28 ≤ num (c.take 8)",
"new": "28 < num (c.take 8)",
"claim": "C102: length check",
"count": 1
},
{
"definition": "receive4",
"file": "Verif/Model/Sticky.lean",
"old": "(c.drop 12).take 4 = [8, 0, 0, 0]",
"new": "(c.drop 12).take 4 = [9, 0, 0, 0]",
"claim": "C102: type check",
"count": 1
},
{
"definition": "receive4",
"file": "Verif/Model/Sticky.lean",
"old": "((c.drop 20).take 4 ++ (c.drop 16).take 4)",
"new": "((c.drop 24).take 4 ++ (c.drop 16).take 4)",
"claim": "C102: ipi_addr",
"count": 1
},
{
"definition": "receive4",
"file": "Verif/Model/Sticky.lean",
"old": "((c.drop 20).take 4 ++ (c.drop 16).take 4)",
"new": "((c.drop 20).take 4)",
"claim": "C102: interface not remembered",
"count": 1
},
{
"definition": "receive4",
"file": "Verif/Model/Sticky.lean",
"old": "(.ok (payload.take len),\n     if (c.drop 8).take 4 = [0, 0, 0, 0]",
"new": "(.ok payload,\n     if (c.drop 8).take 4 = [0, 0, 0, 0]",
"claim": "C102: overlong",
"count": 1
},
{
"definition": "receive6",
"file": "Verif/Model/Sticky.lean",
"old": "name := setAt e.name 24 ((c.drop 32).take 4), src",
"new": "name := e.name, src",
"claim": "C102: interface not remembered (IPv6)",
"count": 1
},
{
"definition": "receive6",
"file": "Verif/Model/Sticky.lean",
"old": "src := (c.drop 16).take 16 }",
"new": "src := (c.drop 20).take 16 }",
"claim": "C102: wrong offset",
"count": 1
},
{
"definition": "receive6",
"file": "Verif/Model/Sticky.lean",
"old": ".fail n => (.error n, e)\n  | .got name control payload =>\n    let c := setAt junk 0 (control.take 40)",
"new": ".fail n => (.error n, fresh0 e)\n  | .got name control payload =>\n    let c := setAt junk 0 (control.take 40)",
"claim": "C102: failed receive clears (does not build: checks the harness)",
"count": 1
},
{
"definition": "receive6",
"file": "Verif/Model/Sticky.lean",
"old": ".fail n => (.error n, e)\n  | .got name control payload =>\n    let c := setAt junk 0 (control.take 40)",
"new": ".fail n => (.error n, { e with src := zeros 16 })\n  | .got name control payload =>\n    let c := setAt junk 0 (control.take 40)",
"claim": "C102: failed receive clears",
"count": 1
},
{
"definition": "clearsrc",
"file": "Verif/Model/Sticky.lean",
"old": "{ e with src := setAt e.src 0 (zeros 8) }\n  else if",
"new": "{ e with src := setAt e.src 0 (zeros 4) }\n  else if",
"claim": "C102: interface stays",
"count": 1
},
{
"definition": "clearsrc",
"file": "Verif/Model/Sticky.lean",
"old": "else if e.name.take 2 = [10, 0] then { e with src := zeros 16 }\n",
"new": "",
"claim": "C102: clearing an IPv6 endpoint forgets the peer",
"count": 1
},
{
"definition": "clearsrc",
"file": "Verif/Model/Sticky.lean",
"old": "if e.name.take 2 = [2, 0] then",
"new": "if e.name.take 2 = [10, 0] then",
"claim": "C102: family",
"count": 1
},
{
"definition": "set",
"file": "Verif/Model/Sticky.lean",
"old": "  clearsrc\n",
"new": "  id\n",
"claim": "C102: source of the old peer",
"count": 1
},
{
"definition": "set",
"file": "Verif/Model/Sticky.lean",
"old": "setAt e.name 0 (addr.take 28)",
"new": "setAt e.name 0 (addr.take 16)",
"claim": "C102: half an address",
"count": 1
},
{
"definition": "create",
"file": "Verif/Model/Sticky.lean",
"old": "if done = [] then [c] else done ++ [c, .close]",
"new": "done ++ [c]",
"claim": "C102: socket not closed",
"count": 1
},
{
"definition": "create",
"file": "Verif/Model/Sticky.lean",
"old": "if h.ok done c then create h (done ++ [c]) l",
"new": "if true then create h (done ++ [c]) l",
"claim": "C102: errors ignored",
"count": 1
},
{
"definition": "sock4",
"file": "Verif/Model/Sticky.lean",
"old": "[.socket 2, .opt 0 8, .bind",
"new": "[.socket 2, .bind",
"claim": "C102: no IP_PKTINFO",
"count": 1
},
{
"definition": "sock6",
"file": "Verif/Model/Sticky.lean",
"old": ".opt 41 49, .opt 41 26,",
"new": ".opt 41 49,",
"claim": "C102: no V6ONLY",
"count": 1
},
{
"definition": "sock4",
"file": "Verif/Model/Sticky.lean",
"old": "[0xca, 0x6c] ++ zeros 12",
"new": "[0x6c, 0xca] ++ zeros 12",
"claim": "C102: port not in network order",
"count": 1
},
{
"definition": "fmtInt",
"file": "Verif/Model/Sticky.lean",
"old": "if num l < 2 ^ 31",
"new": "if num l ≤ 2 ^ 31",
"claim": "C102: sign of the interface",
"count": 1
},
{
"definition": "main4",
"file": "Verif/Model/Sticky.lean",
"old": "send4 h.kernel [] e (setAt (zeros 1024) 0 data)",
"new": "send4 h.kernel [] e data",
"claim": "C102: only what was received (better than the code)",
"count": 1
},
{
"definition": "main4",
"file": "Verif/Model/Sticky.lean",
"old": "report ((e.src.drop 4).take 4) (ntop4 (vec 4 (e.src.take 4))) (ntop4 (vec 4 ((e.name.drop 4).take 4)))",
"new": "report ((e.src.drop 4).take 4) (ntop4 (vec 4 ((e.name.drop 4).take 4))) (ntop4 (vec 4 (e.src.take 4)))",
"claim": "C102: source and destination swapped in the text",
"count": 1
},
{
"definition": "main6",
"file": "Verif/Model/Sticky.lean",
"old": "match receive6 h.recv h.junk fresh 1024",
"new": "match receive4 h.recv h.junk fresh 1024",
"claim": "C102: wrong function",
"count": 1
},
{
"definition": "main6",
"file": "Verif/Model/Sticky.lean",
"old": "exit := 1 }\n      | (.ok _, sent, _) => { calls := cs ++ [.recv, .sleep 10, .close], sent, out, exit := 0 }\n\n/-- 246",
"new": "exit := 0 }\n      | (.ok _, sent, _) => { calls := cs ++ [.recv, .sleep 10, .close], sent, out, exit := 0 }\n\n/-- 246",
"claim": "C102: success although not sent",
"count": 1
},
{
"definition": "main",
"file": "Verif/Model/Sticky.lean",
"old": "if args = [b!\"-4\"] then main4 h",
"new": "if args = [b!\"-4\"] then main6 h",
"claim": "C102: -4 is IPv6",
"count": 1
},
{
"definition": "main",
"file": "Verif/Model/Sticky.lean",
"old": "else { calls := [], exit := 1 }",
"new": "else main6 h",
"claim": "C102: other arguments",
"count": 1
}
]