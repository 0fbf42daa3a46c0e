[
{"definition":"putCheck","file":"Verif/Model/Netlink.lean","old":"if 20 + m.length + 4 + align4 data.length > c.size","new":"if m.length + 4 + align4 data.length > c.size","claim":"C30 messages overflow the buffer"},
{"definition":"nestFits","file":"Verif/Model/Netlink.lean","old":"¬ 20 + m.length + 4 > c.size","new":"¬ 20 + m.length > c.size","claim":"C30 nest header written past the buffer"},
{"definition":"nestEnd","file":"Verif/Model/Netlink.lean","old":"u16b (m.length - start)","new":"u16b (m.length - start - 4)","claim":"C30 nest lengths wrong"},
{"definition":"nestCancel","file":"Verif/Model/Netlink.lean","old":"m.take start","new":"m.take (start + 4)","claim":"C29 an empty nest stays behind"},
{"definition":"peersLoop","file":"Verif/Model/IpcLinux.lean","old":"| [] => peersLoop c m' ps none","new":"| [] => peersLoop c m' ps (some [])","claim":"C29 the next peer is sent without its settings and allowed IPs"},
{"definition":"peersLoop","file":"Verif/Model/IpcLinux.lean","old":"let rest := ip.getD p.allowedIPs","new":"let rest := p.allowedIPs","claim":"C30 allowed IPs sent again in the next message (never ends)"},
{"definition":"peerFlagBits","file":"Verif/Model/IpcLinux.lean","old":"(if first && p.flags.replaceAllowedIPs then 2 else 0)","new":"(if p.flags.replaceAllowedIPs then 2 else 0)","claim":"C29 replace flag resent: earlier allowed IPs are dropped"},
{"definition":"peerFlagBits","file":"Verif/Model/IpcLinux.lean","old":"(if p.flags.removeMe then 1 else 0) + (if first","new":"(if first && p.flags.removeMe then 1 else 0) + (if first","claim":"C29 continuation of a removed peer recreates it"},
{"definition":"devAttrs","file":"Verif/Model/IpcLinux.lean","old":"let m := putAttr m 2 (d.name ++ [0])\n  if first then","new":"let m := putAttr m 2 (d.name ++ [0])\n  if true then","claim":"C29 settings (replace peers) resent in every message"},
{"definition":"devAttrs","file":"Verif/Model/IpcLinux.lean","old":"putAttr m 2 (d.name ++ [0])","new":"putAttr m 2 d.name","claim":"C30 name without terminator"},
{"definition":"peerAttrs","file":"Verif/Model/IpcLinux.lean","old":"putIf (first && p.flags.hasPresharedKey)","new":"putIf (p.flags.hasPresharedKey)","claim":"C30 preshared key sent twice"},
{"definition":"sockaddrBytes","file":"Verif/Model/IpcLinux.lean","old":"u16b 2 ++ [UInt8.ofNat (p.toNat / 256), UInt8.ofNat p.toNat]","new":"u16b 2 ++ [UInt8.ofNat p.toNat, UInt8.ofNat (p.toNat / 256)]","claim":"C29 port in host byte order"},
{"definition":"setLoop","file":"Verif/Model/IpcLinux.lean","old":"if ret < 0 then (.ok (if errno ≠ 0 then -errno else -22), [w])","new":"if ret < -1 then (.ok (if errno ≠ 0 then -errno else -22), [w])","claim":"C29 refusals ignored"},
{"definition":"putIP","file":"Verif/Model/IpcLinux.lean","old":"else (nestCancel r.1 m.length, false)","new":"else (nestEnd r.1 m.length, false)","claim":"C30 half an allowed IP stays in the message"},
{"definition":"coalesce","file":"Verif/Model/IpcLinux.lean","old":"go { p with ips := p.ips ++ q.ips, lastSet := q.lastSet } qs","new":"go { p with ips := q.ips, lastSet := q.lastSet } qs","claim":"C31 earlier allowed IPs of a split peer lost"},
{"definition":"coalesce","file":"Verif/Model/IpcLinux.lean","old":"if p.pub ≠ q.pub then (go q qs).map (p :: ·)","new":"if p.pub ≠ q.pub then (go p qs).map (q :: ·)","claim":"C31 peers out of order"},
{"definition":"nlParseAllowedips","file":"Verif/Model/IpcLinux.lean","old":"(ip.family = 10 ∧ ip.cidr ≤ 128)","new":"(ip.family = 10 ∧ ip.cidr ≤ 64)","claim":"C31 long IPv6 prefixes refused"},
{"definition":"nlParsePeer","file":"Verif/Model/IpcLinux.lean","old":"fun x => { st.2 with rx := x }","new":"fun x => { st.2 with tx := x }","claim":"C31 counters swapped"},
{"definition":"nlParsePeer","file":"Verif/Model/IpcLinux.lean","old":"hasPsk := st.2.hasPsk || !allZero b","new":"hasPsk := true","claim":"C31 all-zero preshared key reported as set"},
{"definition":"nlParseEp","file":"Verif/Model/IpcLinux.lean","old":"if n < 16 then .ok ep","new":"if n < 1 then .ok ep","claim":"C32 family read outside of a short endpoint"},
{"definition":"nlParseEp","file":"Verif/Model/IpcLinux.lean","old":"else if fam = 10 ∧ n = 28 then","new":"else if fam = 10 then","claim":"C32 28 bytes read from a shorter endpoint"},
{"definition":"attrOk","file":"Verif/Model/Netlink.lean","old":"(4 ≤ n ∧ (n : Int) ≤ len)","new":"((n : Int) ≤ len)","claim":"C32 attributes of length below 4: endless walk or wrapped payload length"},
{"definition":"attrOk","file":"Verif/Model/Netlink.lean","old":"(4 ≤ n ∧ (n : Int) ≤ len)","new":"(4 ≤ n)","claim":"C32 attribute longer than what is left"},
{"definition":"walk","file":"Verif/Model/Netlink.lean","old":"walk mem tail cb fuel (a + align4 n) r st","new":"walk mem tail cb fuel (a + n) r st","claim":"C31 padding not skipped"},
{"definition":"cbRun","file":"Verif/Model/Netlink.lean","old":"if flags / 16 % 2 = 1 then .ok (-1, 4, st.2)","new":"if false then .ok (-1, 4, st.2)","claim":"C31 interrupted dumps accepted"},
{"definition":"cbRun","file":"Verif/Model/Netlink.lean","old":"if n < 16 ∨ toInt32 n > len","new":"if n < 16","claim":"C32 message longer than the datagram"},
{"definition":"kernelGet","file":"Verif/Model/IpcLinux.lean","old":"let again (e : Nat) : Res (Int × Option Device) := if e = 4 then","new":"let again (e : Nat) : Res (Int × Option Device) := if e = 3 then","claim":"C31 interrupted dump not repeated"},
{"definition":"exactPayload","file":"Verif/Model/IpcLinux.lean","old":"if len = n then (rdBytes mem (a + 4) n)","new":"if len ≤ n then (rdBytes mem (a + 4) n)","claim":"C32 short key attributes are read past their end"},
{"definition":"ctlCb","file":"Verif/Model/Netlink.lean","old":"if len < 16 + 20 then .ok (-1, 74)","new":"if len < 16 then .ok (-1, 74)","claim":"C32 error code read outside of a short message"},
{"definition":"nlParseDevice","file":"Verif/Model/IpcLinux.lean","old":"fun x => { st.2 with mark := x }","new":"fun x => { st.2 with port := x }","claim":"C31 fwmark read as port"}
]
