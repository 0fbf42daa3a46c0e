import Verif.Model.NetlinkOpen
/-!
Model of the interface functions of contrib/embeddable-wg-library/wireguard.c ("emb"): `wg_set_device`, `wg_get_device`, `wg_list_device_names`, `wg_add_device`,
`wg_del_device`.

emb:82-858 is the text of src/netlink.h:21-797 (libmnl and mnlg), emb:862-921 that of `string_list_add` in src/ipc.c and of `parse_linkinfo`, `parse_infomsg` and
`read_devices_cb` in src/ipc-linux.h, emb:938-1003 that of `kernel_get_wireguard_interfaces`, emb:1198-1221 that of `parse_allowedip`, emb:1383-1408 that of
`read_device_cb` and `coalesce_peers`: the definitions for these are used. `SOCKET_BUFFER_SIZE` is there written out as `mnl_ideal_socket_buffer_size()`, the same number.
-/
namespace WG.Emb

/-- emb:1064-1196 `wg_set_device`, the text of ipc-linux.h:142-274. -/
def setDevice (o : OpenEnv) (size : Nat) (junk : UInt8 × UInt8) (seq : Nat → UInt32) (send : Nat → Option Nat) (replies : Nat → List Recv) (d : Device)
    (fuel : Nat) : Res Int × List NlEv := kernelSetDevice o size junk seq send replies d fuel

/-- emb:1224-1246 `parse_allowedips`; EAFNOSUPPORT is 97. -/
def parseAllowedips (mem : List UInt8) (a : Nat) (st : Nat × NlPeer) : Res (Int × Nat × NlPeer) :=
  (parseNested mem a (nlParseAllowedip mem) (st.1, {})).bind fun (ret, errno, ip) =>
  let p := { st.2 with ips := st.2.ips ++ [ip], lastSet := true }
  if ret = 0 then .ok (0, errno, p)
  else if (ip.family = 2 ∧ ip.cidr ≤ 32) ∨ (ip.family = 10 ∧ ip.cidr ≤ 128) then .ok (1, errno, p)
  else .ok (-1, 97, p)

/-- emb:1260-1313 `parse_peer`. -/
def parsePeer (mem : List UInt8) (a : Nat) (st : Nat × NlPeer) : Res (Int × Nat × NlPeer) :=
  (attrType mem a).bind fun t =>
  if t = 1 then (exactPayload mem a 32).bind fun b =>
    match b with
    | some b => .ok (1, st.1, { st.2 with pub := b, hasPub := true })
    | none => .ok (1, st)
  else if t = 2 then (exactPayload mem a 32).bind fun b =>
    match b with
    | some b => .ok (1, st.1, { st.2 with psk := b, hasPsk := st.2.hasPsk || !allZero b })
    | none => .ok (1, st)
  else if t = 4 then (nlParseEp mem a st.2.ep).bind fun ep => .ok (1, st.1, { st.2 with ep := ep })
  else if t = 5 then (fixedNum mem a 2).bind fun v => took v st.1 st.2 fun x => { st.2 with keepalive := x }
  else if t = 6 then (exactPayload mem a 16).bind fun b =>
    match b with
    | some b => .ok (1, st.1, { st.2 with handshake := b })
    | none => .ok (1, st)
  else if t = 7 then (fixedNum mem a 8).bind fun v => took v st.1 st.2 fun x => { st.2 with rx := x }
  else if t = 8 then (fixedNum mem a 8).bind fun v => took v st.1 st.2 fun x => { st.2 with tx := x }
  else if t = 9 then parseNested mem a (parseAllowedips mem) st
  else .ok (1, st)

/-- emb:1315-1337 `parse_peers`; ENXIO is 6. -/
def parsePeers (mem : List UInt8) (a : Nat) (st : Nat × NlDevice) : Res (Int × Nat × NlDevice) :=
  (parseNested mem a (parsePeer mem) (st.1, {})).bind fun (ret, errno, p) =>
  let d := { st.2 with peers := st.2.peers ++ [p] }
  if ret = 0 then .ok (0, errno, d)
  else if p.hasPub then .ok (1, errno, d) else .ok (-1, 6, d)

/-- emb:1339-1381 `parse_device`. -/
def parseDevice (mem : List UInt8) (a : Nat) (st : Nat × NlDevice) : Res (Int × Nat × NlDevice) :=
  (attrType mem a).bind fun t =>
  if t = 1 then (fixedNum mem a 4).bind fun v => took v st.1 st.2 fun x => { st.2 with ifindex := x }
  else if t = 2 then
    (validString mem a).bind fun ok =>
    if ok then (strncpyAt mem 15 (a + 4)).bind fun s => .ok (1, st.1, { st.2 with name := s }) else .ok (1, 34, st.2)
  else if t = 3 then (exactPayload mem a 32).bind fun b =>
    match b with
    | some b => .ok (1, st.1, { st.2 with priv := b, hasPriv := true })
    | none => .ok (1, st)
  else if t = 4 then (exactPayload mem a 32).bind fun b =>
    match b with
    | some b => .ok (1, st.1, { st.2 with pub := b, hasPub := true })
    | none => .ok (1, st)
  else if t = 6 then (fixedNum mem a 2).bind fun v => took v st.1 st.2 fun x => { st.2 with port := x }
  else if t = 7 then (fixedNum mem a 4).bind fun v => took v st.1 st.2 fun x => { st.2 with mark := x }
  else if t = 8 then parseNested mem a (parsePeers mem) st
  else .ok (1, st)

/-- emb:1383-1386 `read_device_cb`. -/
def readDeviceCb (mem : List UInt8) (h : Nat) (st : Nat × NlDevice) : Res (Int × Nat × NlDevice) :=
  parseMsg mem h 4 (parseDevice mem) st

/-- The bytes that a message with `before` bytes has after `mnl_attr_put_strz` (emb:366-380, 392-395: four bytes of header, the string with its NUL, padding to a multiple of four). -/
def afterStrz (before : Nat) (s : CStr) : Nat := before + align4 (4 + (s.length + 1))

/-- emb:1410-1451 `wg_get_device`, with at most `fuel` attempts, from attempt `i` on. `size`: that of the buffer, in which the request is put without any check. `ret`: the absolute value of the variable
`ret`, which the label `try_again` does not reset. -/
def getDevice (size : Nat) (name : CStr) (env : Nat → GetEnv) : Nat → Nat → Nat → Res (Int × Option Device) × List NlEv
  | 0, _, _ => (.running, [])
  | fuel + 1, i, ret =>
    if !(env i).calloc then (.ok (-12, none), [])
    else
      match mnlgOpen b!"wireguard" (env i).opening with
      | (.ok (.error e), ev) => (.ok (-e, none), [.take .dev] ++ ev ++ [.give .dev])
      | (.ok (.ok id), ev) =>
        if afterStrz 20 name > size then (.ub, [.take .dev] ++ ev)
        else
          let ev := [.take .dev] ++ ev ++ [.send (getRequest id name (env i).seq)]
          -- emb:1439-1450
          let out (ret : Nat) (dev : NlDevice) : Res (Int × Option Device) × List NlEv :=
            if ret ≠ 0 then
              let ev := ev ++ mnlgClose ++ [.give .dev]
              if ret = 4 then let r := getDevice size name env fuel (i + 1) ret; (r.1, ev ++ r.2) else (.ok (-ret, none), ev)
            else (.ok (0, some dev.see), ev ++ mnlgClose)
          match (env i).sendErr with
          | some e => out e {}
          | none =>
            match recvRun (env i).seq.toNat (env i).opening.sock.portid (some readDeviceCb) (env i).recvs (0, ({} : NlDevice)) with
            | .ok (r, errno, d) =>
              if r < 0 then out (if errno ≠ 0 then errno else 22) d
              else match coalesce d.peers with
                | none => (.ub, ev)
                | some ps => out ret { d with peers := ps }
            | .ub => (.ub, ev)
            | .running => (.running, ev)
            | .fail => (.fail, ev) -- these two do not occur
            | .exit1 => (.exit1, ev)
      | (.ub, ev) => (.ub, [.take .dev] ++ ev)
      | (_, ev) => (.running, [.take .dev] ++ ev)

/-- emb:1453-1466 `wg_list_device_names`: the buffer, and the value of errno. `strdup`: whether there is memory for the empty list. The buffer of the list is released on an error; it is not among the events. -/
def listDeviceNames (heap : Heap) (strdup : Bool) (o : LinkOpen) : Res (Option (List UInt8) × Int) × List NlEv :=
  match kernelLinks heap o {} with
  | (.ok (ret, l), ev) =>
    if ret ≠ 0 then (.ok (none, -ret), ev)
    else match l.buf with
      | some b => (.ok (some b, 0), ev)
      | none => (.ok (if strdup then (some [0], 0) else (none, 12)), ev)
  | (.ub, ev) => (.ub, ev)
  | (_, ev) => (.running, ev)

/-- wireguard.h:84 `wg_for_each_device_name`: the names visited. -/
def forEachName (mem : List UInt8) : Nat → Nat → Res (List CStr)
  | 0, _ => .running
  | fuel + 1, i => (memStr mem i).bind fun s => if s = [] then .ok [] else (forEachName mem fuel (i + s.length + 1)).bind fun l => .ok (s :: l)

/-- emb:1027-1038, the message of `add_del_iface`: RTM_NEWLINK (16) or RTM_DELLINK (17), NLM_F_REQUEST | NLM_F_ACK (5) and for the former NLM_F_CREATE | NLM_F_EXCL (0x600), a zero
`struct ifinfomsg`, IFLA_IFNAME (3), and in the nest IFLA_LINKINFO (18) the kind IFLA_INFO_KIND (1). The buffer is zero (calloc), so no junk. -/
def linkChange (name : CStr) (add : Bool) (seq : UInt32) : List UInt8 :=
  let c : NlCtx := { size := 0, junk := (0, 0), id := 0, version := 0 }
  let body := putAttr [] 3 (name ++ [0])
  let start := body.length
  let body := nestEnd (putAttr (nestStart c body 18) 1 (b!"wireguard" ++ [0])) start
  u32b (32 + body.length) ++ u16b (if add then 16 else 17) ++ u16b (if add then 0x605 else 5) ++ u32b seq.toNat ++ [0, 0, 0, 0] ++ List.replicate 16 0 ++ body

/-- emb:1005-1062 `add_del_iface` (`wg_add_device`, `wg_del_device`, emb:1468-1476); the first answer received is in `o.recvs`. The sequence number compared is read from the buffer, in which the
answer has been received. -/
def addDelIface (size : Nat) (name : CStr) (add : Bool) (o : LinkOpen) : Res Int × List NlEv :=
  if !o.calloc then (.ok (-12), [])
  else
    match mnlOpen o.sock with
    | (some e, ev) => (.ok (-e), [.take .buf] ++ ev ++ [.give .buf])
    | (none, ev) =>
      let ev := [.take .buf] ++ ev
      let cleanup : List NlEv := [.give .buf] ++ mnlClose
      match o.sock.bindErr with
      | some e => (.ok (-e), ev ++ cleanup)
      | none =>
        if afterStrz (afterStrz 32 name + 4) b!"wireguard" > size then (.ub, ev)
        else
          let ev := ev ++ [.send (linkChange name add o.seq)]
          match o.sendErr with
          | some e => (.ok (-e), ev ++ cleanup)
          | none =>
            match o.recvs with
            | [] => (.running, ev)
            | .err e :: _ => (.ok (-e), ev ++ cleanup)
            | .msg data stale :: _ =>
              match (rdNum (data ++ stale) 8 4).bind fun seq =>
                  cbRunWith (σ := Unit) defaultCtl (data ++ stale) seq o.sock.portid none (data.length + 1) 0 data.length 1 (0, ()) with
              | .ok (r, errno, _) => (.ok (if r < 0 then -errno else 0), ev ++ cleanup)
              | .ub => (.ub, ev)
              | _ => (.running, ev)

/-- emb:1468-1471 `wg_add_device`. -/
def addDevice (size : Nat) (name : CStr) (o : LinkOpen) : Res Int × List NlEv := addDelIface size name true o
/-- emb:1473-1476 `wg_del_device`. -/
def delDevice (size : Nat) (name : CStr) (o : LinkOpen) : Res Int × List NlEv := addDelIface size name false o

end WG.Emb
