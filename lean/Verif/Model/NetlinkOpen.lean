import Verif.Model.IpcList
/-! Model of the netlink sockets themselves: opening one and asking for the id of the generic netlink family "wireguard" (src/netlink.h:489-556, 597-605,
704-797), and the whole operations of src/ipc-linux.h around it: every system call with an effect outside the process, every allocation and release. -/
namespace WG

/-- What the code allocates or opens. -/
inductive NlRes where
  /-- `struct mnlg_socket` (netlink.h:737) -/
  | nlg
  /-- the message buffer (netlink.h:743, ipc-linux.h:85) -/
  | buf
  /-- `struct mnl_socket` (netlink.h:501) -/
  | nl
  /-- the file descriptor (netlink.h:505) -/
  | fd
  /-- `struct wgdevice` (ipc-linux.h:490) -/
  | dev
deriving DecidableEq

/-- An event of an operation. -/
inductive NlEv where
  | take (r : NlRes)
  | give (r : NlRes)
  /-- `sendto` was called with these bytes -/
  | send (bytes : List UInt8)
deriving DecidableEq

/-- What `mnl_socket_open` and `mnl_socket_bind` meet. -/
structure SockOpen where
  /-- `calloc` of `struct mnl_socket` succeeds -/
  calloc : Bool := true
  /-- errno of `socket` -/
  socketErr : Option Nat := none
  /-- errno of `bind` or `getsockname`, or EINVAL (22) if the address returned is not a netlink address (netlink.h:532-545) -/
  bindErr : Option Nat := none
  portid : Nat := 0

/-- netlink.h:498-517 `mnl_socket_open`: errno if it fails (ENOMEM is 12). -/
def mnlOpen (s : SockOpen) : Option Nat × List NlEv :=
  if !s.calloc then (some 12, [])
  else match s.socketErr with
    | some e => (some e, [.take .nl, .give .nl])
    | none => (none, [.take .nl, .take .fd])

/-- netlink.h:589-594 `mnl_socket_close`. -/
def mnlClose : List NlEv := [.give .fd, .give .nl]

/-- netlink.h:704-717 `get_family_id_attr_cb`; `max`: CTRL_ATTR_MAX of the kernel headers of the build. Of the table only the entry CTRL_ATTR_FAMILY_ID (1) is read,
so only it is kept; an entry outside of the table is undefined behaviour. -/
def famAttrCb (max : Nat) (mem : List UInt8) (a : Nat) (st : Nat × Option Nat) : Res (Int × Nat × Option Nat) :=
  (attrType mem a).bind fun t =>
  if t > max then .ok (-1, 95, st.2) -- EOPNOTSUPP
  else
    (if t = 1 then validFixed mem a 2 else .ok true).bind fun ok =>
    if !ok then .ok (-1, 34, st.2) -- ERANGE
    else if ¬ t ≤ max then .ub
    else .ok (1, st.1, if t = 1 then some a else st.2)

/-- netlink.h:719-729 `get_family_id_cb`. -/
def famCb (max : Nat) (mem : List UInt8) (h : Nat) (st : Nat × UInt16) : Res (Int × Nat × UInt16) :=
  (parseMsg mem h 4 (famAttrCb max mem) (st.1, none)).bind fun (_, errno, tb) =>
  match tb with
  | none => .ok (-1, errno, st.2)
  | some a => (rdNum mem (a + 4) 2).bind fun id => .ok (1, errno, UInt16.ofNat id)

/-- netlink.h:609-627 and 763-765: the request CTRL_CMD_GETFAMILY (3) to GENL_ID_CTRL (16) with the name of the family in CTRL_ATTR_FAMILY_NAME (2);
NLM_F_REQUEST | NLM_F_ACK is 5. -/
def famRequest (name : CStr) (seq : UInt32) : List UInt8 :=
  let body := putAttr [] 2 (name ++ [0])
  nlHeader { size := 0, junk := (0, 0), id := 16, version := 1 } body.length 5 seq 3 ++ body

/-- What `mnlg_socket_open` meets. -/
structure OpenEnv where
  /-- `malloc` of `struct mnlg_socket` and of the buffer succeed -/
  mallocNlg : Bool := true
  mallocBuf : Bool := true
  sock : SockOpen := {}
  seq : UInt32 := 0
  sendErr : Option Nat := none
  recvs : List Recv := []
  /-- CTRL_ATTR_MAX -/
  ctrlMax : Nat := 10

/-- netlink.h:731-790 `mnlg_socket_open`: errno, or the family id; and the events. -/
def mnlgOpen (name : CStr) (o : OpenEnv) : Res (Except Nat UInt16) × List NlEv :=
  if !o.mallocNlg then (.ok (.error 12), [])
  else
    let ev := [.take .nlg]
    let errBuf : List NlEv := [.give .nlg]
    if !o.mallocBuf then (.ok (.error 12), ev ++ errBuf)
    else
      let ev := ev ++ [.take .buf]
      let errOpen : List NlEv := [.give .buf] ++ errBuf
      match mnlOpen o.sock with
      | (some e, ev') => (.ok (.error e), ev ++ ev' ++ errOpen)
      | (none, ev') =>
        let ev := ev ++ ev'
        let errBind : List NlEv := mnlClose ++ errOpen
        match o.sock.bindErr with
        | some e => (.ok (.error e), ev ++ errBind)
        | none =>
          let ev := ev ++ [.send (famRequest name o.seq)]
          match o.sendErr with
          | some e => (.ok (.error e), ev ++ errBind)
          | none =>
            match recvRun o.seq.toNat o.sock.portid (some (famCb o.ctrlMax)) o.recvs (0, 0) with
            | .ok (ret, errno, id) =>
              if ret < 0 then
                let errno := if errno = 2 then 93 else errno -- ENOENT, EPROTONOSUPPORT
                (.ok (.error (if errno ≠ 0 then errno else 38)), ev ++ errBind) -- ENOSYS
              else (.ok (.ok id), ev)
            | .ub => (.ub, ev)
            | _ => (.running, ev)

/-- netlink.h:792-797 `mnlg_socket_close`. -/
def mnlgClose : List NlEv := mnlClose ++ [.give .buf, .give .nlg]

/-- ipc-linux.h:142-274 `kernel_set_device` with everything it does outside the process; WG_GENL_NAME is "wireguard", WG_GENL_VERSION is 1. `size`, `junk`: as in `NlCtx`. -/
def kernelSetDevice (o : OpenEnv) (size : Nat) (junk : UInt8 × UInt8) (seq : Nat → UInt32) (send : Nat → Option Nat) (replies : Nat → List Recv) (d : Device)
    (fuel : Nat) : Res Int × List NlEv :=
  match mnlgOpen b!"wireguard" o with
  | (.ok (.error e), ev) => (.ok (-e), ev)
  | (.ok (.ok id), ev) =>
    match setLoop { size := size, junk := junk, id := id, version := 1 } o.sock.portid seq send replies d fuel 0 .start with
    | (.ok code, msgs) => (.ok code, ev ++ msgs.map .send ++ mnlgClose)
    | (r, msgs) => (r, ev ++ msgs.map .send)
  | (.ub, ev) => (.ub, ev)
  | (_, ev) => (.running, ev)

/-- ipc-linux.h:502-503: the request WG_CMD_GET_DEVICE (0) with the name of the interface in WGDEVICE_A_IFNAME (2);
NLM_F_REQUEST | NLM_F_ACK | NLM_F_DUMP is 0x305. -/
def getRequest (id : UInt16) (iface : CStr) (seq : UInt32) : List UInt8 :=
  let body := putAttr [] 2 (iface ++ [0])
  nlHeader { size := 0, junk := (0, 0), id := id, version := 1 } body.length 0x305 seq 0 ++ body

/-- One attempt of `kernel_get_device`. -/
structure GetEnv where
  /-- `calloc` of the device succeeds -/
  calloc : Bool := true
  opening : OpenEnv := {}
  seq : UInt32 := 0
  sendErr : Option Nat := none
  recvs : List Recv := []

/-- ipc-linux.h:476-525 `kernel_get_device` with everything it does outside the process, with at most `fuel` attempts. -/
def kernelGetDevice (iface : CStr) (env : Nat → GetEnv) : Nat → Nat → Res (Int × Option Device) × List NlEv
  | 0, _ => (.running, [])
  | fuel + 1, i =>
    if iface.length ≥ 16 then (.ok (-36, none), []) -- ENAMETOOLONG; the label `try_again` is behind this check, which does not change
    else if !(env i).calloc then (.ok (-12, none), [])
    else
      match mnlgOpen b!"wireguard" (env i).opening with
      | (.ok (.error e), ev) => (.ok (-e, none), [.take .dev] ++ ev ++ [.give .dev])
      | (.ok (.ok id), ev) =>
        let ev := [.take .dev] ++ ev ++ [.send (getRequest id iface (env i).seq)]
        let fail (e : Nat) : Res (Int × Option Device) × List NlEv :=
          let ev := ev ++ mnlgClose ++ [.give .dev]
          if e = 4 then let r := kernelGetDevice iface env fuel (i + 1); (r.1, ev ++ r.2) else (.ok (-e, none), ev)
        match (env i).sendErr with
        | some e => fail e
        | none =>
          match recvRun (env i).seq.toNat (env i).opening.sock.portid (some readDeviceCb) (env i).recvs (0, ({} : NlDevice)) with
          | .ok (ret, errno, d) =>
            if ret < 0 then fail (if errno ≠ 0 then errno else 22)
            else match coalesce d.peers with
              | none => (.ub, ev)
              | some ps => (.ok (0, some ({ d with peers := ps } : NlDevice).see), ev ++ mnlgClose)
          | .ub => (.ub, ev)
          | .running => (.running, ev)
          | .fail => (.fail, ev) -- these two do not occur
          | .exit1 => (.exit1, ev)
      | (.ub, ev) => (.ub, [.take .dev] ++ ev)
      | (_, ev) => (.running, [.take .dev] ++ ev)

/-- ipc-linux.h:100-107: the request RTM_GETLINK (18) with a zero `struct ifinfomsg` (16 bytes). -/
def linkRequest (seq : UInt32) : List UInt8 :=
  u32b 32 ++ u16b 18 ++ u16b 0x305 ++ u32b seq.toNat ++ [0, 0, 0, 0] ++ List.replicate 16 0

/-- What `kernel_get_wireguard_interfaces` meets. -/
structure LinkOpen where
  calloc : Bool := true
  sock : SockOpen := {}
  seq : UInt32 := 0
  sendErr : Option Nat := none
  recvs : List Recv := []

/-- ipc-linux.h:73-139 `kernel_get_wireguard_interfaces` with everything it does outside the process. -/
def kernelLinks (heap : Heap) (o : LinkOpen) (l : StrList) : Res (Int × StrList) × List NlEv :=
  if !o.calloc then (.ok (-12, l), [])
  else
    match mnlOpen o.sock with
    | (some e, ev) => (.ok (-e, l), [.take .buf] ++ ev ++ [.give .buf])
    | (none, ev) =>
      let ev := [.take .buf] ++ ev
      let cleanup : List NlEv := [.give .buf] ++ mnlClose
      match o.sock.bindErr with
      | some e => (.ok (-e, l), ev ++ cleanup)
      | none =>
        let ev := ev ++ [.send (linkRequest o.seq)]
        match o.sendErr with
        | some e => (.ok (-e, l), ev ++ cleanup)
        | none =>
          match linkRun heap o.seq.toNat o.sock.portid o.recvs (0, l) with
          | .ok r => (.ok r, ev ++ cleanup)
          | .ub => (.ub, ev)
          | _ => (.running, ev)

end WG
