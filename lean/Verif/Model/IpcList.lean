import Verif.Model.IpcLinux
import Verif.Model.Show
/-! Model of src/ipc.c, src/ipc-uapi-unix.h and the listing part of src/ipc-linux.h: finding interfaces. -/
namespace WG

/-! ### The list of names -/

/-- ipc.c:12-16 `struct string_list`; `buf`: the bytes of the allocation (`none`: NULL). `reallocs`: how often `realloc` has been called (not
in the code; it tells the calls apart). -/
structure StrList where
  buf : Option (List UInt8) := none
  len : Nat := 0
  cap : Nat := 0
  reallocs : Nat := 0
deriving DecidableEq

/-- `realloc`: does the n-th call fail (with which errno), and what do the new bytes hold? -/
structure Heap where
  fail : Nat → Option Nat
  junk : Nat → Nat → UInt8

/-- `realloc(buf, size)`, when it succeeds: the old bytes, and new ones of unknown content. -/
def reallocBytes (heap : Heap) (n : Nat) (buf : Option (List UInt8)) (size : Nat) : List UInt8 :=
  let old := (buf.getD []).take size
  old ++ (List.range (size - old.length)).map (heap.junk n)

/-- Storing bytes at an offset of an allocation; undefined outside it. -/
def storeBytes (buf : Option (List UInt8)) (i : Nat) (d : List UInt8) : Res (List UInt8) :=
  match buf with
  | none => .ub
  | some b => if i + d.length ≤ b.length then .ok (b.take i ++ d ++ b.drop (i + d.length)) else .ub

/-- ipc.c:37-40: `memcpy`, the new length, and the final NUL. -/
def listPut (l : StrList) (str : CStr) : Res (Int × StrList) :=
  (storeBytes l.buf l.len (str ++ [0])).bind fun b =>
  let n := (l.len + (str.length + 1)) % 2 ^ 64
  (storeBytes (some b) n [0]).bind fun b => .ok (0, { l with buf := some b, len := n })

/-- ipc.c:18-41 `string_list_add`; `size_t` has 64 bits. -/
def stringListAdd (heap : Heap) (l : StrList) (str : CStr) : Res (Int × StrList) :=
  let len := str.length + 1
  if len = 1 then .ok (0, l)
  else if len ≥ (l.cap + 2 ^ 64 - l.len) % 2 ^ 64 then
    let twice := l.cap * 2 % 2 ^ 64
    let need := (l.len + len + 1) % 2 ^ 64
    let newCap := if twice < need then need else twice
    match heap.fail l.reallocs with
    | some e => .ok (-e, { l with reallocs := l.reallocs + 1 })
    | none => listPut { buf := some (reallocBytes heap l.reallocs l.buf newCap), len := l.len, cap := newCap, reallocs := l.reallocs + 1 } str
  else listPut l str

/-- `strlen` and the string read, at an offset of an allocation; undefined if it runs past the end. -/
def memStr (mem : List UInt8) (i : Nat) : Res CStr :=
  if (0 : UInt8) ∈ mem.drop i then .ok ((mem.drop i).takeWhile (· ≠ 0)) else .ub

/-- show.c:398-400, 433-435: `for (interface = interfaces; (len = strlen(interface)); interface += len + 1)`, each time also looking at
the string after it (415, 435): the names visited, each with whether another follows. -/
def walkNames (mem : List UInt8) : Nat → Nat → Res (List (CStr × Bool))
  | 0, _ => .running
  | fuel + 1, i =>
    (memStr mem i).bind fun s =>
    if s = [] then .ok []
    else (memStr mem (i + s.length + 1)).bind fun next =>
      (walkNames mem fuel (i + s.length + 1)).bind fun l => .ok ((s, decide (next ≠ [])) :: l)

/-! ### Sockets of userspace implementations (ipc-uapi-unix.h) -/

/-- System calls with a path, in order; `listDir`: `opendir` of the socket directory. -/
inductive SockEv where
  | stat (path : CStr)
  | connect (path : CStr)
  | unlink (path : CStr)
  | listDir (path : CStr)
deriving DecidableEq

/-- The system as far as these functions see it; every answer may depend on all that has happened before. Errors are errnos. -/
structure SockEnv where
  /-- RUNSTATEDIR (src/Makefile) -/
  runstate : CStr
  /-- `stat`: an error, or is it a socket? -/
  stat : List SockEv → CStr → Except Nat Bool
  socket : List SockEv → Option Nat
  connect : List SockEv → CStr → Option Nat
  unlink : List SockEv → CStr → Option Nat
  fdopen : List SockEv → Option Nat
  /-- The file names in the directory. -/
  listDir : List SockEv → CStr → Except Nat (List CStr)

/-- ipc-uapi-unix.h:17 `SOCK_PATH`. -/
def sockDir (env : SockEnv) : CStr := env.runstate ++ b!"/wireguard/"

/-- ipc-uapi-unix.h:30, 70: `snprintf(addr.sun_path, sizeof(addr.sun_path), SOCK_PATH "%s" SOCK_SUFFIX, iface)`; `sun_path` has 108 bytes. The
error of `snprintf` for a length above INT_MAX is not modelled. -/
def sockPath (env : SockEnv) (iface : CStr) : CStr := (sockDir env ++ iface ++ b!".sock").take 107

/-- ipc-uapi-unix.h:62-86 `userspace_has_wireguard_interface`: the answer, and what has happened. -/
def hasInterface (env : SockEnv) (iface : CStr) (tr : List SockEv) : Bool × List SockEv :=
  if iface.contains c!"/" then (false, tr)
  else
    let path := sockPath env iface
    let st := env.stat tr path
    let tr := tr ++ [.stat path]
    match st with
    | .error _ => (false, tr)
    | .ok false => (false, tr)
    | .ok true =>
      match env.socket tr with
      | some _ => (false, tr)
      | none =>
        let c := env.connect tr path
        let tr := tr ++ [.connect path]
        if c = some 111 then (false, tr ++ [.unlink path]) -- ECONNREFUSED
        else (true, tr)

/-- ipc-uapi-unix.h:20-60 `userspace_interface_file`: the errno, or success (connected to the last path). -/
def interfaceFile (env : SockEnv) (iface : CStr) (tr : List SockEv) : Option Nat × List SockEv :=
  if iface.contains c!"/" then (some 22, tr) -- EINVAL
  else
    let path := sockPath env iface
    let st := env.stat tr path
    let tr := tr ++ [.stat path]
    match st with
    | .error e => (some e, tr)
    | .ok false => (some 9, tr) -- EBADF
    | .ok true =>
      match env.socket tr with
      | some e => (some e, tr)
      | none =>
        let c := env.connect tr path
        let tr := tr ++ [.connect path]
        match c with
        | some e => if e = 111 then (some ((env.unlink tr path).getD 111), tr ++ [.unlink path]) else (some e, tr)
        | none => (env.fdopen tr, tr)

/-- ipc-uapi-unix.h:100-107: the interface name of a directory entry, if it ends in `.sock`. -/
def entryName (ent : CStr) : Option CStr :=
  if ent.length ≤ 5 then none
  else if ent.drop (ent.length - 5) = b!".sock" then some (ent.take (ent.length - 5))
  else none

/-- ipc-uapi-unix.h:99-113: the loop over the directory. -/
def userspaceLoop (heap : Heap) (env : SockEnv) : List CStr → StrList → List SockEv → Res (Int × StrList × List SockEv)
  | [], l, tr => .ok (0, l, tr)
  | ent :: rest, l, tr =>
    match entryName ent with
    | none => userspaceLoop heap env rest l tr
    | some name =>
      match hasInterface env name tr with
      | (false, tr) => userspaceLoop heap env rest l tr
      | (true, tr) =>
        (stringListAdd heap l name).bind fun (ret, l) =>
        if ret < 0 then .ok (ret, l, tr) else userspaceLoop heap env rest l tr

/-- ipc-uapi-unix.h:88-117 `userspace_get_wireguard_interfaces`. -/
def userspaceList (heap : Heap) (env : SockEnv) (l : StrList) (tr : List SockEv) : Res (Int × StrList × List SockEv) :=
  let d := env.listDir tr (sockDir env)
  let tr := tr ++ [.listDir (sockDir env)]
  match d with
  | .error e => .ok (if e = 2 then 0 else -e, l, tr) -- ENOENT
  | .ok ents => userspaceLoop heap env ents l tr

/-! ### Kernel interfaces (ipc-linux.h:30-139) -/

/-- `strcmp(lit, str) == 0` where `str` is at an offset of memory: reads up to the first difference. -/
def strEqAt (mem : List UInt8) : CStr → Nat → Res Bool
  | [], i => (rdNum mem i 1).bind fun c => .ok (c = 0)
  | x :: xs, i => (rdNum mem i 1).bind fun c => if c = x.toNat then strEqAt mem xs (i + 1) else .ok false

/-- ipc-linux.h:30-33 `struct interface`; `name`: the offset of the string. -/
structure LinkSeen where
  name : Option Nat := none
  isWg : Bool := false
deriving DecidableEq

/-- ipc-linux.h:35-42 `parse_linkinfo` (IFLA_INFO_KIND is 1). -/
def parseLinkinfo (mem : List UInt8) (a : Nat) (s : LinkSeen) : Res (Int × LinkSeen) :=
  (attrType mem a).bind fun t =>
  if t = 1 then (strEqAt mem b!"wireguard" (a + 4)).bind fun eq => .ok (1, if eq then { s with isWg := true } else s)
  else .ok (1, s)

/-- ipc-linux.h:44-53 `parse_infomsg` (IFLA_LINKINFO is 18, IFLA_IFNAME is 3). -/
def parseInfomsg (mem : List UInt8) (a : Nat) (s : LinkSeen) : Res (Int × LinkSeen) :=
  (attrType mem a).bind fun t =>
  if t = 18 then parseNested mem a (parseLinkinfo mem) s
  else if t = 3 then .ok (1, { s with name := some (a + 4) })
  else .ok (1, s)

/-- ipc-linux.h:55-71 `read_devices_cb` (`struct ifinfomsg` has 16 bytes); on failure errno is what `realloc` set. -/
def readDevicesCb (heap : Heap) (mem : List UInt8) (h : Nat) (st : Nat × StrList) : Res (Int × Nat × StrList) :=
  (parseMsg mem h 16 (parseInfomsg mem) ({} : LinkSeen)).bind fun (ret, s) =>
  if ret ≠ 1 then .ok (ret, st)
  else
    let next : Res (Int × Nat × StrList) := (rdNum mem (h + 4) 2).bind fun t => .ok (if t ≠ 3 then 2 else 1, st)
    match s.name with
    | none => next
    | some i =>
      if s.isWg then
        (memStr mem i).bind fun name =>
        (stringListAdd heap st.2 name).bind fun (ret, l) =>
        if ret < 0 then .ok (ret, ret.natAbs, l)
        else (rdNum mem (h + 4) 2).bind fun t => .ok (if t ≠ 3 then 2 else 1, st.1, l)
      else next

/-- ipc-linux.h:119: `mnl_cb_run` over one datagram. -/
@[irreducible] def linkDatagram (heap : Heap) (seq portid : Nat) (data stale : List UInt8) (st : Nat × StrList) : Res (Int × Nat × StrList) :=
  cbRunWith defaultCtl (data ++ stale) seq portid (some (readDevicesCb heap (data ++ stale))) (data.length + 1) 0 data.length 1 st

/-- ipc-linux.h:115-132: from the label `another`. -/
def linkRun (heap : Heap) (seq portid : Nat) : List Recv → Nat × StrList → Res (Int × StrList)
  | [], _ => .running
  | .err e :: _, st => .ok (-e, st.2)
  | .msg data stale :: rest, st =>
    (linkDatagram heap seq portid data stale st).bind fun v =>
    if v.1 < 0 ∧ v.2.1 ≠ 4 then .ok (-(v.2.1 : Int), v.2.2) -- EINTR
    else if v.1 = 2 then linkRun heap seq portid rest v.2
    else .ok (0, v.2.2)

/-- What the kernel does in `kernel_get_wireguard_interfaces`: an error on the way to sending the request (opening, binding, sending), or what is
received. -/
structure LinkEnv where
  err : Option Nat := none
  seq : Nat := 0
  portid : Nat := 0
  recvs : List Recv := []

/-- ipc-linux.h:73-139 `kernel_get_wireguard_interfaces`; the request itself and the socket are in Model/NetlinkOpen (`kernelLinks`). -/
def kernelList (heap : Heap) (env : LinkEnv) (l : StrList) : Res (Int × StrList) :=
  match env.err with
  | some e => .ok (-e, l)
  | none => linkRun heap env.seq env.portid env.recvs (0, l)

/-- ipc.c:54-76 `ipc_list_devices`: the buffer returned (`none`: NULL with errno set), and the system calls. `strdup("\0")` is the empty
string: one NUL. -/
def ipcListDevices (heap : Heap) (link : LinkEnv) (env : SockEnv) (tr : List SockEv) : Res (Option (List UInt8) × List SockEv) :=
  (kernelList heap link {}).bind fun (ret, l) =>
  if ret < 0 then .ok (none, tr)
  else (userspaceList heap env l tr).bind fun (ret, l, tr) =>
    if ret < 0 then .ok (none, tr)
    else .ok (some (l.buf.getD [0]), tr)

/-! ### Choosing between kernel and userspace -/

/-- What an access to an interface was. -/
inductive Reached (α : Type) where
  /-- the socket at a path was opened -/
  | socket (path : CStr)
  /-- the socket could not be opened: errno -/
  | noSocket (errno : Nat)
  /-- the kernel was asked, with this argument -/
  | kernel (arg : α)
deriving DecidableEq

/-- ipc.c:78-87 `ipc_get_device` up to the protocol itself (`userspaceGetReply`, `kernelGet`). -/
def ipcGetDevice (env : SockEnv) (iface : CStr) (tr : List SockEv) : Reached CStr × List SockEv :=
  match hasInterface env iface tr with
  | (true, tr) =>
    match interfaceFile env iface tr with
    | (none, tr) => (.socket (sockPath env iface), tr)
    | (some e, tr) => (.noSocket e, tr)
  | (false, tr) => (.kernel iface, tr)

/-- ipc.c:89-98 `ipc_set_device` up to the protocol itself (`emitSet`, `setLoop`). -/
def ipcSetDevice (env : SockEnv) (dev : Device) (tr : List SockEv) : Reached Device × List SockEv :=
  match hasInterface env dev.name tr with
  | (true, tr) =>
    match interfaceFile env dev.name tr with
    | (none, tr) => (.socket (sockPath env dev.name), tr)
    | (some e, tr) => (.noSocket e, tr)
  | (false, tr) => (.kernel dev, tr)

end WG
