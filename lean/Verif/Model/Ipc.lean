import Verif.Model.IpcList
import Verif.Model.Setconf
import Verif.Model.Uapi
/-! Model of src/ipc.c:78-98 joined with the protocols below it: a set or get operation from the system call that looks for a socket to the last byte
exchanged. -/
namespace WG

/-- Everything outside the process that a set or get operation meets. -/
structure System where
  /-- the directory of sockets -/
  sock : SockEnv
  /-- netlink: family, buffer size, stale bytes -/
  nl : NlCtx
  /-- `mnlg_socket_open` fails with this errno (ipc-linux.h:151-153) -/
  nlOpen : Option Nat
  portid : Nat
  seq : Nat → UInt32
  send : Nat → Option Nat
  replies : Nat → List Recv
  attempts : Nat → Attempt
  /-- how address texts are printed, and `char` signedness, name resolution: for the userspace protocol -/
  out : OutEnv
  env : Env
  pubOf : Key → Key
  /-- what a userspace implementation answers to a set request, and `errno` after reading it -/
  answer : List UInt8 → Nat × List UInt8
  /-- what it answers to a get request -/
  report : List UInt8
  /-- how long we watch -/
  fuel : Nat

/-- What has left the process in a set operation. -/
inductive Sent where
  | nothing
  /-- netlink messages, in order -/
  | kernel (msgs : List (List UInt8))
  /-- a text, on the socket with this path -/
  | socket (path : CStr) (text : List UInt8)

/-- ipc.c:89-98 `ipc_set_device`: the code, what was sent, and the system calls with a path. ipc-uapi.h:38-40 and ipc-linux.h:151-153 return `-errno` if the
socket cannot be opened. -/
def ipcSet (sys : System) (tr : List SockEv) (d : Device) : Res Int × Sent × List SockEv :=
  match ipcSetDevice sys.sock d tr with
  | (.socket path, tr) =>
    let text := emitSet sys.out d
    let a := sys.answer text
    (.ok (userspaceSetReply sys.env.sc a.1 a.2), .socket path text, tr)
  | (.noSocket e, tr) => (.ok (-e), .nothing, tr)
  | (.kernel d, tr) =>
    match sys.nlOpen with
    | some e => (.ok (-e), .nothing, tr)
    | none =>
      let r := setLoop sys.nl sys.portid sys.seq sys.send sys.replies d sys.fuel 0 .start
      (r.1, .kernel r.2, tr)

/-- ipc.c:78-87 `ipc_get_device`; ipc-uapi.h:152-157: if the socket cannot be opened, `-errno` and no device. -/
def ipcGet (sys : System) (tr : List SockEv) (iface : CStr) : Res (Int × Option Device) × List SockEv :=
  match ipcGetDevice sys.sock iface tr with
  | (.socket _, tr) => (.ok (userspaceGetReply sys.env sys.pubOf iface sys.report), tr)
  | (.noSocket e, tr) => (.ok (-e, none), tr)
  | (.kernel iface, tr) => (kernelGet iface sys.attempts sys.fuel 0, tr)

/-- The interface calls of a command, made one after another in the system `sys`, return what `ipc` says, and `sent` is what left the process. -/
inductive Carried (sys : System) (ipc : Ipc) : List SockEv → List IpcCall → List Sent → Prop
  | nil (tr : List SockEv) : Carried sys ipc tr [] []
  | get {tr tr' : List SockEv} {name : CStr} {calls : List IpcCall} {sent : List Sent} :
      ipcGet sys tr name = (.ok (ipc.get name), tr') → Carried sys ipc tr' calls sent → Carried sys ipc tr (.get name :: calls) sent
  | set {tr tr' : List SockEv} {d : Device} {x : Sent} {calls : List IpcCall} {sent : List Sent} :
      ipcSet sys tr d = (.ok (ipc.set d), x, tr') → Carried sys ipc tr' calls sent → Carried sys ipc tr (.set d :: calls) (x :: sent)

end WG
