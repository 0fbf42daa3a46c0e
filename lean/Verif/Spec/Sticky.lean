import Verif.Model.Sticky
import Verif.Spec.Show
/-!
What a program that answers a peer through a sticky socket is promised: to whom and from where its datagrams go, in terms of what the kernel is told. Control messages are as in ip(7) and ipv6(7).
-/
namespace WG.Spec.Sticky
open WG.Sticky (Msg Recv Kernel)

def any (n : Nat) : List UInt8 := List.replicate n 0

/-- A datagram as the kernel is asked to send it: to which `sockaddr`, from which address (all zeros: the kernel chooses), through which interface (zero: the kernel chooses). -/
structure Datagram where
  dest : List UInt8
  src : List UInt8
  iface : List UInt8
  payload : List UInt8
deriving DecidableEq

/-- ip(7): a message with one control message, `IP_PKTINFO` of level `IPPROTO_IP`: `ipi_ifindex`, `ipi_spec_dst`, `ipi_addr`. -/
def read4 (m : Msg) : Option Datagram :=
  if m.name.length = 16 ∧ m.control.length = 32 ∧ m.control.take 16 = [28, 0, 0, 0, 0, 0, 0, 0, 0, 0, 0, 0, 8, 0, 0, 0] then
    some ⟨m.name, (m.control.drop 20).take 4, (m.control.drop 16).take 4, m.payload⟩
  else none

/-- ipv6(7): one control message, `IPV6_PKTINFO` of level `IPPROTO_IPV6`: `ipi6_addr`, `ipi6_ifindex`. -/
def read6 (m : Msg) : Option Datagram :=
  if m.name.length = 28 ∧ m.control.length = 40 ∧ m.control.take 16 = [36, 0, 0, 0, 0, 0, 0, 0, 41, 0, 0, 0, 50, 0, 0, 0] then
    some ⟨m.name, (m.control.drop 16).take 16, (m.control.drop 32).take 4, m.payload⟩
  else none

/-- The datagrams of messages, if all of them are understood. -/
def readAll (read : Msg → Option Datagram) : List Msg → Option (List Datagram)
  | [] => some []
  | m :: l => match read m, readAll read l with
    | some d, some ds => some (d :: ds)
    | _, _ => none

/-- A kernel that answers to datagrams, and does not understand other messages. -/
def kernel (read : Msg → Option Datagram) (net : List Datagram → Except Nat Nat) : Kernel := fun ms =>
  match readAll read ms with
  | some ds => net ds
  | none => .error 14

/-- A datagram that arrived: from whom, to which local address, through which interface. `header`: the address in its header (`ipi_addr`). -/
structure Packet where
  sender : List UInt8
  addr : List UInt8
  iface : List UInt8
  header : List UInt8 := any 4
  payload : List UInt8

/-- What `recvmsg` gives for it. -/
def received4 (p : Packet) : Recv := .got p.sender ([28, 0, 0, 0, 0, 0, 0, 0, 0, 0, 0, 0, 8, 0, 0, 0] ++ p.iface ++ p.addr ++ p.header) p.payload
def received6 (p : Packet) : Recv := .got p.sender ([36, 0, 0, 0, 0, 0, 0, 0, 41, 0, 0, 0, 50, 0, 0, 0] ++ p.addr ++ p.iface) p.payload

/-- What the program does with an endpoint. -/
inductive Op where
  | set (addr : List UInt8)
  | clear
  /-- Receives a datagram (at most `len` bytes), or fails. -/
  | recv (p : Except Nat Packet) (len : Nat)
  | send (payload : List UInt8)

/-- What it gets. -/
inductive Out where
  | done
  | got (r : Except Nat (List UInt8))
  | sent (r : Except Nat Nat)

/-- What is remembered of a peer: its address, and from where it is answered. -/
structure Flow where
  dest : List UInt8
  src : List UInt8
  iface : List UInt8

/-- How the two families differ. -/
structure Family where
  start : Flow
  /-- A new address. -/
  at_ : List UInt8 → Flow
  /-- After a datagram. -/
  from_ : Packet → Flow
  /-- The kernel chooses the source again. -/
  forget : Flow → Flow
  datagram : Flow → List UInt8 → Datagram

def v4 : Family where
  start := ⟨any 16, any 4, any 4⟩
  at_ a := ⟨a, any 4, any 4⟩
  from_ p := ⟨p.sender, p.addr, p.iface⟩
  forget q := { q with src := any 4, iface := any 4 }
  datagram q payload := ⟨q.dest, q.src, q.iface, payload⟩

/-- The interface through which a datagram arrived becomes the scope of the peer's address (the last four bytes of a `sockaddr_in6`); the interface is asked for only together with a source. -/
def v6 : Family where
  start := ⟨any 28, any 16, any 4⟩
  at_ a := ⟨a, any 16, any 4⟩
  from_ p := ⟨p.sender.take 24 ++ p.iface, p.addr, if p.addr = any 16 then any 4 else p.iface⟩
  forget q := { q with src := any 16, iface := any 4 }
  datagram q payload := ⟨q.dest, q.src, q.iface, payload⟩

/-- EINVAL -/
def Stale (r : Except Nat Nat) : Prop := r = .error 22

instance (r : Except Nat Nat) : Decidable (Stale r) := by
  unfold Stale
  match r with
  | .ok _ => exact isFalse (by simp)
  | .error n => exact decidable_of_iff (n = 22) (by simp)

/-- One operation: what it gives, the datagrams sent so far, and what is remembered. A datagram whose source the kernel does not accept any more is sent once more, from whatever source the kernel
chooses; and that source is forgotten. -/
def step (F : Family) (net : List Datagram → Except Nat Nat) (sent : List Datagram) (q : Flow) : Op → Out × List Datagram × Flow
  | .set a => (.done, sent, F.at_ a)
  | .clear => (.done, sent, F.forget q)
  | .recv (.error n) _ => (.got (.error n), sent, q)
  | .recv (.ok p) len => (.got (.ok (p.payload.take len)), sent, F.from_ p)
  | .send payload =>
    let once := sent ++ [F.datagram q payload]
    if Stale (net once) then
      let twice := once ++ [F.datagram (F.forget q) payload]
      (.sent (net twice), twice, F.forget q)
    else (.sent (net once), once, q)

def run (F : Family) (net : List Datagram → Except Nat Nat) : List Datagram → Flow → List Op → List Out × List Datagram × Flow
  | sent, q, [] => ([], sent, q)
  | sent, q, o :: ops =>
    let r := step F net sent q o
    let rest := run F net r.2.1 r.2.2 ops
    (r.1 :: rest.1, rest.2)

/-- The number of an interface, an `int` in four bytes, as `%d` prints it. -/
def ifaceText : List UInt8 → List UInt8
  | [a, b, c, d] =>
    let n := a.toNat + 256 * b.toNat + 65536 * c.toNat + 16777216 * d.toNat
    if n < 2147483648 then decimal n else b!"-" ++ decimal (4294967296 - n)
  | _ => []

/-- What the program says of a datagram that arrived at an interface for `here` from `peer`. -/
def said (iface here peer : List UInt8) : List UInt8 :=
  b!"if:" ++ ifaceText iface ++ b!" src:" ++ here ++ b!" dst:" ++ peer ++
    b!"\nReceived a packet. Sleeping for 10 seconds before replying, so you have time to mess with your networking setup.\n"

open WG.Sticky (Sys) in
/-- ip(7): a socket for IPv4 (family 2) that gives `IP_PKTINFO` (8 of level 0), at port 51820 (202 * 256 + 108). -/
def asked4 : List Sys := [.socket 2, .opt 0 8, .bind ([2, 0, 202, 108] ++ any 12)]

open WG.Sticky (Sys) in
/-- ipv6(7): a socket for IPv6 (family 10) that gives `IPV6_PKTINFO` (`IPV6_RECVPKTINFO`: 49 of level 41), not for IPv4 too (`IPV6_V6ONLY`: 26), at port 51820 (202 * 256 + 108). -/
def asked6 : List Sys := [.socket 10, .opt 41 49, .opt 41 26, .bind ([10, 0, 202, 108] ++ any 24)]

/-- Addresses and datagrams of IPv4 only. -/
def Fits4 : Op → Prop
  | .set a => a.length = 16 ∧ a.take 2 = [2, 0]
  | .recv (.ok p) _ => p.sender.length = 16 ∧ p.sender.take 2 = [2, 0] ∧ p.addr.length = 4 ∧ p.iface.length = 4 ∧ p.header.length = 4
  | _ => True

/-- Addresses and datagrams of IPv6 only. -/
def Fits6 : Op → Prop
  | .set a => a.length = 28 ∧ a.take 2 = [10, 0]
  | .recv (.ok p) _ => p.sender.length = 28 ∧ p.sender.take 2 = [10, 0] ∧ p.addr.length = 16 ∧ p.iface.length = 4
  | _ => True

end WG.Spec.Sticky

namespace WG.Sticky
open Spec.Sticky

/-- The functions of the code as operations on an endpoint; `junk`: what is on the stack when so many operations are left. -/
def step4 (k : Kernel) (junk : List UInt8) (sent : List Msg) (e : Endpoint) : Op → Out × List Msg × Endpoint
  | .set a => (.done, sent, set e a)
  | .clear => (.done, sent, clearsrc e)
  | .recv (.error n) len => let r := receive4 (.fail n) junk e len; (.got r.1, sent, r.2)
  | .recv (.ok p) len => let r := receive4 (received4 p) junk e len; (.got r.1, sent, r.2)
  | .send payload => let r := send4 k sent e payload; (.sent r.1, r.2)

def step6 (k : Kernel) (junk : List UInt8) (sent : List Msg) (e : Endpoint) : Op → Out × List Msg × Endpoint
  | .set a => (.done, sent, set e a)
  | .clear => (.done, sent, clearsrc e)
  | .recv (.error n) len => let r := receive6 (.fail n) junk e len; (.got r.1, sent, r.2)
  | .recv (.ok p) len => let r := receive6 (received6 p) junk e len; (.got r.1, sent, r.2)
  | .send payload => let r := send6 k sent e payload; (.sent r.1, r.2)

def runOps (step : List UInt8 → List Msg → Endpoint → Op → Out × List Msg × Endpoint) (junk : Nat → List UInt8) : List Msg → Endpoint → List Op → List Out × List Msg × Endpoint
  | sent, e, [] => ([], sent, e)
  | sent, e, o :: ops =>
    let r := step (junk ops.length) sent e o
    let rest := runOps step junk r.2.1 r.2.2 ops
    (r.1 :: rest.1, rest.2)

end WG.Sticky
