import Verif.Model.Types
/-!
Model of contrib/nat-hole-punching/nat-punch-server.c: the server that tells WireGuard peers behind NATs the addresses of each other. Line
numbers are those of the file. The lines before the loop (71-86: socket, setsockopt, bind) are not modelled, nor what is printed on stderr.
An address is kept as the program keeps it: the bytes of `s_addr` and `sin_port`, in network order.
-/
namespace WG.Punch

abbrev PubKey := List UInt8

structure Place where
  ip : List UInt8
  port : List UInt8
deriving DecidableEq

/-- 19-23 -/
structure Entry where
  pubkey : PubKey
  addr : Place
deriving DecidableEq

/-- 25 -/
def maxEntries : Nat := 65536

/-- 27-28; `next_entry` has 32 bits. -/
structure Table where
  entries : List Entry
  next : Nat

def zeroKey : PubKey := List.replicate 32 0
def zeroEntry : Entry := ⟨zeroKey, ⟨[0, 0, 0, 0], [0, 0]⟩⟩

/-- Static variables start as zeros. -/
def start : Table := ⟨List.replicate maxEntries zeroEntry, 0⟩

/-- 31-39: the index of the first entry with this key. -/
def findEntry (t : Table) (key : PubKey) : Option Nat := t.entries.findIdx? fun e => e.pubkey = key

/-- 42-50: the index of the entry, and the table after it. -/
def findOrInsert (t : Table) (key : PubKey) : Nat × Table :=
  match findEntry t key with
  | some i => (i, t)
  | none =>
    let i := t.next % maxEntries
    (i, ⟨t.entries.modify i fun e => { e with pubkey := key }, (t.next + 1) % 2 ^ 32⟩)

/-- What `recvfrom` can do (90): fail, or give a datagram and its sender. -/
inductive Recv where
  | error
  | datagram (data : List UInt8) (sender : Place)

/-- What `sendto` is given: 101 and 106. -/
structure Sent where
  data : List UInt8
  dest : Place
deriving DecidableEq

/-- 97-110: the address of the key, or nothing. Whether `sendto` succeeds makes no difference. -/
def reply (t : Table) (wanted : PubKey) (sender : Place) : List Sent :=
  match findEntry t wanted with
  | some j =>
    match t.entries[j]? with
    | some e => [⟨e.addr.ip ++ e.addr.port, sender⟩]
    | none => []
  | none => [⟨[], sender⟩]

/-- 89-111: one turn of the loop. `recvfrom` cuts off what is beyond the 64 bytes of the buffer (59-62) and does not say so. -/
def turn (t : Table) : Recv → Table × List Sent
  | .error => (t, [])
  | .datagram data sender =>
    let packet := data.take 64
    if packet.length ≠ 64 then (t, [])
    else
      let (i, t) := findOrInsert t (packet.take 32)
      let t := { t with entries := t.entries.modify i fun e => { e with addr := sender } }
      (t, reply t (packet.drop 32) sender)

/-- 88: the loop, on the datagrams that arrive; what is sent in each turn. -/
def loop (t : Table) : List Recv → List (List Sent)
  | [] => []
  | r :: rs => (turn t r).2 :: loop (turn t r).1 rs

/-- The table after these datagrams. -/
def after (t : Table) : List Recv → Table
  | [] => t
  | r :: rs => after (turn t r).1 rs

end WG.Punch
