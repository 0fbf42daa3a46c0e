import Verif.Model.Inet
import Verif.Model.Bsd
/-!
Model of contrib/sticky-sockets/sticky-sockets.c: an endpoint that remembers from where a peer was last answered. Integers are little endian, `size_t` has eight bytes.
-/
namespace WG.Sticky

def zeros (n : Nat) : List UInt8 := List.replicate n 0

/-- 21-33 `struct magic_endpoint`: the union of the addresses (28 bytes, of which `addr4` is the first 16) and the union of the sources (16 bytes; `src4` is the first four, `src_if4` the next four). -/
structure Endpoint where
  name : List UInt8
  src : List UInt8
deriving DecidableEq

/-- A store of `new` at offset `off`. -/
def setAt (l : List UInt8) (off : Nat) (new : List UInt8) : List UInt8 := l.take off ++ new ++ l.drop (off + new.length)

/-- What `sendmsg` is given. -/
structure Msg where
  name : List UInt8
  control : List UInt8
  payload : List UInt8
deriving DecidableEq

/-- What `sendmsg` answers to the last of the messages given to it (`.error`: errno). -/
abbrev Kernel := List Msg → Except Nat Nat

def EINVAL : Nat := 22

/-- 47-49: `cmsg_len`, `cmsg_level`, `cmsg_type`. -/
def hdr4 : List UInt8 := [28, 0, 0, 0, 0, 0, 0, 0] ++ [0, 0, 0, 0] ++ [8, 0, 0, 0]
/-- 81-83 -/
def hdr6 : List UInt8 := [36, 0, 0, 0, 0, 0, 0, 0] ++ [41, 0, 0, 0] ++ [50, 0, 0, 0]

/-- 43-60: `ipi_ifindex`, `ipi_spec_dst`, `ipi_addr`; the padding is taken to be zero. -/
def msg4 (e : Endpoint) (ifindex spec : List UInt8) (buf : List UInt8) : Msg :=
  ⟨e.name.take 16, hdr4 ++ (ifindex ++ spec ++ zeros 4) ++ zeros 4, buf⟩

/-- 36-68 `magic_send4` (`sent`: what was sent before). -/
def send4 (k : Kernel) (sent : List Msg) (e : Endpoint) (buf : List UInt8) : Except Nat Nat × List Msg × Endpoint :=
  let m := msg4 e ((e.src.drop 4).take 4) (e.src.take 4) buf
  match k (sent ++ [m]) with
  | .error n =>
    if n = EINVAL then
      let m' := msg4 e (zeros 4) (zeros 4) buf
      (k (sent ++ [m, m']), sent ++ [m, m'], { e with src := setAt e.src 0 (zeros 8) })
    else (.error n, sent ++ [m], e)
  | .ok n => (.ok n, sent ++ [m], e)

/-- 77-94: `ipi6_addr`, `ipi6_ifindex`. -/
def msg6 (e : Endpoint) (addr ifindex : List UInt8) (buf : List UInt8) : Msg :=
  ⟨e.name, hdr6 ++ (addr ++ ifindex) ++ zeros 4, buf⟩

/-- 70-103 `magic_send6` -/
def send6 (k : Kernel) (sent : List Msg) (e : Endpoint) (buf : List UInt8) : Except Nat Nat × List Msg × Endpoint :=
  let m := msg6 e e.src (if e.src ≠ zeros 16 then e.name.drop 24 else zeros 4) buf
  match k (sent ++ [m]) with
  | .error n =>
    if n = EINVAL then
      let m' := msg6 e (zeros 16) (zeros 4) buf
      (k (sent ++ [m, m']), sent ++ [m, m'], { e with src := zeros 16 })
    else (.error n, sent ++ [m], e)
  | .ok n => (.ok n, sent ++ [m], e)

/-- What `recvmsg` does: it fails, or writes the sender, control messages and data. -/
inductive Recv where
  | fail (errno : Nat)
  | got (name control payload : List UInt8)

def num : List UInt8 → Nat
  | [] => 0
  | b :: l => b.toNat + 256 * num l

/-- 105-133 `magic_receive4`; the data received are the first `len` bytes. `junk`: what is in `cmsg` before (it is not initialised). -/
def receive4 (r : Recv) (junk : List UInt8) (e : Endpoint) (len : Nat) : Except Nat (List UInt8) × Endpoint :=
  match r with
  | .fail n => (.error n, e)
  | .got name control payload =>
    let c := setAt junk 0 (control.take 32)
    let e := { e with name := setAt e.name 0 (name.take 16) }
    (.ok (payload.take len),
     if (c.drop 8).take 4 = [0, 0, 0, 0] ∧ (c.drop 12).take 4 = [8, 0, 0, 0] ∧ 28 ≤ num (c.take 8) then
       { e with src := setAt e.src 0 ((c.drop 20).take 4 ++ (c.drop 16).take 4) }
     else e)

/-- 135-163 `magic_receive6` -/
def receive6 (r : Recv) (junk : List UInt8) (e : Endpoint) (len : Nat) : Except Nat (List UInt8) × Endpoint :=
  match r with
  | .fail n => (.error n, e)
  | .got name control payload =>
    let c := setAt junk 0 (control.take 40)
    let e := { e with name := setAt e.name 0 (name.take 28) }
    (.ok (payload.take len),
     if (c.drop 8).take 4 = [41, 0, 0, 0] ∧ (c.drop 12).take 4 = [50, 0, 0, 0] ∧ 36 ≤ num (c.take 8) then
       { name := setAt e.name 24 ((c.drop 32).take 4), src := (c.drop 16).take 16 }
     else e)

/-- 165-173 `magic_endpoint_clearsrc` -/
def clearsrc (e : Endpoint) : Endpoint :=
  if e.name.take 2 = [2, 0] then { e with src := setAt e.src 0 (zeros 8) }
  else if e.name.take 2 = [10, 0] then { e with src := zeros 16 }
  else ⟨zeros 28, zeros 16⟩

/-- 175-182 `magic_endpoint_set` -/
def set (e : Endpoint) (addr : List UInt8) : Endpoint :=
  clearsrc
    (if addr.take 2 = [2, 0] then { e with name := setAt e.name 0 (addr.take 16) }
     else if addr.take 2 = [10, 0] then { e with name := setAt e.name 0 (addr.take 28) }
     else e)

/-- 248 `{ 0 }` -/
def fresh : Endpoint := ⟨zeros 28, zeros 16⟩

/-- The calls of `main`. -/
inductive Sys where
  /-- `socket(family, SOCK_DGRAM, 0)` -/
  | socket (family : Nat)
  /-- `setsockopt(fd, level, name, 1)` -/
  | opt (level name : Nat)
  /-- `bind`, to this `sockaddr`. -/
  | bind (addr : List UInt8)
  | close
  | recv
  | sleep (seconds : Nat)
deriving DecidableEq

/-- What happens: which calls succeed (given the calls before), the packet, the memory, and what the kernel says to a reply. -/
structure Host where
  ok : List Sys → Sys → Bool
  recv : Recv
  junk : List UInt8
  kernel : Kernel

structure Result where
  calls : List Sys
  sent : List Msg := []
  out : List UInt8 := []
  exit : Nat

/-- 194-210, 223-243: the calls are made in order; the first that fails ends it, and the socket is closed. -/
def create (h : Host) : List Sys → List Sys → List Sys × Bool
  | done, [] => (done, true)
  | done, c :: l =>
    if h.ok done c then create h (done ++ [c]) l
    else (if done = [] then [c] else done ++ [c, .close], false)

/-- 184-211 `magic_create_sock4(51820)` -/
def sock4 : List Sys := [.socket 2, .opt 0 8, .bind ([2, 0] ++ [0xca, 0x6c] ++ zeros 12)]
/-- 213-244 `magic_create_sock6(51820)` -/
def sock6 : List Sys := [.socket 10, .opt 41 49, .opt 41 26, .bind ([10, 0] ++ [0xca, 0x6c] ++ zeros 24)]

def vec (n : Nat) (l : List UInt8) : Vector UInt8 n := Vector.ofFn fun i => l.getD i 0

/-- `%d` of four bytes. -/
def fmtInt (l : List UInt8) : List UInt8 :=
  WG.Bsd.showInt (if num l < 2 ^ 31 then (num l : Int) else (num l : Int) - 2 ^ 32)

/-- 283-285, 319-321. -/
def report (ifindex src dst : List UInt8) : List UInt8 :=
  b!"if:" ++ fmtInt ifindex ++ b!" src:" ++ src ++ b!" dst:" ++ dst ++
    b!"\nReceived a packet. Sleeping for 10 seconds before replying, so you have time to mess with your networking setup.\n"

/-- 296-330. `inet_ntop` does not fail: an address has at most 39 characters. The buffer is all zeros before (251). -/
def main4 (h : Host) : Result :=
  match create h [] sock4 with
  | (cs, false) => { calls := cs, exit := 1 }
  | (cs, true) =>
    match receive4 h.recv h.junk fresh 1024 with
    | (.error _, _) => { calls := cs ++ [.recv], exit := 1 }
    | (.ok data, e) =>
      let out := report ((e.src.drop 4).take 4) (ntop4 (vec 4 (e.src.take 4))) (ntop4 (vec 4 ((e.name.drop 4).take 4)))
      match send4 h.kernel [] e (setAt (zeros 1024) 0 data) with
      | (.error _, sent, _) => { calls := cs ++ [.recv, .sleep 10], sent, out, exit := 1 }
      | (.ok _, sent, _) => { calls := cs ++ [.recv, .sleep 10, .close], sent, out, exit := 0 }

/-- 260-294 -/
def main6 (h : Host) : Result :=
  match create h [] sock6 with
  | (cs, false) => { calls := cs, exit := 1 }
  | (cs, true) =>
    match receive6 h.recv h.junk fresh 1024 with
    | (.error _, _) => { calls := cs ++ [.recv], exit := 1 }
    | (.ok data, e) =>
      let out := report (e.name.drop 24) (ntop6 (vec 16 e.src)) (ntop6 (vec 16 ((e.name.drop 8).take 16)))
      match send6 h.kernel [] e (setAt (zeros 1024) 0 data) with
      | (.error _, sent, _) => { calls := cs ++ [.recv, .sleep 10], sent, out, exit := 1 }
      | (.ok _, sent, _) => { calls := cs ++ [.recv, .sleep 10, .close], sent, out, exit := 0 }

/-- 246-258 `main` -/
def main (h : Host) (args : List CStr) : Result :=
  if args = [b!"-4"] then main4 h
  else if args = [b!"-6"] then main6 h
  else { calls := [], exit := 1 }

end WG.Sticky
