import Verif.Model.Uapi
import Verif.Model.Encoding
/-!
Model of contrib/ncat-client-server/server.sh, the demo server that gives every client an address: lines 15-18, run by ncat for every connection,
and of the line of client.sh (11) and client-quick.sh (18) that reads its answer. Line numbers are those of server.sh.

The interface is the state: every process sees and changes it. `wg set … allowed-ips` is the kernel's: the peer is made if there is none, has just
this allowed IP, and no other peer keeps it (src/uapi/linux/linux/wireguard.h). Only 192.168.4.h/32 are ever given out. What `sort` does with equal
times depends on the locale: a parameter. The lines 6-14 and a failing `wg show` are not modelled; the key of a client is not that of the server.
-/
namespace WG.Demo

structure Peer where
  key : Key
  /-- The allowed IPs 192.168.4.h/32. -/
  hosts : List Nat
  /-- The latest handshake; 0: none. -/
  handshake : Nat
deriving DecidableEq

abbrev Iface := List Peer

/-- `192.168.4.$i` -/
def ipText (i : Nat) : CStr := b!"192.168.4." ++ showDec i

/-- `wg show wg0 allowed-ips` -/
def allowedText (d : Iface) : CStr :=
  (d.map fun p => keyToBase64 p.key ++ b!"\t" ++
    (if p.hosts = [] then b!"(none)" else ((p.hosts.map fun h => ipText h ++ b!"/32").intersperse b!" ").flatten) ++ b!"\n").flatten

/-- 16: the key of the peer on the first line of the sorted listing. -/
abbrev Oldest := Iface → Option Key

/-- 16 -/
def makeRoom (oldest : Oldest) (d : Iface) : Iface :=
  if d.length ≥ 253 then
    match oldest d with
    | some k => d.filter fun p => p.key ≠ k
    | none => d
  else d

/-- 17: the first address whose text is not in the listing. -/
def nextIp (d : Iface) : Option Nat :=
  ((List.range 253).map (· + 2)).find? fun i => ¬ (ipText i ++ b!"/32") <:+: allowedText d

/-- 18: the kernel's part of `wg set wg0 peer K allowed-ips IP/32`. -/
def give (d : Iface) (k : Key) (h : Nat) : Iface :=
  let others := d.map fun p => if p.key = k then p else { p with hosts := p.hosts.filter (· ≠ h) }
  if d.any fun p => p.key = k then others.map fun p => if p.key = k then { p with hosts := [h] } else p
  else others ++ [⟨k, [h], 0⟩]

/-- 15: `read -r`: the line without spaces, tabs at its ends, and without NULs. -/
def readLine (input : List UInt8) : CStr :=
  let blank (c : UInt8) : Bool := c = 32 ∨ c = 9
  let l := (input.takeWhile (· ≠ 10)).filter (· ≠ 0)
  ((l.dropWhile blank).reverse.dropWhile blank).reverse

/-- 18: `wg set` refuses a text that is no key, and `/32` without an address. -/
def assign (d : Iface) (text : CStr) (ip : Option Nat) : Option (Iface × Nat) :=
  match keyFromBase64 true text, ip with
  | some k, some h => some (give d k h, h)
  | _, _ => none

/-- 18: the answer; the server's key and port are those of the interface. -/
def answer (pub : Key) (port : Nat) : Option Nat → CStr
  | some h => b!"OK:" ++ keyToBase64 pub ++ b!":" ++ showDec port ++ b!":" ++ ipText h ++ b!"\n"
  | none => b!"ERROR\n"

/-- 15-18: a connection nobody interferes with: the interface after it and what the client is sent. -/
def session (oldest : Oldest) (pub : Key) (port : Nat) (d : Iface) (input : List UInt8) : Iface × CStr :=
  let text := readLine input
  let d := makeRoom oldest d
  match assign d text (nextIp d) with
  | some (d, h) => (d, answer pub port (some h))
  | none => (d, answer pub port none)

/-- client.sh:11-12: `IFS=: read -r status server_pubkey server_port internal_ip`, and the test of `status`. -/
def clientReads (out : List UInt8) : Option (CStr × CStr × CStr) :=
  let line := out.takeWhile (· ≠ 10)
  let field (l : CStr) : CStr × CStr := (l.takeWhile (· ≠ 58), (l.dropWhile (· ≠ 58)).drop 1)
  let (status, r) := field line
  let (pub, r) := field r
  let (port, ip) := field r
  if status = b!"OK" then some (pub, port, ip) else none

end WG.Demo
