import Verif.Model.IpcOpenbsd
/-! Model of src/ipc-windows.h and src/uapi/windows/wireguard.h: the interface to the WireGuardNT driver, byte for byte. Little endian, the usual alignment (the same for 32 and 64
bits). Not modelled: failing `calloc` of the device, its peers and its allowed IPs when getting; `free` changing the last error. Finding the adapter is in Model/WinFind. -/
namespace WG.Win
open Obsd (leBytes orAt storeFlagged orIf addrBytes wrote rdIf)

/-- The endpoint union (containers.h:56-60) with Windows socket addresses: family (AF_INET 2, AF_INET6 23), port, ...; 28 bytes. `SOCKADDR_INET` is the same. -/
def epUnion : Endpoint → List UInt8
  | .unset => List.replicate 28 0
  | .in4 a p => [2, 0, UInt8.ofNat (p.toNat / 256), UInt8.ofNat p.toNat] ++ a.toList ++ List.replicate 20 0
  | .in6 a p fl sc => [23, 0, UInt8.ofNat (p.toNat / 256), UInt8.ofNat p.toNat] ++ u32b fl.toNat ++ a.toList ++ u32b sc.toNat

/-- How the program sees that union. -/
def seeUnion (b : List UInt8) : Endpoint :=
  let port := UInt16.ofNat (leNat (b.drop 2 |>.take 2).reverse)
  if leNat (b.take 2) = 2 then .in4 (vecAt (b.drop 4)) port
  else if leNat (b.take 2) = 23 then .in6 (vecAt (b.drop 8)) port (UInt32.ofNat (leNat ((b.drop 4).take 4))) (UInt32.ofNat (leNat ((b.drop 24).take 4)))
  else .unset

/-! ### Setting (ipc-windows.h:342-450) -/

/-- `AddressFamily`: AF_INET or AF_INET6. -/
def famNum : Addr → Nat
  | .v4 _ => 2
  | .v6 _ => 23

/-- ipc-windows.h:421-431: one allowed IP at `i` (`WG_IOCTL_ALLOWED_IP`: Address 0, AddressFamily 16, Cidr 18; 24 bytes). Allowed IPs of another family (429 `continue`) do not
exist in our lists. -/
def setAip (mem : List UInt8) (i : Nat) (a : AllowedIP) : Res (List UInt8) :=
  (storeBytes (some mem) (i + 16) (leBytes 2 (famNum a.addr))).bind fun mem =>
  (storeBytes (some mem) (i + 18) [a.cidr]).bind fun mem =>
  storeBytes (some mem) i (addrBytes a.addr)

/-- ipc-windows.h:418-432: the allowed IPs; the memory, where `wg_aip` ends up, and `aip_count`. -/
def setAips : List UInt8 → Nat → Nat → List AllowedIP → Res (List UInt8 × Nat × Nat)
  | mem, i, n, [] => .ok (mem, i, n)
  | mem, i, n, a :: l => (setAip mem i a).bind fun mem => setAips mem (i + 24) (n + 1) l

/-- ipc-windows.h:391-435: one peer at `i` (`WG_IOCTL_PEER`: Flags 0, ProtocolVersion 4, PublicKey 8, PresharedKey 40, PersistentKeepalive 72, Endpoint 76, TxBytes 104, RxBytes 112,
LastHandshake 120, AllowedIPsCount 128; 136 bytes); the memory and where the next peer goes. -/
def setPeer (mem : List UInt8) (i : Nat) (p : Peer) : Res (List UInt8 × Nat) :=
  (storeBytes (some mem) i (leBytes 4 1)).bind fun mem =>
  (storeBytes (some mem) (i + 8) p.publicKey.toList).bind fun mem =>
  (storeFlagged p.flags.hasPresharedKey mem (i + 40) p.presharedKey.toList i 4 2).bind fun mem =>
  (storeFlagged p.flags.hasKeepalive mem (i + 72) (leBytes 2 p.keepalive.toNat) i 4 4).bind fun mem =>
  let u := epUnion p.endpoint
  let fam := leNat (u.take 2)
  (storeFlagged (fam = 2 ∨ fam = 23) mem (i + 76) (u.take (if fam = 2 then 16 else 28)) i 4 8).bind fun mem =>
  (orIf p.flags.replaceAllowedIPs mem i 4 32).bind fun mem =>
  (orIf p.flags.removeMe mem i 4 64).bind fun mem =>
  (setAips mem (i + 136) 0 p.allowedIPs).bind fun r =>
  (storeBytes (some r.1) (i + 128) (leBytes 4 r.2.2)).bind fun mem => .ok (mem, r.2.1)

/-- ipc-windows.h:388-436: the peers; the memory and `peer_count`. -/
def setPeers : List UInt8 → Nat → Nat → List Peer → Res (List UInt8 × Nat)
  | mem, _, n, [] => .ok (mem, n)
  | mem, i, n, p :: l => (setPeer mem i p).bind fun r => setPeers r.1 r.2 (n + 1) l

/-- ipc-windows.h:363-369: the allowed IPs of a peer in `buf_len`; `none`: EOVERFLOW. DWORD_MAX is 2^32 - 1. -/
def addAips : Nat → List AllowedIP → Option Nat
  | n, [] => some n
  | n, _ :: l => if 2 ^ 32 - 1 - n < 24 then none else addAips (n + 24) l

/-- ipc-windows.h:357-370: `buf_len`. -/
def addPeers : Nat → List Peer → Option Nat
  | n, [] => some n
  | n, p :: l => if 2 ^ 32 - 1 - n < 136 then none else (addAips (n + 136) p.allowedIPs).bind fun n => addPeers n l

/-- ipc-windows.h:371-437: the buffer handed to the driver (`WG_IOCTL_INTERFACE`: Flags 0, ListenPort 4, PrivateKey 6, PublicKey 38, PeersCount 72; 80 bytes). -/
def setBuffer (size : Nat) (d : Device) : Res (List UInt8) :=
  let mem := List.replicate size 0
  (storeFlagged d.flags.hasPrivateKey mem 6 d.privateKey.toList 0 4 2).bind fun mem =>
  (storeFlagged d.flags.hasListenPort mem 4 (leBytes 2 d.listenPort.toNat) 0 4 4).bind fun mem =>
  (orIf d.flags.replacePeers mem 0 4 8).bind fun mem =>
  (setPeers mem 80 0 d.peers).bind fun r => storeBytes (some r.1) 72 (leBytes 4 r.2)

/-- A set operation as the system sees it. -/
structure SetEnv where
  /-- `kernel_interface_handle`: the value of `errno` when it returned NULL. -/
  handle : Option Nat
  calloc : Option Nat
  /-- `DeviceIoControl` with WG_IOCTL_SET: does it succeed? -/
  ioctl : List UInt8 → Bool

/-- What an operation does with the handle of the adapter: the buffer given to the driver, if it came to that; is the handle closed at the end? -/
structure SetDone where
  code : Int
  sent : Option (List UInt8)
  opened : Bool
  closed : Bool
deriving DecidableEq

/-- ipc-windows.h:342-450 `kernel_set_device`. EOVERFLOW is 132, EACCES 13 (Windows CRT). -/
def kernelSet (env : SetEnv) (d : Device) : Res SetDone :=
  match env.handle with
  | some e => .ok ⟨-e, none, false, false⟩
  | none =>
  match addPeers 80 d.peers with
  | none => .ok ⟨-132, none, true, true⟩
  | some size =>
  match env.calloc with
  | some e => .ok ⟨-e, none, true, true⟩
  | none =>
    (setBuffer size d).bind fun mem =>
    if env.ioctl mem then .ok ⟨0, some mem, true, true⟩ else .ok ⟨-13, some mem, true, true⟩

/-! ### Getting (ipc-windows.h:215-340) -/

/-- What `DeviceIoControl` with WG_IOCTL_GET does: it fails with ERROR_MORE_DATA and says a size; it fails otherwise; or it writes these bytes. -/
inductive GetReply where
  | more (size : Nat)
  | failed
  | ok (data : List UInt8)

/-- The system in a get operation: `ioctl k size`: the k-th call, with a buffer of `size` bytes; `heap`: `malloc`. -/
structure GetEnv where
  handle : Option Nat
  ioctl : Nat → Nat → GetReply
  heap : Heap

/-- ipc-windows.h:233-242: the loop around WG_IOCTL_GET; an errno, or the buffer when it is left. -/
def getLoop (env : GetEnv) : Nat → Nat → Option (List UInt8) → Res (Except Nat (Option (List UInt8)))
  | 0, _, _ => .running
  | fuel + 1, k, buf =>
    match env.ioctl k ((buf.getD []).length) with
    | .ok data => .ok (.ok (buf.map (wrote data)))
    | .failed => .ok (.error 13)
    | .more size =>
      match env.heap.fail k with
      | some e => .ok (.error e)
      | none => getLoop env fuel (k + 1) (some ((List.range size).map (env.heap.junk k)))

/-- ipc-windows.h:321-328: one allowed IP. Another family: neither address nor prefix length is set, and every use takes it for an IPv6 one. -/
def getAip (mem : List UInt8) (i : Nat) : Res AllowedIP :=
  (rdNum mem (i + 16) 2).bind fun af =>
  if af = 2 then (rdBytes mem i 4).bind fun b => (rdNum mem (i + 18) 1).bind fun c => .ok ⟨.v4 (vecAt b), UInt8.ofNat c⟩
  else if af = 23 then (rdBytes mem i 16).bind fun b => (rdNum mem (i + 18) 1).bind fun c => .ok ⟨.v6 (vecAt b), UInt8.ofNat c⟩
  else .ok ⟨.v6 (vecAt []), 0⟩

/-- ipc-windows.h:309-330: `n` allowed IPs from `i` on, and what is behind them. -/
def getAips (mem : List UInt8) : Nat → Nat → Res (List AllowedIP × Nat)
  | 0, i => .ok ([], i)
  | n + 1, i => (getAip mem i).bind fun a => (getAips mem n (i + 24)).bind fun r => .ok (a :: r.1, r.2)

/-- ipc-windows.h:294-299: how many bytes of the endpoint are copied. -/
def epCopied (fam : Option Nat) : Option Nat :=
  if fam = some 2 then some 16 else if fam = some 23 then some 28 else none

/-- ipc-windows.h:304-305: the time of the last handshake (100 ns since 1601, 64 bits, unsigned arithmetic) in seconds and nanoseconds since 1970. -/
def handshakeSecOf (t : Nat) : Int := if t = 0 then 0 else toInt64 ((t / 10000000 + 2 ^ 64 - 11644473600) % 2 ^ 64)

/-- ipc-windows.h:306. -/
def handshakeNsecOf (t : Nat) : Int := if t = 0 then 0 else toInt64 (t % 10000000 * 100)

/-- ipc-windows.h:268-331: one peer, and where the next one is. -/
def getPeer (mem : List UInt8) (i : Nat) : Res (Peer × Nat) :=
  (rdNum mem i 4).bind fun fl =>
  (rdIf (fl.testBit 0) (rdBytes mem (i + 8) 32)).bind fun pub =>
  (rdIf (fl.testBit 1) (rdBytes mem (i + 40) 32)).bind fun psk =>
  (rdIf (fl.testBit 2) (rdNum mem (i + 72) 2)).bind fun pka =>
  (rdIf (fl.testBit 3) (rdNum mem (i + 76) 2)).bind fun fam =>
  (rdIf (epCopied fam).isSome (rdBytes mem (i + 76) ((epCopied fam).getD 0))).bind fun ep =>
  (rdNum mem (i + 112) 8).bind fun rx =>
  (rdNum mem (i + 104) 8).bind fun tx =>
  (rdNum mem (i + 120) 8).bind fun t =>
  (rdNum mem (i + 128) 4).bind fun n =>
  (getAips mem n (i + 136)).bind fun r =>
  .ok ({ flags := { hasPublicKey := pub.isSome, hasPresharedKey := psk.any (¬ allZero ·), hasKeepalive := pka.isSome }
         publicKey := vecAt (pub.getD []), presharedKey := vecAt (psk.getD []), keepalive := UInt16.ofNat (pka.getD 0)
         endpoint := seeUnion (ep.getD []), rx := rx, tx := tx, handshakeSec := handshakeSecOf t, handshakeNsec := handshakeNsecOf t, allowedIPs := r.1 }, r.2)

/-- ipc-windows.h:266-332: `n` peers from `i` on. -/
def getPeers (mem : List UInt8) : Nat → Nat → Res (List Peer)
  | 0, _ => .ok []
  | n + 1, i => (getPeer mem i).bind fun r => (getPeers mem n r.2).bind fun l => .ok (r.1 :: l)

/-- ipc-windows.h:244-332: the device in the buffer. IFNAMSIZ is 64 (wincompat/compat.h:19). -/
def getDevice (mem : List UInt8) (iface : CStr) : Res Device :=
  (rdNum mem 0 4).bind fun fl =>
  (rdIf (fl.testBit 2) (rdNum mem 4 2)).bind fun port =>
  (rdIf (fl.testBit 0) (rdBytes mem 38 32)).bind fun pub =>
  (rdIf (fl.testBit 1) (rdBytes mem 6 32)).bind fun priv =>
  (rdNum mem 72 4).bind fun n =>
  (getPeers mem n 80).bind fun peers =>
  .ok { name := iface.take 63, flags := { hasListenPort := port.isSome, hasPublicKey := pub.isSome, hasPrivateKey := priv.isSome }
        listenPort := UInt16.ofNat (port.getD 0), publicKey := vecAt (pub.getD []), privateKey := vecAt (priv.getD []), peers := peers }

/-- A finished get operation: the code and `*device`; was the adapter opened, and is its handle closed again? -/
structure GetDone where
  code : Int
  device : Option Device
  opened : Bool
  closed : Bool
deriving DecidableEq

/-- ipc-windows.h:215-340 `kernel_get_device`. Without a buffer (the driver answered at once), line 250 and following dereference NULL. -/
def kernelGet (env : GetEnv) (iface : CStr) (fuel : Nat) : Res GetDone :=
  match env.handle with
  | some e => .ok ⟨-e, none, false, false⟩
  | none =>
    (getLoop env fuel 0 none).bind fun
    | .error e => .ok ⟨-e, none, true, false⟩
    | .ok none => .ub
    | .ok (some mem) => (getDevice mem iface).bind fun d => .ok ⟨0, some d, true, true⟩

end WG.Win
