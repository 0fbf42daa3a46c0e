import Verif.Model.IpcList
/-! Model of src/ipc-openbsd.h and src/uapi/openbsd/net/if_wg.h: the interface to the OpenBSD kernel, byte for byte. 64-bit little endian, the usual
alignment. Not modelled: failing `calloc` of the device, its peers and its allowed IPs; `size_t` overflow. -/
namespace WG.Obsd

/-- An integer of `n` bytes in memory. -/
def leBytes : Nat → Nat → List UInt8
  | 0, _ => []
  | n + 1, x => UInt8.ofNat x :: leBytes n (x / 256)

/-- `*p |= x`, for an integer of `n` bytes at offset `i`. -/
def orAt (mem : List UInt8) (i n x : Nat) : Res (List UInt8) := (rdNum mem i n).bind fun v => storeBytes (some mem) i (leBytes n (v ||| x))

/-- `if (b) { store; flags |= x; }`: the pattern of ipc-openbsd.h:208-221, 229-242. `at_`, `n`: where the flags are, and their size. -/
def storeFlagged (b : Bool) (mem : List UInt8) (i : Nat) (d : List UInt8) (at_ n x : Nat) : Res (List UInt8) :=
  if b then (storeBytes (some mem) i d).bind fun mem => orAt mem at_ n x else .ok mem

/-- `if (b) flags |= x;` (ipc-openbsd.h:223-224, 244-248). -/
def orIf (b : Bool) (mem : List UInt8) (i n x : Nat) : Res (List UInt8) := if b then orAt mem i n x else .ok mem

/-- The endpoint union (containers.h:56-60) with BSD socket addresses: length, family (AF_INET 2, AF_INET6 24), port, ...; 28 bytes. -/
def epUnion : Endpoint → List UInt8
  | .unset => List.replicate 28 0
  | .in4 a p => [16, 2, UInt8.ofNat (p.toNat / 256), UInt8.ofNat p.toNat] ++ a.toList ++ List.replicate 20 0
  | .in6 a p fl sc => [28, 24, UInt8.ofNat (p.toNat / 256), UInt8.ofNat p.toNat] ++ u32b fl.toNat ++ a.toList ++ u32b sc.toNat

/-- How the program sees that union. -/
def seeUnion (b : List UInt8) : Endpoint :=
  let port := UInt16.ofNat (leNat (b.drop 2 |>.take 2).reverse)
  if b.getD 1 0 = 2 then .in4 (vecAt (b.drop 4)) port
  else if b.getD 1 0 = 24 then .in6 (vecAt (b.drop 8)) port (UInt32.ofNat (leNat ((b.drop 4).take 4))) (UInt32.ofNat (leNat ((b.drop 24).take 4)))
  else .unset

/-! ### Setting (ipc-openbsd.h:182-281) -/

/-- `a_af`: AF_INET or AF_INET6. -/
def famByte : Addr → UInt8
  | .v4 _ => 2
  | .v6 _ => 24

/-- The bytes of the address. -/
def addrBytes : Addr → List UInt8
  | .v4 b => b.toList
  | .v6 b => b.toList

/-- ipc-openbsd.h:253-263: one allowed IP at `i` (`struct wg_aip_io`: a_af 0, a_cidr 4, a_addr 8; 24 bytes). Allowed IPs of another family (263 `continue`) do not
exist in our lists. -/
def setAip (mem : List UInt8) (i : Nat) (a : AllowedIP) : Res (List UInt8) :=
  (storeBytes (some mem) i [famByte a.addr]).bind fun mem =>
  (storeBytes (some mem) (i + 4) (leBytes 4 a.cidr.toNat)).bind fun mem =>
  storeBytes (some mem) (i + 8) (addrBytes a.addr)

/-- ipc-openbsd.h:252-266: the allowed IPs; the memory, where `wg_aip` ends up, and `aip_count`. -/
def setAips : List UInt8 → Nat → Nat → List AllowedIP → Res (List UInt8 × Nat × Nat)
  | mem, i, n, [] => .ok (mem, i, n)
  | mem, i, n, a :: l => (setAip mem i a).bind fun mem => setAips mem (i + 24) (n + 1) l

/-- ipc-openbsd.h:227-269: one peer at `i` (`struct wg_peer_io`: p_flags 0, p_public 8, p_psk 40, p_pka 72, p_endpoint 76, p_txbytes 104, p_rxbytes 112,
p_last_handshake 120, p_aips_count 136, p_aips 144); the memory and where the next peer goes. -/
def setPeer (mem : List UInt8) (i : Nat) (p : Peer) : Res (List UInt8 × Nat) :=
  (storeBytes (some mem) i (leBytes 4 1)).bind fun mem =>
  (storeBytes (some mem) (i + 8) p.publicKey.toList).bind fun mem =>
  (storeFlagged p.flags.hasPresharedKey mem (i + 40) p.presharedKey.toList i 4 2).bind fun mem =>
  (storeFlagged p.flags.hasKeepalive mem (i + 72) (leBytes 2 p.keepalive.toNat) i 4 4).bind fun mem =>
  let u := epUnion p.endpoint
  let len := (u.getD 0 0).toNat
  (storeFlagged ((u.getD 1 0 = 2 ∨ u.getD 1 0 = 24) ∧ len ≤ 28) mem (i + 76) (u.take len) i 4 8).bind fun mem =>
  (orIf p.flags.replaceAllowedIPs mem i 4 16).bind fun mem =>
  (orIf p.flags.removeMe mem i 4 32).bind fun mem =>
  (setAips mem (i + 144) 0 p.allowedIPs).bind fun r =>
  (storeBytes (some r.1) (i + 136) (leBytes 8 r.2.2)).bind fun mem => .ok (mem, r.2.1)

/-- ipc-openbsd.h:226-270: the peers; the memory and `peer_count`. -/
def setPeers : List UInt8 → Nat → Nat → List Peer → Res (List UInt8 × Nat)
  | mem, _, n, [] => .ok (mem, n)
  | mem, i, n, p :: l => (setPeer mem i p).bind fun r => setPeers r.1 r.2 (n + 1) l

/-- ipc-openbsd.h:197-201: `wgd_size`. -/
def setSize (d : Device) : Nat := d.peers.foldl (fun n p => p.allowedIPs.foldl (fun n _ => n + 24) (n + 144)) 80

/-- ipc-openbsd.h:202-271: the buffer handed to the kernel (`struct wg_interface_io`: i_flags 0, i_port 2, i_rtable 4, i_public 8, i_private 40, i_peers_count 72,
i_peers 80). -/
def setBuffer (d : Device) : Res (List UInt8) :=
  let mem := List.replicate (setSize d) 0
  (storeFlagged d.flags.hasPrivateKey mem 40 d.privateKey.toList 0 1 2).bind fun mem =>
  (storeFlagged d.flags.hasListenPort mem 2 (leBytes 2 d.listenPort.toNat) 0 1 4).bind fun mem =>
  (storeFlagged d.flags.hasFwmark mem 4 (leBytes 4 d.fwmark.toNat) 0 1 8).bind fun mem =>
  (orIf d.flags.replacePeers mem 0 1 16).bind fun mem =>
  (setPeers mem 80 0 d.peers).bind fun r => storeBytes (some r.1) 72 (leBytes 8 r.2)

/-- What the kernel does for a set operation: `socket`, `calloc` and the ioctl may fail with an errno. -/
structure SetEnv where
  sock : Option Nat
  calloc : Option Nat
  ioctl : CStr → List UInt8 → Option Nat

/-- ipc-openbsd.h:182-281 `kernel_set_device`: the code, and name and buffer given to SIOCSWG, if it came to that. -/
def kernelSet (env : SetEnv) (d : Device) : Res (Int × Option (CStr × List UInt8)) :=
  match env.sock with
  | some e => .ok (-e, none)
  | none =>
  match env.calloc with
  | some e => .ok (-e, none)
  | none =>
    let name := d.name.take 15
    (setBuffer d).bind fun mem =>
    match env.ioctl name mem with
    | some e => .ok (-e, some (name, mem))
    | none => .ok (0, some (name, mem))

/-! ### Getting (ipc-openbsd.h:61-180) -/

/-- What SIOCGWG does: fails, or says the size of its answer and writes these bytes. -/
inductive GetReply where
  | err (e : Nat)
  | ok (size : Nat) (data : List UInt8)

/-- The kernel in a get operation: `ioctl k name size`: the k-th call, with a buffer of `size` bytes. `heap`: `realloc`. -/
structure GetEnv where
  sock : Option Nat
  ioctl : Nat → CStr → Nat → GetReply
  heap : Heap

/-- The kernel writes at the beginning of the buffer, not past its end. -/
def wrote (data : List UInt8) (b : List UInt8) : List UInt8 := data.take b.length ++ b.drop data.length

/-- ipc-openbsd.h:77-85: the loop around SIOCGWG; an errno, or the buffer when it is left. -/
def getLoop (env : GetEnv) (name : CStr) : Nat → Nat → Nat → Option (List UInt8) → Res (Except Nat (Option (List UInt8)))
  | 0, _, _, _ => .running
  | fuel + 1, k, last, buf =>
    match env.ioctl k name last with
    | .err e => .ok (.error e)
    | .ok size data =>
      let buf := buf.map (wrote data)
      if last ≥ size then .ok (.ok buf)
      else match env.heap.fail k with
        | some e => .ok (.error e)
        | none => getLoop env name fuel (k + 1) size (some (reallocBytes env.heap k buf size))

/-- A read made only under a condition. -/
def rdIf {α : Type} (b : Bool) (r : Res α) : Res (Option α) := if b then r.bind fun x => .ok (some x) else .ok none

/-- ipc-openbsd.h:161-169: one allowed IP. Another family: neither address nor prefix length is set, and every use takes it for an IPv6 one. -/
def getAip (mem : List UInt8) (i : Nat) : Res AllowedIP :=
  (rdNum mem i 1).bind fun af =>
  if af = 2 then (rdBytes mem (i + 8) 4).bind fun b => (rdNum mem (i + 4) 4).bind fun c => .ok ⟨.v4 (vecAt b), UInt8.ofNat c⟩
  else if af = 24 then (rdBytes mem (i + 8) 16).bind fun b => (rdNum mem (i + 4) 4).bind fun c => .ok ⟨.v6 (vecAt b), UInt8.ofNat c⟩
  else .ok ⟨.v6 (vecAt []), 0⟩

/-- ipc-openbsd.h:148-171: `n` allowed IPs from `i` on, and what is behind them. -/
def getAips (mem : List UInt8) : Nat → Nat → Res (List AllowedIP × Nat)
  | 0, i => .ok ([], i)
  | n + 1, i => (getAip mem i).bind fun a => (getAips mem n (i + 24)).bind fun r => .ok (a :: r.1, r.2)

/-- ipc-openbsd.h:112-172: one peer, and where the next one is. `memcpy` of the endpoint only if it fits into a `struct sockaddr` (137: 16 bytes). -/
def getPeer (mem : List UInt8) (i : Nat) : Res (Peer × Nat) :=
  (rdNum mem i 4).bind fun fl =>
  (rdIf (fl.testBit 0) (rdBytes mem (i + 8) 32)).bind fun pub =>
  (rdIf (fl.testBit 1) (rdBytes mem (i + 40) 32)).bind fun psk =>
  (rdIf (fl.testBit 2) (rdNum mem (i + 72) 2)).bind fun pka =>
  (rdIf (fl.testBit 3) (rdNum mem (i + 76) 1)).bind fun saLen =>
  (rdIf (saLen.any (· ≤ 16)) (rdBytes mem (i + 76) (saLen.getD 0))).bind fun ep =>
  (rdNum mem (i + 112) 8).bind fun rx =>
  (rdNum mem (i + 104) 8).bind fun tx =>
  (rdNum mem (i + 120) 8).bind fun sec =>
  (rdNum mem (i + 128) 8).bind fun nsec =>
  (rdNum mem (i + 136) 8).bind fun n =>
  (getAips mem n (i + 144)).bind fun r =>
  .ok ({ flags := { hasPublicKey := pub.isSome, hasPresharedKey := psk.any (¬ allZero ·), hasKeepalive := pka.isSome }
         publicKey := vecAt (pub.getD []), presharedKey := vecAt (psk.getD []), keepalive := UInt16.ofNat (pka.getD 0)
         endpoint := seeUnion (ep.getD []), rx := rx, tx := tx, handshakeSec := toInt64 sec, handshakeNsec := toInt64 nsec, allowedIPs := r.1 }, r.2)

/-- ipc-openbsd.h:113-173: `n` peers from `i` on. -/
def getPeers (mem : List UInt8) : Nat → Nat → Res (List Peer)
  | 0, _ => .ok []
  | n + 1, i => (getPeer mem i).bind fun r => (getPeers mem n r.2).bind fun l => .ok (r.1 :: l)

/-- ipc-openbsd.h:87-173: the device in the buffer. -/
def getDevice (mem : List UInt8) (iface : CStr) : Res Device :=
  (rdNum mem 0 1).bind fun fl =>
  (rdIf (fl.testBit 3) (rdNum mem 4 4)).bind fun rtable =>
  (rdIf (fl.testBit 2) (rdNum mem 2 2)).bind fun port =>
  (rdIf (fl.testBit 0) (rdBytes mem 8 32)).bind fun pub =>
  (rdIf (fl.testBit 1) (rdBytes mem 40 32)).bind fun priv =>
  (rdNum mem 72 8).bind fun n =>
  (getPeers mem n 80).bind fun peers =>
  .ok { name := iface.take 15, flags := { hasFwmark := rtable.isSome, hasListenPort := port.isSome, hasPublicKey := pub.isSome, hasPrivateKey := priv.isSome }
        fwmark := UInt32.ofNat (rtable.getD 0), listenPort := UInt16.ofNat (port.getD 0), publicKey := vecAt (pub.getD []), privateKey := vecAt (priv.getD [])
        peers := peers }

/-- ipc-openbsd.h:61-180 `kernel_get_device`: the code and `*device`. Without a buffer (the kernel said size 0 at once), line 93 dereferences NULL. -/
def kernelGet (env : GetEnv) (iface : CStr) (fuel : Nat) : Res (Int × Option Device) :=
  match env.sock with
  | some e => .ok (-e, none)
  | none =>
    (getLoop env (iface.take 15) fuel 0 0 none).bind fun
    | .error e => .ok (-e, none)
    | .ok none => .ub
    | .ok (some mem) => (getDevice mem iface).bind fun d => .ok (0, some d)

/-! ### Listing (ipc-openbsd.h:30-59) -/

/-- SIOCGIFGMEMB for the group `wg`: first only the length; then, with a buffer of that length, the length again and the entries written. -/
structure ListEnv where
  sock : Option Nat
  first : Except Nat Nat
  calloc : Option Nat
  second : Nat → Except Nat (Nat × List UInt8)

/-- ipc-openbsd.h:50-54: the loop over the entries (`struct ifg_req`: 16 bytes, a name); `left`: `ifgr_len`, an `u_int`. -/
def listLoop (heap : Heap) (mem : List UInt8) : Nat → Nat → Nat → StrList → Res (Int × StrList)
  | 0, _, _, _ => .running
  | fuel + 1, i, left, l =>
    if left = 0 then .ok (0, l)
    else (memStr mem i).bind fun s => (stringListAdd heap l s).bind fun r =>
      if r.1 < 0 then .ok r
      else listLoop heap mem fuel (i + 16) ((left + 2 ^ 32 - 16) % 2 ^ 32) r.2

/-- ipc-openbsd.h:30-59 `kernel_get_wireguard_interfaces`. -/
def kernelList (heap : Heap) (env : ListEnv) (l : StrList) : Res (Int × StrList) :=
  match env.sock with
  | some e => .ok (-e, l)
  | none =>
  match env.first with
  | .error e => .ok (if e = 2 then 0 else -e, l)
  | .ok len =>
  match env.calloc with
  | some e => .ok (-e, l)
  | none =>
  match env.second len with
  | .error e => .ok (-e, l)
  | .ok (len', data) => let mem := wrote data (List.replicate len 0); listLoop heap mem (mem.length + 2) 0 len' l

end WG.Obsd
