import Verif.Model.IpcOpenbsd
/-! Model of src/ipc-freebsd.h: the interface to the FreeBSD kernel. Name-value lists (nv(9)) are lists of pairs; packing and unpacking them is the library's business and taken to be
lossless. 64-bit little endian. Listing (lines 22-51) is the same text as on OpenBSD: see `Obsd.kernelList`. -/
namespace WG.Fbsd

/-- A value in a name-value list. -/
inductive Nv where
  | num (n : Nat)
  | flag (b : Bool)
  | bin (b : List UInt8)
  | lists (l : List (List (CStr × Nv)))

/-- A name-value list. -/
abbrev NvList := List (CStr × Nv)

/-- Only a number, only a binary, only an array of lists. -/
def Nv.num? : Nv → Option Nat
  | .num n => some n
  | _ => none
def Nv.bin? : Nv → Option (List UInt8)
  | .bin b => some b
  | _ => none
def Nv.lists? : Nv → Option (List NvList)
  | .lists l => some l
  | _ => none

/-- `nvlist_exists_TYPE` and `nvlist_get_TYPE`: the element of that name and type. -/
def find {α : Type} (ty : Nv → Option α) (l : NvList) (name : CStr) : Option α := l.findSome? fun e => if e.1 = name then ty e.2 else none

/-! ### Setting (ipc-freebsd.h:236-353) -/

/-- The endpoint union with BSD socket addresses; AF_INET6 is 28 on FreeBSD. -/
def epUnion : Endpoint → List UInt8
  | .unset => List.replicate 28 0
  | .in4 a p => [16, 2, UInt8.ofNat (p.toNat / 256), UInt8.ofNat p.toNat] ++ a.toList ++ List.replicate 20 0
  | .in6 a p fl sc => [28, 28, UInt8.ofNat (p.toNat / 256), UInt8.ofNat p.toNat] ++ u32b fl.toNat ++ a.toList ++ u32b sc.toNat

/-- How the program sees that union. -/
def seeUnion (b : List UInt8) : Endpoint :=
  let port := UInt16.ofNat (leNat (b.drop 2 |>.take 2).reverse)
  if b.getD 1 0 = 2 then .in4 (vecAt (b.drop 4)) port
  else if b.getD 1 0 = 28 then .in6 (vecAt (b.drop 8)) port (UInt32.ofNat (leNat ((b.drop 4).take 4))) (UInt32.ofNat (leNat ((b.drop 24).take 4)))
  else .unset

/-- `if (b) nvlist_add_...`. -/
def addIf (b : Bool) (l : NvList) (name : CStr) (v : Nv) : NvList := if b then l ++ [(name, v)] else l

/-- ipc-freebsd.h:303-307: the list of an allowed IP. -/
def aipList (a : AllowedIP) : NvList :=
  [(b!"cidr", .num a.cidr.toNat)] ++ match a.addr with
    | .v4 b => [(b!"ipv4", .bin b.toList)]
    | .v6 b => [(b!"ipv6", .bin b.toList)]

/-- ipc-freebsd.h:286-298, 310-311: the list of a peer. -/
def peerList (p : Peer) : NvList :=
  let l : NvList := [(b!"public-key", .bin p.publicKey.toList)]
  let l := addIf p.flags.hasPresharedKey l b!"preshared-key" (.bin p.presharedKey.toList)
  let l := addIf p.flags.hasKeepalive l b!"persistent-keepalive-interval" (.num p.keepalive.toNat)
  let u := epUnion p.endpoint
  let l := addIf (u.getD 1 0 = 2 ∨ u.getD 1 0 = 28) l b!"endpoint" (.bin (u.take (u.getD 0 0).toNat))
  let l := addIf p.flags.replaceAllowedIPs l b!"replace-allowedips" (.flag true)
  let l := addIf p.flags.removeMe l b!"remove" (.flag true)
  addIf (p.allowedIPs.length ≠ 0) l b!"allowed-ips" (.lists (p.allowedIPs.map aipList))

/-- ipc-freebsd.h:257-264, 325-326: the list of the device. -/
def deviceList (d : Device) : NvList :=
  let l := addIf d.flags.hasPrivateKey [] b!"private-key" (.bin d.privateKey.toList)
  let l := addIf d.flags.hasListenPort l b!"listen-port" (.num d.listenPort.toNat)
  let l := addIf d.flags.hasFwmark l b!"user-cookie" (.num d.fwmark.toNat)
  let l := addIf d.flags.replacePeers l b!"replace-peers" (.flag true)
  addIf (d.peers.length ≠ 0) l b!"peers" (.lists (d.peers.map peerList))

/-- Allocations: how many were asked for so far, those not released, whether something was released that was not held. -/
structure Mem where
  next : Nat := 0
  held : List Nat := []
  bad : Bool := false

/-- The n-th allocation fails with an errno, or not. -/
abbrev Fails := Nat → Option Nat

/-- An allocation: its number or an errno. -/
def alloc (fails : Fails) (m : Mem) : Except Nat Nat × Mem :=
  match fails m.next with
  | some e => (.error e, { m with next := m.next + 1 })
  | none => (.ok m.next, { m with next := m.next + 1, held := m.next :: m.held })

/-- `free`/`nvlist_destroy`; of NULL: nothing. -/
def release (m : Mem) : Option Nat → Mem
  | none => m
  | some a => if a ∈ m.held then { m with held := m.held.erase a } else { m with bad := true }

/-- Releases one after another. -/
def releaseAll (m : Mem) (l : List Nat) : Mem := l.foldl (fun m a => release m (some a)) m

/-- ipc-freebsd.h:299-309: the lists of the allowed IPs (their number `n`); those created so far. -/
def createAips (fails : Fails) : Nat → Mem → List Nat → Except (Nat × List Nat) (List Nat) × Mem
  | 0, m, l => (.ok l, m)
  | n + 1, m, l =>
    match alloc fails m with
    | (.error e, m) => (.error (e, l), m)
    | (.ok a, m) => createAips fails n m (l ++ [a])

/-- ipc-freebsd.h:266-323: one peer with `n` allowed IPs; its list, or the errno. Lines 316-322 clean up. -/
def createPeer (fails : Fails) (n : Nat) (m : Mem) : Except Nat Nat × Mem :=
  match alloc fails m with
  | (.error e, m) => (.error e, m)
  | (.ok p, m) =>
    if n = 0 then (.ok p, m)
    else match alloc fails m with
      | (.error e, m) => (.error e, release m (some p))
      | (.ok arr, m) =>
        match createAips fails n m [] with
        | (.error (e, l), m) => (.error e, release (release (releaseAll m l) (some arr)) (some p))
        | (.ok l, m) => (.ok p, release (releaseAll m l) (some arr))

/-- ipc-freebsd.h:266-324: the peers; those created, or the errno and those created before. -/
def createPeers (fails : Fails) : List Peer → Mem → List Nat → Except (Nat × List Nat) (List Nat) × Mem
  | [], m, l => (.ok l, m)
  | p :: ps, m, l =>
    match createPeer fails p.allowedIPs.length m with
    | (.error e, m) => (.error (e, l), m)
    | (.ok a, m) => createPeers fails ps m (l ++ [a])

/-- ipc-freebsd.h:252-256: the array for `n` peers, if there are any. -/
def allocPeers (fails : Fails) (n : Nat) (m : Mem) : Except Nat (Option Nat) × Mem :=
  if n = 0 then (.ok none, m)
  else match alloc fails m with
    | (.error e, m) => (.error e, m)
    | (.ok a, m) => (.ok (some a), m)

/-- The kernel in a set operation; `ioctl` returns -1 and sets errno, or 0. -/
structure SetEnv where
  fails : Fails
  sock : Option Nat
  ioctl : CStr → NvList → Option Nat

/-- The result: code, `errno` if an error was met, what was given to SIOCSWG, and the allocations. -/
structure SetOut where
  code : Int
  errno : Option Nat
  sent : Option (CStr × NvList)
  mem : Mem

/-- ipc-freebsd.h:236-353 `kernel_set_device`. -/
def kernelSet (env : SetEnv) (d : Device) : SetOut :=
  match alloc env.fails {} with
  | (.error e, m) => ⟨-e, some e, none, m⟩
  | (.ok dv, m) =>
    match allocPeers env.fails d.peers.length m with
    | (.error e, m) => ⟨-e, some e, none, release m (some dv)⟩
    | (.ok arr, m) =>
      match createPeers env.fails d.peers m [] with
      | (.error (e, l), m) => ⟨-e, some e, none, release (release (releaseAll m l) arr) (some dv)⟩
      | (.ok l, m) =>
        -- 325-331
        let m := release (releaseAll m l) arr
        -- 332-336
        match alloc env.fails m with
        | (.error e, m) => ⟨-e, some e, none, release m (some dv)⟩
        | (.ok _, m) =>
          let m := release m (some dv)
          match env.sock with
          | some e => ⟨-e, some e, none, m⟩
          | none =>
            let name := d.name.take 15
            match env.ioctl name (deviceList d) with
            | some e => ⟨-1, some e, some (name, deviceList d), m⟩
            | none => ⟨0, none, some (name, deviceList d), m⟩

/-! ### Getting (ipc-freebsd.h:53-233) -/

/-- The kernel in a get operation. The first SIOCGWG tells a size; the second fills a buffer of that size; `nvlist_unpack` of it gives a list or fails with an errno. `malloc`: failure of
the buffer. -/
structure GetEnv where
  sock : Option Nat
  first : CStr → Except Nat Nat
  malloc : Option Nat
  second : CStr → Nat → Except Nat (Except Nat NvList)

/-- ipc-freebsd.h:92-98, 128-134, ...: a binary of exactly this size. -/
def binOf (l : NvList) (name : CStr) (size : Nat) : Option (List UInt8) := (find Nv.bin? l name).bind fun b => if b.length = size then some b else none

/-- ipc-freebsd.h:78-91, 143-149: a number up to a bound. -/
def numUpTo (l : NvList) (name : CStr) (max : Nat) : Option Nat := (find Nv.num? l name).bind fun n => if n ≤ max then some n else none

/-- ipc-freebsd.h:171-211: the allowed IPs: entries without prefix length or address are skipped; a prefix length out of range ends it all with EINVAL (`fail`). The address is copied without looking
at its size (187, 198). `calloc` is taken to succeed. -/
def getAips : List NvList → Res (Option (List AllowedIP))
  | [] => .ok (some [])
  | l :: ls =>
    match find Nv.num? l b!"cidr" with
    | none => getAips ls
    | some n =>
      match find Nv.bin? l b!"ipv4" with
      | some b =>
        if n > 32 then .ok none
        else (rdBytes b 0 4).bind fun ip => (getAips ls).bind fun r => .ok (r.map (⟨.v4 (vecAt ip), UInt8.ofNat n⟩ :: ·))
      | none =>
        match find Nv.bin? l b!"ipv6" with
        | none => getAips ls
        | some b =>
          if n > 128 then .ok none
          else (rdBytes b 0 16).bind fun ip => (getAips ls).bind fun r => .ok (r.map (⟨.v6 (vecAt ip), UInt8.ofNat n⟩ :: ·))

/-- ipc-freebsd.h:150-156: the endpoint. -/
def getEndpoint (l : NvList) : Endpoint :=
  match find Nv.bin? l b!"endpoint" with
  | none => .unset
  | some b => if b.length ≤ 28 ∧ b.length ≥ 16 ∧ (b.getD 1 0 = 2 ∨ b.getD 1 0 = 28) then seeUnion (b ++ List.replicate (28 - b.length) 0) else .unset

/-- ipc-freebsd.h:119-223: one peer; `none`: EINVAL. -/
def getPeer (l : NvList) : Res (Option Peer) :=
  let pub := binOf l b!"public-key" 32
  let psk := binOf l b!"preshared-key" 32
  let ka := numUpTo l b!"persistent-keepalive-interval" 65535
  let hs := binOf l b!"last-handshake-time" 16
  (getAips ((find Nv.lists? l b!"allowed-ips").getD [])).bind fun ips =>
  .ok (ips.map fun ips =>
    { flags := { hasPublicKey := pub.isSome, hasPresharedKey := psk.any (¬ allZero ·), hasKeepalive := ka.isSome }
      publicKey := vecAt (pub.getD []), presharedKey := vecAt (psk.getD []), keepalive := UInt16.ofNat (ka.getD 0), endpoint := getEndpoint l
      rx := (find Nv.num? l b!"rx-bytes").getD 0, tx := (find Nv.num? l b!"tx-bytes").getD 0
      handshakeSec := toInt64 (leNat ((hs.getD []).take 8)), handshakeNsec := toInt64 (leNat ((hs.getD []).drop 8)), allowedIPs := ips })

/-- ipc-freebsd.h:111-224. -/
def getPeers : List NvList → Res (Option (List Peer))
  | [] => .ok (some [])
  | l :: ls => (getPeer l).bind fun p =>
    match p with
    | none => .ok none
    | some p => (getPeers ls).bind fun r => .ok (r.map (p :: ·))

/-- ipc-freebsd.h:53-233 `kernel_get_device`: the code and `*device`. -/
def kernelGet (env : GetEnv) (iface : CStr) : Res (Int × Option Device) :=
  match env.sock with
  | some e => .ok (-e, none)
  | none =>
    let name := iface.take 15
    match env.first name with
    | .error e => .ok (-e, none)
    | .ok size =>
      match env.malloc with
      | some e => .ok (-e, none)
      | none =>
        match env.second name size with
        | .error e => .ok (-e, none)
        | .ok (.error e) => .ok (-e, none)
        | .ok (.ok l) =>
          let port := numUpTo l b!"listen-port" 65535
          let mark := numUpTo l b!"user-cookie" 4294967295
          let pub := binOf l b!"public-key" 32
          let priv := binOf l b!"private-key" 32
          (getPeers ((find Nv.lists? l b!"peers").getD [])).bind fun peers =>
          match peers with
          | none => .ok (22, none)
          | some peers =>
            .ok (0, some { name := name, flags := { hasFwmark := mark.isSome, hasListenPort := port.isSome, hasPublicKey := pub.isSome, hasPrivateKey := priv.isSome }
                           fwmark := UInt32.ofNat (mark.getD 0), listenPort := UInt16.ofNat (port.getD 0), publicKey := vecAt (pub.getD []), privateKey := vecAt (priv.getD [])
                           peers := peers })

end WG.Fbsd
