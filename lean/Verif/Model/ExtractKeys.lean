import Verif.Model.PunchClient
import Verif.Model.IpcOpenbsd
import Verif.Model.Show
import Verif.Spec.Encoding
/-!
Model of contrib/extract-keys/extract-keys.c, which prints the session keys of an interface from the memory of the kernel, by way of the addresses in
/proc/net/udp. Line numbers are those of the file. `unsigned long` has 64 bits.

The memory does not change while the program runs. `b64_ntop` is the base64 of RFC 4648. A failing `fgets` is the end of the file; messages on standard
error are not modelled. What config.c says about the structures of the kernel (config.h) is a parameter.
-/
namespace WG.ExtractKeys

/-- config.c:17-30: the constants of config.h. -/
structure Layout where
  sockDevice : UInt64
  deviceName : UInt64
  ifnamsiz : Nat
  devicePeers : UInt64
  peersPeer : UInt64
  peerCurrent : UInt64
  peerPrevious : UInt64
  peerNext : UInt64
  keyLocal : UInt64
  keyRemote : UInt64
  keySending : UInt64
  keyReceiving : UInt64

structure Env where
  /-- The bytes of /dev/kmem; `none` where it cannot be read. -/
  mem : UInt64 → Option UInt8
  /-- `errno` after an `lseek` or `read` at this address that fails or is too short. -/
  errno : UInt64 → Nat
  /-- Whether /dev/kmem can be opened, or `errno`. -/
  kmem : Except Nat Unit
  /-- /proc/net/udp, or `errno`. -/
  udp : Except Nat (List UInt8)
  /-- Is the machine big-endian? -/
  big : Bool
  lay : Layout

/-- How the program ends before its end. -/
inductive Stop where
  | exit (status : Nat)
  /-- Undefined behaviour: memory before the line is read. -/
  | ub
  /-- It still runs. -/
  | running
deriving DecidableEq

/-- 28-38 `read_kmem`. -/
def readKmem (env : Env) (n : Nat) (addr : UInt64) : Except Stop (List UInt8) :=
  match (List.range n).mapM fun i => env.mem (addr + UInt64.ofNat i) with
  | some b => .ok b
  | none => .error (.exit (env.errno addr))

/-- A number in memory, in the order of the machine. -/
def hostNat (env : Env) (b : List UInt8) : Nat := leNat (if env.big then b.reverse else b)

/-- 40-45 `read_int` -/
def readInt (env : Env) (addr : UInt64) : Except Stop Nat := (readKmem env 4 addr).map (hostNat env)

/-- 47-52 `read_long` -/
def readLong (env : Env) (addr : UInt64) : Except Stop UInt64 := (readKmem env 8 addr).map fun b => UInt64.ofNat (hostNat env b)

/-- `le32toh` -/
def le32toh (env : Env) (n : Nat) : Nat := if env.big then leNat (Obsd.leBytes 4 n).reverse else n

/-- 67-70: from the end of the line back to the last field but one; `none`: memory before the line is read. -/
def addressField (line : CStr) : Option CStr :=
  -- 67-68: the last character is passed over, and blanks
  match line.reverse.tail.dropWhile (· = 32) with
  | [] => none
  | _ :: r =>
    -- 69: the last field
    match r.dropWhile (· ≠ 32) with
    | _ :: _ :: r =>
      -- 70: to where a blank is before
      let before := r.dropWhile (· ≠ 32)
      if before = [] then none else some (line.drop before.length)
    | _ => none

/-- 66-80: the loop over the lines; the text shrinks with every line. 0: there is no such interface. -/
def findLoop (env : Env) (iface : CStr) : Nat → List UInt8 → Except Stop UInt64
  | 0, _ => .ok 0
  | fuel + 1, text =>
    if text = [] then .ok 0
    else
      let (line, rest) := PunchClient.fgets 255 text
      match addressField (PunchClient.cstr line) with
      | none => .error .ub
      | some field => do
        let addr := UInt64.ofNat (strtoul (2 ^ 64 - 1) 16 field).1
        if addr = 0 then findLoop env iface fuel rest
        else
          let addr ← readLong env (addr + env.lay.sockDevice)
          if addr = 0 then findLoop env iface fuel rest
          else
            let name ← readKmem env env.lay.ifnamsiz (addr + env.lay.deviceName)
            if PunchClient.cstr name = iface then .ok addr else findLoop env iface fuel rest

/-- 54-85 `find_interface`. -/
def findInterface (env : Env) (iface : CStr) : Except Stop UInt64 :=
  match env.udp with
  | .error e => .error (.exit e)
  | .ok text => findLoop env iface text.length (PunchClient.fgets 255 text).2

/-- `%08x` -/
def hex08 (n : Nat) : CStr := List.replicate (8 - (showHex n).length) c!"0" ++ showHex n

/-- 87-107 `print_key`: nothing for a null pointer. -/
def printKey (env : Env) (key : UInt64) : Except Stop CStr :=
  if key = 0 then .ok []
  else do
    let localIndex ← readInt env (key + env.lay.keyLocal)
    let remoteIndex ← readInt env (key + env.lay.keyRemote)
    let sending ← readKmem env 32 (key + env.lay.keySending)
    let receiving ← readKmem env 32 (key + env.lay.keyReceiving)
    return b!"0x" ++ hex08 (le32toh env localIndex) ++ b!" " ++ Spec.rfc4648 receiving ++ b!"\n" ++
      (b!"0x" ++ hex08 (le32toh env remoteIndex) ++ b!" " ++ Spec.rfc4648 sending ++ b!"\n")

/-- 115-120: the three keys of a peer, one after the other; what is printed stays printed. -/
def printKeys (env : Env) : List UInt64 → CStr → CStr × Except Stop Unit
  | [], out => (out, .ok ())
  | slot :: l, out =>
    match (do printKey env (← readLong env slot)) with
    | .error e => (out, .error e)
    | .ok t => printKeys env l (out ++ t)

/-- 109-123 `walk_peers`, at an entry of the list; `fuel` bounds the entries. `found` is true if anything was printed. -/
def walkPeers (env : Env) (head : UInt64) : Nat → UInt64 → CStr → CStr × Except Stop Unit
  | 0, _, out => (out, .error .running)
  | fuel + 1, entry, out =>
    if entry = head then (out, .ok ())
    else
      let peer := entry + env.lay.peersPeer
      match printKeys env [peer + env.lay.peerCurrent, peer + env.lay.peerPrevious, peer + env.lay.peerNext] out with
      | (out, .error e) => (out, .error e)
      | (out, .ok ()) =>
        match readLong env entry with
        | .error e => (out, .error e)
        | .ok next => walkPeers env head fuel next out

/-- 125-143 `main`: standard output, and how it ends. EINVAL is 22, EBADSLT 57, ENOKEY 126. -/
def main (env : Env) (fuel : Nat) (args : List CStr) : CStr × Stop :=
  match args with
  | [] => ([], .exit 22)
  | iface :: _ =>
    match env.kmem with
    | .error e => ([], .exit e)
    | .ok () =>
      match findInterface env iface with
      | .error e => ([], e)
      | .ok dev =>
        if dev = 0 then ([], .exit 57)
        else
          let head := dev + env.lay.devicePeers
          match readLong env head with
          | .error e => ([], e)
          | .ok first =>
            match walkPeers env head fuel first [] with
            | (out, .error e) => (out, e)
            | (out, .ok ()) => (out, .exit (if out = [] then 126 else 0))

end WG.ExtractKeys
