import Verif.Model.Config
/-! Model of src/setconf.c and src/set.c: the configuration commands, with the interface behind `Ipc`. -/
namespace WG

/-- ipc.c `ipc_get_device` / `ipc_set_device` as the commands see them: the return code and, for get, the device
(`none`: `*dev` is left NULL). -/
structure Ipc where
  get : CStr → Int × Option Device
  set : Device → Int

/-- What a command did to interfaces. -/
inductive IpcCall where
  | get (name : CStr)
  | set (d : Device)
deriving DecidableEq

/-- How a command ended: exit status (`none`: still running or crashed, see `Res`), and its interface calls in order. -/
structure Run where
  end_ : Res Nat
  calls : List IpcCall

/-- setconf.c:16-19 `struct pubkey_origin`. -/
structure PubkeyOrigin where
  pubkey : Key
  fromFile : Bool
deriving DecidableEq

/-- `memcmp`: only the sign is specified by C; this is the sign. -/
def memcmp : List UInt8 → List UInt8 → Int
  | a :: as, b :: bs => if a < b then -1 else if b < a then 1 else memcmp as bs
  | _, _ => 0

/-- setconf.c:21-28 `pubkey_cmp`. -/
def pubkeyCmp (a b : PubkeyOrigin) : Int :=
  let ret := memcmp a.pubkey.toList b.pubkey.toList
  if ret ≠ 0 then ret else (if a.fromFile then 1 else 0) - (if b.fromFile then 1 else 0)

/-- setconf.c:77-95, the keys for which a removal entry is made, in array order. -/
def removals : List PubkeyOrigin → List Key
  | [] => []
  | [a] => if a.fromFile then [] else [a.pubkey]
  | a :: b :: r =>
    if a.fromFile then removals (b :: r)
    else if !b.fromFile || memcmp a.pubkey.toList b.pubkey.toList ≠ 0 then a.pubkey :: removals (b :: r)
    else removals (b :: r)

/-- setconf.c:81-93, the entries for `removals`: each is put in front of the list. -/
def pushRemovals (ks : List Key) (peers : List Peer) : List Peer :=
  ks.foldl (fun ps k => { publicKey := k, flags := { removeMe := true } } :: ps) peers

/-- setconf.c:65-74, the array before sorting. -/
def origins (file runtime : Device) : List PubkeyOrigin :=
  file.peers.map (fun p => ⟨p.publicKey, true⟩) ++ runtime.peers.map (fun p => ⟨p.publicKey, false⟩)

/-- setconf.c:30-99 `sync_conf` after the two early returns; `sort` is `qsort` with `pubkey_cmp`. -/
def syncPeers (sort : List PubkeyOrigin → List PubkeyOrigin) (file runtime : Device) : Device :=
  { file with flags := { file.flags with replacePeers := false }
              peers := pushRemovals (removals (sort (origins file runtime))) file.peers }

/-- setconf.c:30-99 `sync_conf`. `fail` is `return false`; a get that returns 0 and no device is a null dereference. -/
def syncConf (sort : List PubkeyOrigin → List PubkeyOrigin) (ipc : Ipc) (file : Device) : Res Device × List IpcCall :=
  if file.peers = [] then (.ok file, [])
  else
    match ipc.get file.name with
    | (0, some runtime) =>
      if runtime.peers = [] then (.ok file, [.get file.name])
      else (.ok (syncPeers sort file runtime), [.get file.name])
    | (0, none) => (.ub, [.get file.name])
    | _ => (.fail, [.get file.name])

/-- `getline` until it returns -1: the lines including their line feeds; an I/O error ends the file like end-of-file. -/
def getlines : List UInt8 → List (List UInt8)
  | [] => []
  | c :: t =>
    if c = 10 then [c] :: getlines t
    else match getlines t with
      | [] => [[c]]
      | l :: ls => (c :: l) :: ls

/-- setconf.c:135-136 / set.c:28-29: `strncpy(device->name, argv[1], IFNAMSIZ - 1)` and termination. -/
def copyName (name : CStr) : CStr := name.take 15

/-- setconf.c:115-133: open and read the file. -/
def readConfigFile (env : Env) (append : Bool) (path : CStr) : Res Device :=
  match env.file path with
  | none => .fail
  | some f =>
    (readLines env (configReadInit append) ((getlines f.bytes).map cstr)).bind fun ctx =>
      Res.ofOption (configReadFinish ctx)

/-- setconf.c:143-149 / set.c:31-37: send the device. -/
def sendDevice (ipc : Ipc) (d : Device) : Run :=
  if ipc.set d ≠ 0 then ⟨.ok 1, [.set d]⟩ else ⟨.ok 0, [.set d]⟩

/-- setconf.c:101-156 `setconf_main`, also reached as `addconf` and `syncconf` (wg.c:30-32); `argv.head` is the command. -/
def setconfMain (env : Env) (sort : List PubkeyOrigin → List PubkeyOrigin) (ipc : Ipc) (argv : List CStr) : Run :=
  match argv with
  | [cmd, iface, path] =>
    match readConfigFile env (cmd = b!"addconf") path with
    | .fail => ⟨.ok 1, []⟩
    | .exit1 => ⟨.ok 1, []⟩
    | .ub => ⟨.ub, []⟩
    | .running => ⟨.running, []⟩
    | .ok d =>
      let d := { d with name := copyName iface }
      if cmd = b!"syncconf" then
        match syncConf sort ipc d with
        | (.ok d, calls) => let r := sendDevice ipc d; ⟨r.end_, calls ++ r.calls⟩
        | (.ub, calls) => ⟨.ub, calls⟩
        | (_, calls) => ⟨.ok 1, calls⟩
      else sendDevice ipc d
  | _ => ⟨.ok 1, []⟩

/-- set.c:15-41 `set_main`. -/
def setMain (env : Env) (ipc : Ipc) (argv : List CStr) : Run :=
  match argv with
  | _ :: iface :: a :: rest =>
    match configReadCmd env (a :: rest) with
    | .fail => ⟨.ok 1, []⟩
    | .exit1 => ⟨.ok 1, []⟩
    | .ub => ⟨.ub, []⟩
    | .running => ⟨.running, []⟩
    | .ok ctx => sendDevice ipc { ctx.device with name := copyName iface }
  | _ => ⟨.ok 1, []⟩

end WG
