import Verif.Model.IpcList
/-! Model of src/ipc-windows.h:20-213, src/ipc-uapi-windows.h and src/wincompat/include/hashtable.h: finding adapters and pipes on Windows. -/
namespace WG.Win

/-! ### The hash table -/

/-- A value of type `char` where it meets an `unsigned long` (32 bits on Windows); `sc`: `char` is signed. -/
def charVal (sc : Bool) (c : UInt8) : Nat := if sc ∧ 128 ≤ c.toNat then c.toNat + (2 ^ 32 - 256) else c.toNat

/-- hashtable.h:23-30 `hashtable_bucket`. -/
def bucketOf (sc : Bool) (s : CStr) : Nat := (s.foldl (fun hash c => (hash * 32 + hash) % 2 ^ 32 ^^^ charVal sc c) 5381) &&& 1023

/-- hashtable.h:19-21 `struct hashtable`: the entries of every bucket, key and value. -/
abbrev Table (α : Type) := Nat → List (CStr × α)

/-- hashtable.h:33-41 `hashtable_find_entry`: the value of the entry. -/
def findEntry {α : Type} (sc : Bool) (t : Table α) (key : CStr) : Option α := ((t (bucketOf sc key)).find? fun e => e.1 = key).map (·.2)

/-- hashtable.h:43-60 `hashtable_find_or_insert_entry`: is there an entry now? `mem`: memory can be had; `v`: the value of a new entry (NULL). -/
def findOrInsert {α : Type} (sc : Bool) (t : Table α) (key : CStr) (mem : Bool) (v : α) : Bool × Table α :=
  if (findEntry sc t key).isSome then (true, t)
  else if mem then (true, fun b => if b = bucketOf sc key then t b ++ [(key, v)] else t b)
  else (false, t)

/-- `entry->value = v;` for the entry found (ipc-windows.h:80, 85). Simplification: every entry with the key is set; keys are unique, as an entry is only added when there is none. -/
def setValue {α : Type} (sc : Bool) (t : Table α) (key : CStr) (v : α) : Table α :=
  fun b => if b = bucketOf sc key then (t b).map fun e => if e.1 = key then (key, v) else e else t b

/-! ### Adapters of the driver (ipc-windows.h:20-213) -/

/-- `SetupDiGetDeviceInstanceIdW`, called twice: the first does not say a size; it does, but there is no memory or the second call fails; the identifier. -/
inductive InstRes where
  | noSize
  | noValue
  | id (i : List UInt16)
deriving DecidableEq

/-- An enumerated device, as the calls show it. -/
structure Dev where
  /-- The property DEVPKEY_WG_NAME, if it is there and a string: its characters before the NUL. -/
  name : Option (List UInt16)
  /-- What was in the array `adapter_name` before. -/
  junk : List UInt16
  /-- Memory for the name. -/
  nameMem : Bool
  /-- `CM_Get_DevNode_Status`, if it succeeds. -/
  status : Option Nat
  /-- Memory for a new entry of the table. -/
  entryMem : Bool
  inst : InstRes

/-- `SetupDiEnumDeviceInfo`: ERROR_NO_MORE_ITEMS, another error, or a device. -/
inductive EnumRes where
  | noMore
  | failed
  | dev (d : Dev)

/-- The setup API. `utf8`: `WideCharToMultiByte`, unless it fails. `ifaces`: the first path that `CM_Get_Device_Interface_ListW` lists for a device (`none`: for any network device), if the
calls before it, the memory and the call itself succeed and there is one. -/
structure SetupEnv where
  sc : Bool
  /-- `SetupDiGetClassDevsExW` succeeds -/
  classDevs : Bool
  enum : Nat → EnumRes
  utf8 : List UInt16 → Option CStr
  ifaces : Option (List UInt16) → Option (List UInt16)
  /-- `CreateFileW` succeeds -/
  openPath : List UInt16 → Bool

/-- ipc-windows.h:49-54, 151-156: the array of MAX_ADAPTER_NAME (128) characters after the call and line 54; `none`: the call fails (also if the name does not fit). -/
def nameArray (d : Dev) : Option (List UInt16) :=
  d.name.bind fun u => if u.length + 1 ≤ 128 then some ((u ++ [0] ++ d.junk.take (127 - u.length) ++ List.replicate (127 - u.length - d.junk.length) 0).take 127 ++ [48]) else none

/-- ipc-windows.h:49-68, 151-170: the name of the device; `none`: `continue`. `WideCharToMultiByte` reads to the NUL, which must be in the array. -/
def devName (env : SetupEnv) (d : Dev) : Res (Option CStr) :=
  match nameArray d with
  | none => .ok none
  | some a =>
    if a.head? = some 0 then .ok none
    else if (0 : UInt16) ∉ a then .ub
    else match env.utf8 (a.takeWhile (· ≠ 0)) with
      | none => .ok none
      | some s => if d.nameMem then .ok (some s) else .ok none

/-- What is remembered of the adapters: is the table used, and the table (of instance identifiers; `none`: NULL). -/
structure Cache where
  have_ : Bool := false
  table : Table (Option (List UInt16)) := fun _ => []

/-- ipc-windows.h:70-72: DN_DRIVER_LOADED (2) and DN_STARTED (8). -/
def running (d : Dev) : Bool := d.status.any fun s => s &&& 10 = 10

/-- ipc-windows.h:74-89: the entry of a device in the table. -/
def remember (env : SetupEnv) (d : Dev) (name : CStr) (t : Table (Option (List UInt16))) : Table (Option (List UInt16)) :=
  match findOrInsert env.sc t name d.entryMem none with
  | (false, t) => t
  | (true, t) =>
    match d.inst with
    | .noSize => t
    | .noValue => setValue env.sc t name none
    | .id i => setValue env.sc t name (some i)

/-- ipc-windows.h:34-90: the loop over the devices; the result of `string_list_add` is not looked at. -/
def listLoop (heap : Heap) (env : SetupEnv) : Nat → Nat → StrList → Table (Option (List UInt16)) → Res (StrList × Table (Option (List UInt16)))
  | 0, _, _, _ => .running
  | fuel + 1, i, l, t =>
    match env.enum i with
    | .noMore => .ok (l, t)
    | .failed => listLoop heap env fuel (i + 1) l t
    | .dev d =>
      (devName env d).bind fun
      | none => listLoop heap env fuel (i + 1) l t
      | some name =>
        (if running d then (stringListAdd heap l name).bind fun r => .ok r.2 else .ok l).bind fun l =>
        listLoop heap env fuel (i + 1) l (remember env d name t)

/-- ipc-windows.h:24-94 `kernel_get_wireguard_interfaces`: the code, the list, and what is remembered. -/
def kernelList (heap : Heap) (env : SetupEnv) (fuel : Nat) (l : StrList) (c : Cache) : Res (Int × StrList × Cache) :=
  if ¬ env.classDevs then .ok (-13, l, c)
  else (listLoop heap env fuel 0 l c.table).bind fun r => .ok (0, r.1, ⟨true, r.2⟩)

/-- ipc-windows.h:137-198: the loop over the devices in `kernel_interface_handle`: the path, if it is found. -/
def findLoop (env : SetupEnv) (iface : CStr) : Nat → Nat → Res (Option (List UInt16))
  | 0, _ => .running
  | fuel + 1, i =>
    match env.enum i with
    | .noMore => .ok none
    | .failed => findLoop env iface fuel (i + 1)
    | .dev d =>
      (devName env d).bind fun
      | none => findLoop env iface fuel (i + 1)
      | some name =>
        if name ≠ iface then findLoop env iface fuel (i + 1)
        else match d.inst with
          | .id id =>
            match env.ifaces (some id) with
            | some path => .ok (some path)
            | none => findLoop env iface fuel (i + 1)
          | _ => findLoop env iface fuel (i + 1)

/-- ipc-windows.h:96-213 `kernel_interface_handle`: the path of the open adapter, or `errno` (which was `errno`) beside NULL. -/
def interfaceHandle (env : SetupEnv) (c : Cache) (errno : Nat) (iface : CStr) (fuel : Nat) : Res (Except Nat (List UInt16)) :=
  match (if c.have_ then findEntry env.sc c.table iface else none) with
  | some inst =>
    match env.ifaces inst with
    | none => .ok (.error 13)
    | some path => if env.openPath path then .ok (.ok path) else .ok (.error 13)
  | none =>
    if ¬ env.classDevs then .ok (.error errno)
    else (findLoop env iface fuel 0).bind fun
      | none => .ok (.error 2)
      | some path => if env.openPath path then .ok (.ok path) else .ok (.error 13)

/-! ### Pipes of userspace implementations (ipc-uapi-windows.h) -/

/-- ipc-uapi-windows.h:81: the prefix of the names of pipes. -/
def pipePrefix : CStr := b!"ProtectedPrefix\\Administrators\\WireGuard\\"

/-- The pipes of the system. `files`: `FindFirstFile`/`FindNextFile` on the directory of pipes, unless the former fails. `create`: `CreateFileA`; `owner`: is the owner of the pipe the local
system (`GetSecurityInfo` may fail); `osfhandle`, `fdopen`: errors. -/
structure PipeEnv where
  sc : Bool
  files : Option (List CStr)
  /-- memory for the table, at the n-th insertion, or the errno -/
  mem : Nat → Option Nat
  /-- `CreateWellKnownSid` succeeds -/
  sid : Bool
  create : CStr → Bool
  owner : CStr → Option Bool
  osfhandle : Option Nat
  fdopen : Option Nat

/-- What happens to pipes, in order. -/
inductive PipeEv where
  | opened (path : CStr)
  | closed (path : CStr)
deriving DecidableEq

/-- ipc-uapi-windows.h:15-50 `userspace_interface_file`: `errno` beside NULL, or the pipe the stream is connected to. MAX_PATH is 260; EACCES 13. -/
def interfaceFile (env : PipeEnv) (iface : CStr) : Except Nat CStr × List PipeEv :=
  let path := (b!"\\\\.\\pipe\\" ++ pipePrefix ++ iface).take 259
  if ¬ env.sid then (.error 13, [])
  else if ¬ env.create path then (.error 13, [])
  else match env.owner path with
    | none => (.error 13, [.opened path, .closed path])
    | some false => (.error 13, [.opened path, .closed path])
    | some true =>
      match env.osfhandle with
      | some e => (.error e, [.opened path, .closed path])
      | none =>
        match env.fdopen with
        | some e => (.error e, [.opened path])
        | none => (.ok path, [.opened path])

/-- What is remembered of the pipes. -/
structure PipeCache where
  have_ : Bool := false
  table : Table Unit := fun _ => []

/-- ipc-uapi-windows.h:55-77 `userspace_has_wireguard_interface`. `-EIO` is true as a `bool`. -/
def hasInterface (env : PipeEnv) (c : PipeCache) (iface : CStr) : Bool :=
  if c.have_ then (findEntry env.sc c.table iface).isSome
  else
    let fname := (pipePrefix ++ iface).take 259
    match env.files with
    | none => true
    | some files => files.any (· = fname)

/-- ipc-uapi-windows.h:91-102: the loop over the files; the code, the list, the table, and is the loop left at its end? -/
def pipeLoop (heap : Heap) (env : PipeEnv) : Nat → List CStr → StrList → Table Unit → Res (Int × StrList × Table Unit × Bool)
  | _, [], l, t => .ok (0, l, t, true)
  | n, f :: rest, l, t =>
    if f.take pipePrefix.length ≠ pipePrefix then pipeLoop heap env (n + 1) rest l t
    else
      let iface := f.drop pipePrefix.length
      (stringListAdd heap l iface).bind fun r =>
      if r.1 < 0 then .ok (r.1, r.2, t, false)
      else match findOrInsert env.sc t iface (env.mem n).isNone () with
        | (false, t) => .ok (-((env.mem n).getD 0), r.2, t, false)
        | (true, t) => pipeLoop heap env (n + 1) rest r.2 t

/-- ipc-uapi-windows.h:79-107 `userspace_get_wireguard_interfaces` (EIO is 5). -/
def pipeList (heap : Heap) (env : PipeEnv) (l : StrList) (c : PipeCache) : Res (Int × StrList × PipeCache) :=
  match env.files with
  | none => .ok (-5, l, c)
  | some files => (pipeLoop heap env 0 files l c.table).bind fun r => .ok (r.1, r.2.1, ⟨c.have_ || r.2.2.2, r.2.2.1⟩)

/-! ### ipc.c on Windows -/

/-- ipc.c:54-76 `ipc_list_devices`: the code (`errno`), the list, and what is remembered. -/
def listDevices (heap : Heap) (env : SetupEnv) (penv : PipeEnv) (fuel : Nat) (c : Cache) (pc : PipeCache) : Res (Int × StrList × Cache × PipeCache) :=
  (kernelList heap env fuel {} c).bind fun r =>
  if r.1 < 0 then .ok (r.1, r.2.1, r.2.2, pc)
  else (pipeList heap penv r.2.1 pc).bind fun q => .ok (q.1, q.2.1, r.2.2, q.2.2)

/-- Where a get or set operation goes. -/
inductive Goes where
  /-- to a userspace implementation, over this pipe -/
  | pipe (path : CStr)
  /-- to the driver, over this path of an adapter -/
  | driver (path : List UInt16)
  /-- nowhere; the negative of the code returned -/
  | nowhere (errno : Nat)
deriving DecidableEq

/-- ipc.c:78-98 `ipc_get_device`, `ipc_set_device`: both choose the same way; ipc-uapi.h:38-40, 152-157, ipc-windows.h:230-231, 354-355: `return -errno`. -/
def goesTo (env : SetupEnv) (penv : PipeEnv) (c : Cache) (pc : PipeCache) (errno : Nat) (iface : CStr) (fuel : Nat) : Res Goes :=
  if hasInterface penv pc iface then
    match (interfaceFile penv iface).1 with
    | .ok path => .ok (.pipe path)
    | .error e => .ok (.nowhere e)
  else (interfaceHandle env c errno iface fuel).bind fun
    | .ok path => .ok (.driver path)
    | .error e => .ok (.nowhere e)

end WG.Win
