import Verif.Model.Setconf
/-! The configuration reader and the commands that use it once more, now with their memory: list nodes, strings and buffers are cells of a
heap, reached by pointers; allocations can fail. Models src/containers.h:95-105, src/config.c, src/setconf.c, src/set.c. What the parsers of single values
compute is taken from Model/Config.lean; of the messages only the warnings are kept, as there. -/
namespace WG

/-- A pointer (`none`: NULL). -/
abbrev Ptr := Option Nat

/-- What is allocated: text, arrays and `addrinfo`s (contents in the program's values), `struct wgallowedip`, `struct wgpeer`, `struct wgdevice`. The lists
inside `Peer` and `Device` are not used. `last_peer` and `last_allowedip` of these structs are not used by the code modelled here. -/
inductive Cell where
  | bytes
  | ip (a : AllowedIP) (next : Ptr)
  | peer (p : Peer) (first next : Ptr)
  | dev (d : Device) (first : Ptr)

/-- The heap; `brk` counts the allocations tried, and is the next address. Addresses are not used again, so that a use of freed memory is always noticed. -/
structure Mem where
  cell : Nat → Option Cell
  brk : Nat

/-- Programs with a heap. -/
def HM (α : Type) := Mem → Res (α × Mem)

instance : Monad HM where
  pure a := fun m => .ok (a, m)
  bind x f := fun m => (x m).bind fun r => f r.1 r.2

/-- Ending the process, or undefined behaviour. -/
def hend {α : Type} (r : Res Empty) : HM α := fun _ => match r with
  | .fail => .fail
  | .exit1 => .exit1
  | .ub => .ub
  | .running => .running

def upd (f : Nat → Option Cell) (a : Nat) (c : Option Cell) : Nat → Option Cell := fun x => if x = a then c else f x

/-- `calloc`, `malloc`, `strdup`, `getline`'s buffer: NULL when `oom` says so. -/
def halloc (oom : Nat → Bool) (c : Cell) : HM Ptr := fun m =>
  if oom m.brk then .ok (none, { m with brk := m.brk + 1 }) else .ok (some m.brk, ⟨upd m.cell m.brk (some c), m.brk + 1⟩)

/-- The result of `getaddrinfo` (its own lack of memory is an error of `getaddrinfo`). -/
def hinfo : HM Nat := fun m => .ok (m.brk, ⟨upd m.cell m.brk (some .bytes), m.brk + 1⟩)

/-- `free`, `freeaddrinfo`: freeing what is not allocated is undefined. -/
def hfree (p : Ptr) : HM Unit := fun m =>
  match p with
  | none => .ok ((), m)
  | some a => if (m.cell a).isSome then .ok ((), { m with cell := upd m.cell a none }) else .ub

/-- Reading a cell: NULL and freed memory are undefined. -/
def hload (p : Ptr) : HM Cell := fun m =>
  match p with
  | none => .ub
  | some a => match m.cell a with
    | none => .ub
    | some c => .ok (c, m)

/-- Changing a cell; `none` for a cell of another type. -/
def hmod (p : Ptr) (f : Cell → Option Cell) : HM Unit := fun m =>
  match p with
  | none => .ub
  | some a => match (m.cell a).bind f with
    | none => .ub
    | some c => .ok ((), { m with cell := upd m.cell a (some c) })

def setNextIp (n : Ptr) : Cell → Option Cell
  | .ip a _ => some (.ip a n)
  | _ => none
def setIp (a : AllowedIP) : Cell → Option Cell
  | .ip _ n => some (.ip a n)
  | _ => none
def setFirstIp (n : Ptr) : Cell → Option Cell
  | .peer p _ next => some (.peer p n next)
  | _ => none
def setNextPeer (n : Ptr) : Cell → Option Cell
  | .peer p f _ => some (.peer p f n)
  | _ => none
def onPeer (g : Peer → Peer) : Cell → Option Cell
  | .peer p f n => some (.peer (g p) f n)
  | _ => none
def setFirstPeer (n : Ptr) : Cell → Option Cell
  | .dev d _ => some (.dev d n)
  | _ => none
def onDev (g : Device → Device) : Cell → Option Cell
  | .dev d f => some (.dev (g d) f)
  | _ => none

/-- containers.h:100-101: the inner loop of `free_wgdevice`. -/
def freeIps : Nat → Ptr → HM Unit
  | 0, _ => hend .running
  | _ + 1, none => pure ()
  | fuel + 1, some a => do
    match ← hload (some a) with
    | .ip _ next => do
      hfree (some a)
      freeIps fuel next
    | _ => hend .ub

/-- containers.h:99-103: the outer loop. -/
def freePeers : Nat → Ptr → HM Unit
  | 0, _ => hend .running
  | _ + 1, none => pure ()
  | fuel + 1, some a => do
    match ← hload (some a) with
    | .peer _ first next => do
      freeIps (fuel + 1) first
      hfree (some a)
      freePeers fuel next
    | _ => hend .ub

/-- containers.h:95-105 `free_wgdevice`. The number of turns followed is that of all cells ever allocated. -/
def freeDevice (dev : Ptr) : HM Unit :=
  match dev with
  | none => pure ()
  | some a => fun m => (do
    match ← hload (some a) with
    | .dev _ first => do
      freePeers (m.brk + 2) first
      hfree (some a)
    | _ => hend .ub) m

/-- containers.h:93 `for_each_wgallowedip`, collecting. -/
def readIps : Nat → Ptr → HM (List AllowedIP)
  | 0, _ => hend .running
  | _ + 1, none => pure []
  | fuel + 1, some a => do
    match ← hload (some a) with
    | .ip v next => do
      let l ← readIps fuel next
      pure (v :: l)
    | _ => hend .ub

/-- containers.h:92 `for_each_wgpeer`, collecting. -/
def readPeers : Nat → Ptr → HM (List Peer)
  | 0, _ => hend .running
  | _ + 1, none => pure []
  | fuel + 1, some a => do
    match ← hload (some a) with
    | .peer p first next => do
      let ips ← readIps (fuel + 1) first
      let l ← readPeers fuel next
      pure ({ p with allowedIPs := ips } :: l)
    | _ => hend .ub

/-- The device a pointer leads to, as the code that walks it sees it. -/
def readDevice (dev : Ptr) : HM Device := fun m => (do
  match ← hload dev with
  | .dev d first => do
    let ps ← readPeers (m.brk + 2) first
    pure { d with peers := ps }
  | _ => hend .ub) m

/-- config.h:15-20 `struct config_ctx`, with what Model/Config.lean adds to it. -/
structure HCtx where
  device : Ptr
  lastPeer : Ptr := none
  lastIp : Ptr := none
  isPeerSection : Bool := false
  isDeviceSection : Bool := false
  tick : Nat := 0
  warnings : List Warning := []

/-- config.c:39-75 `parse_port`: the `addrinfo` of a successful `getaddrinfo` is freed in all cases. -/
def hPort (env : Env) (dev : Ptr) (value : CStr) : HM Bool :=
  if value.length = 0 then pure false
  else match env.gaiPort value with
    | .found e => do
      let info ← hinfo
      match e with
      | .in4 _ p => do
        hmod dev (onDev fun d => { d with listenPort := p })
        hfree (some info)
        hmod dev (onDev fun d => { d with flags := { d.flags with hasListenPort := true } })
        pure true
      | .in6 _ p _ _ => do
        hmod dev (onDev fun d => { d with listenPort := p })
        hfree (some info)
        hmod dev (onDev fun d => { d with flags := { d.flags with hasListenPort := true } })
        pure true
      | .unset => do
        hfree (some info)
        pure false
    | _ => pure false

/-- A parser of a value that needs no memory: store the value, or fail. -/
def hSet {α : Type} (v : Option α) (p : Ptr) (f : α → Cell → Option Cell) : HM Bool :=
  match v with
  | none => pure false
  | some a => do
    hmod p (f a)
    pure true

/-- config.c:195-279 `parse_endpoint`; also the new count of `getaddrinfo` calls. -/
def hEndpoint (oom : Nat → Bool) (env : Env) (tick : Nat) (peer : Ptr) (value : CStr) : HM (Bool × Nat) := do
  let copy ← halloc oom .bytes
  match parseDnsRetries env with
  | .ok retries =>
    if copy = none then pure (false, tick)
    else match splitEndpoint value with
      | none => do
        hfree copy
        pure (false, tick)
      | some (host, port) =>
        match resolveLoop env host port (attempts env retries) tick retries 1000000 with
        | (.ok e, k, _) => do
          let info ← hinfo
          if e = .unset then do
            hfree (some info)
            hfree copy
            pure (false, k)
          else do
            hmod peer (onPeer fun p => { p with endpoint := e })
            hfree (some info)
            hfree copy
            pure (true, k)
        | (.fail, k, _) => do
          hfree copy
          pure (false, k)
        | (.running, _, _) => hend .running
        | _ => hend .ub
  | .exit1 => hend .exit1
  | _ => hend .ub

/-- config.c:391-394 -/
def hLinkIp (peer last new : Ptr) : HM Unit :=
  match last with
  | some l => hmod (some l) (setNextIp new)
  | none => hmod peer (setFirstIp new)

/-- config.c:356-413: the loop of `parse_allowedips` and what follows. The message that prints a NULL `saved_entry` when its copy could not be allocated (config.c:410) is not
modelled. -/
def hEntries (oom : Nat → Bool) (env : Env) (copy peer : Ptr) : List CStr → Ptr → List Warning → HM (Bool × Ptr × List Warning)
  | [], last, ws => do
    hfree copy
    pure (true, last, ws)
  | e :: es, last, ws => do
    let saved ← halloc oom .bytes
    let new ← halloc oom (.ip ⟨.v4 #v[0, 0, 0, 0], 0⟩ none)
    if new = none then do
      hfree saved
      hfree copy
      pure (false, last, ws)
    else match parseIp env (strsepOne c!"/" e).1 with
      | none => do
        hfree new
        hfree saved
        hfree copy
        pure (false, last, ws)
      | some addr =>
        match cidrOf env (strsepOne c!"/" e).2 addr with
        | none => do
          hfree new
          hfree copy
          hfree saved
          pure (false, last, ws)
        | some cidr => do
          let a : AllowedIP := { addr := addr, cidr := UInt8.ofNat cidr }
          hmod new (setIp a)
          hLinkIp peer last new
          hfree saved
          hEntries oom env copy peer es new (ws ++ if validateNetmask a then [] else [{ ip := (strsepOne c!"/" e).1, mask := (strsepOne c!"/" e).2 }])

/-- config.c:340-413 `parse_allowedips`; `*last_allowedip` is only changed on success. -/
def hAllowedips (oom : Nat → Bool) (env : Env) (peer last : Ptr) (value : CStr) : HM (Bool × Ptr × List Warning) := do
  let copy ← halloc oom .bytes
  if copy = none then pure (false, last, [])
  else do
    hmod peer (onPeer fun p => { p with flags := { p.flags with replaceAllowedIPs := true } })
    if value.length = 0 then do
      hfree copy
      pure (true, last, [])
    else do
      let (ok, l, ws) ← hEntries oom env copy peer (strsepAll c!"," value) last []
      pure (ok, if ok then l else last, ws)

/-- config.c:432-435, 598-601 -/
def hLinkPeer (device last new : Ptr) : HM Unit :=
  match last with
  | some l => hmod (some l) (setNextPeer new)
  | none => hmod device (setFirstPeer new)

/-- config.c:425-436, 592-603: a new peer behind the others. -/
def hNewPeer (oom : Nat → Bool) (device lastPeer : Ptr) : HM Ptr := do
  let new ← halloc oom (.peer {} none none)
  if new = none then pure none
  else do
    hLinkPeer device lastPeer new
    pure new

/-- config.c:415-488 `process_line`. -/
def hProcessLine (oom : Nat → Bool) (env : Env) (ctx : HCtx) (line : CStr) : HM (Bool × HCtx) :=
  if strcaseeq line b!"[Interface]" then pure (true, { ctx with isPeerSection := false, isDeviceSection := true })
  else if strcaseeq line b!"[Peer]" then do
    let new ← hNewPeer oom ctx.device ctx.lastPeer
    if new = none then pure (false, ctx)
    else do
      hmod new (onPeer fun p => { p with flags := { p.flags with replaceAllowedIPs := true } })
      pure (true, { ctx with lastIp := none, lastPeer := new, isPeerSection := true, isDeviceSection := false })
  else if ctx.isDeviceSection then
    match getValue line b!"ListenPort=" with
    | some v => do
      let r ← hPort env ctx.device v
      pure (r, ctx)
    | none =>
    match getValue line b!"FwMark=" with
    | some v => do
      let r ← hSet (parseFwmark env v) ctx.device fun m => onDev fun d => { d with fwmark := m, flags := { d.flags with hasFwmark := true } }
      pure (r, ctx)
    | none =>
    match getValue line b!"PrivateKey=" with
    | some v => do
      let r ← hSet (parseKey env v) ctx.device fun k => onDev fun d => { d with privateKey := k, flags := { d.flags with hasPrivateKey := true } }
      pure (r, ctx)
    | none => pure (false, ctx)
  else if ctx.isPeerSection then
    match getValue line b!"Endpoint=" with
    | some v => do
      let (r, k) ← hEndpoint oom env ctx.tick ctx.lastPeer v
      pure (r, { ctx with tick := k })
    | none =>
    match getValue line b!"PublicKey=" with
    | some v => do
      let r ← hSet (parseKey env v) ctx.lastPeer fun k => onPeer fun p => { p with publicKey := k, flags := { p.flags with hasPublicKey := true } }
      pure (r, ctx)
    | none =>
    match getValue line b!"AllowedIPs=" with
    | some v => do
      let (r, l, ws) ← hAllowedips oom env ctx.lastPeer ctx.lastIp v
      pure (r, { ctx with lastIp := l, warnings := ctx.warnings ++ ws })
    | none =>
    match getValue line b!"PersistentKeepalive=" with
    | some v => do
      let r ← hSet (parseKeepalive env v) ctx.lastPeer fun k => onPeer fun p => { p with keepalive := k, flags := { p.flags with hasKeepalive := true } }
      pure (r, ctx)
    | none =>
    match getValue line b!"PresharedKey=" with
    | some v => do
      let r ← hSet (parseKey env v) ctx.lastPeer fun k => onPeer fun p => { p with presharedKey := k, flags := { p.flags with hasPresharedKey := true } }
      pure (r, ctx)
    | none => pure (false, ctx)
  else pure (false, ctx)

/-- config.c:490-527 `config_read_line`: on failure the device is freed. -/
def hReadLine (oom : Nat → Bool) (env : Env) (ctx : HCtx) (input : CStr) : HM (Bool × HCtx) := do
  let line ← halloc oom .bytes
  if line = none then do
    freeDevice ctx.device
    pure (false, ctx)
  else do
    let text := cleanLine env input
    let (ret, ctx) ← (if text.length = 0 then pure (true, ctx) else hProcessLine oom env ctx text : HM (Bool × HCtx))
    hfree line
    if ret then pure (true, ctx)
    else do
      freeDevice ctx.device
      pure (false, ctx)

/-- config.c:529-540 `config_read_init`. -/
def hReadInit (oom : Nat → Bool) (append : Bool) : HM Ptr :=
  halloc oom (.dev { flags := if append then {} else { replacePeers := true, hasPrivateKey := true, hasFwmark := true, hasListenPort := true } } none)

/-- config.c:542-556 `config_read_finish`. -/
def hReadFinish (ctx : HCtx) : HM Ptr := do
  let d ← readDevice ctx.device
  if d.peers.all (·.flags.hasPublicKey) then pure ctx.device
  else do
    freeDevice ctx.device
    pure none

/-- setconf.c:124-129: the line loop; whether all lines were read. -/
def hReadLines (oom : Nat → Bool) (env : Env) (ctx : HCtx) : List CStr → HM (Bool × HCtx)
  | [] => pure (true, ctx)
  | l :: ls => do
    let (ok, ctx) ← hReadLine oom env ctx l
    if ok then hReadLines oom env ctx ls else pure (false, ctx)

/-- config.c:592-603: a new peer with the key of the argument. -/
def hCmdPeer (oom : Nat → Bool) (env : Env) (ctx : HCtx) (v : CStr) : HM (Bool × HCtx) := do
  let new ← hNewPeer oom ctx.device ctx.lastPeer
  if new = none then pure (false, ctx)
  else do
    let r ← hSet (parseKey env v) new fun k => onPeer fun p => { p with publicKey := k, flags := { p.flags with hasPublicKey := true } }
    pure (r, { ctx with lastPeer := new, lastIp := none })

/-- config.c:619-630: `allowed-ips`. -/
def hCmdIps (oom : Nat → Bool) (env : Env) (ctx : HCtx) (v : CStr) : HM (Bool × HCtx) := do
  let line ← halloc oom .bytes
  if line = none then pure (false, ctx)
  else do
    let (r, l, ws) ← hAllowedips oom env ctx.lastPeer ctx.lastIp (stripSpaces env v)
    hfree line
    pure (r, { ctx with lastIp := l, warnings := ctx.warnings ++ ws })

/-- config.c:578-650 `config_read_cmd`, the loop; on failure the device is freed (646-649). -/
def hCmdLoop (oom : Nat → Bool) (env : Env) (ctx : HCtx) : List CStr → HM (Bool × HCtx)
  | [] => pure (true, ctx)
  | a :: v :: rest =>
    let peer := ctx.lastPeer.isSome
    let err : HM (Bool × HCtx) := do
      freeDevice ctx.device
      pure (false, ctx)
    let after (x : HM (Bool × HCtx)) : HM (Bool × HCtx) := do
      let (ok, c) ← x
      if ok then hCmdLoop oom env c rest else err
    if a = b!"listen-port" && !peer then after (do
      let r ← hPort env ctx.device v
      pure (r, ctx))
    else if a = b!"fwmark" && !peer then after (do
      let r ← hSet (parseFwmark env v) ctx.device fun m => onDev fun d => { d with fwmark := m, flags := { d.flags with hasFwmark := true } }
      pure (r, ctx))
    else if a = b!"private-key" && !peer then after (do
      let r ← hSet (parseKeyfile env v) ctx.device fun k => onDev fun d => { d with privateKey := k, flags := { d.flags with hasPrivateKey := true } }
      pure (r, ctx))
    else if a = b!"peer" then after (hCmdPeer oom env ctx v)
    else if a = b!"remove" && peer then do
      hmod ctx.lastPeer (onPeer fun p => { p with flags := { p.flags with removeMe := true } })
      hCmdLoop oom env ctx (v :: rest)
    else if a = b!"endpoint" && peer then after (do
      let (r, k) ← hEndpoint oom env ctx.tick ctx.lastPeer v
      pure (r, { ctx with tick := k }))
    else if a = b!"allowed-ips" && peer then after (hCmdIps oom env ctx v)
    else if a = b!"persistent-keepalive" && peer then after (do
      let r ← hSet (parseKeepalive env v) ctx.lastPeer fun k => onPeer fun p => { p with keepalive := k, flags := { p.flags with hasKeepalive := true } }
      pure (r, ctx))
    else if a = b!"preshared-key" && peer then after (do
      let r ← hSet (parseKeyfile env v) ctx.lastPeer fun k => onPeer fun p => { p with presharedKey := k, flags := { p.flags with hasPresharedKey := true } }
      pure (r, ctx))
    else err
  | [a] =>
    if a = b!"remove" && ctx.lastPeer.isSome then do
      hmod ctx.lastPeer (onPeer fun p => { p with flags := { p.flags with removeMe := true } })
      pure (true, ctx)
    else do
      freeDevice ctx.device
      pure (false, ctx)

/-- config.c:578-650 `config_read_cmd`: NULL on failure. -/
def hReadCmd (oom : Nat → Bool) (env : Env) (argv : List CStr) : HM Ptr := do
  let dev ← halloc oom (.dev {} none)
  if dev = none then pure none
  else do
    let (ok, ctx) ← hCmdLoop oom env { device := dev } argv
    pure (if ok then ctx.device else none)

/-- set.c:15-44 `set_main`: exit status and the device sent. -/
def hSetMain (oom : Nat → Bool) (env : Env) (ipc : Ipc) (argv : List CStr) : HM (Nat × List IpcCall) :=
  match argv with
  | _ :: iface :: a :: rest => do
    let dev ← hReadCmd oom env (a :: rest)
    if dev = none then pure (1, [])
    else do
      hmod dev (onDev fun d => { d with name := copyName iface })
      let d ← readDevice dev
      freeDevice dev
      pure (if ipc.set d ≠ 0 then 1 else 0, [.set d])
  | _ => pure (1, [])

/-- The nodes of the device that `ipc_get_device` returns: allowed IPs of one peer, then peers, from the last to the first. -/
def buildIps : List AllowedIP → HM Ptr
  | [] => pure none
  | a :: l => do
    let next ← buildIps l
    halloc (fun _ => false) (.ip a next)

def buildPeers : List Peer → HM Ptr
  | [] => pure none
  | p :: l => do
    let next ← buildPeers l
    let first ← buildIps p.allowedIPs
    halloc (fun _ => false) (.peer { p with allowedIPs := [] } first next)

/-- The device that `ipc_get_device` returns; its own lack of memory is an error of it. -/
def buildDevice (d : Device) : HM Ptr := do
  let first ← buildPeers d.peers
  halloc (fun _ => false) (.dev { d with peers := [] } first)

/-- setconf.c:77-95: an entry in front of the list for each key; false if one cannot be allocated. -/
def hRemovals (oom : Nat → Bool) (file : Ptr) : List Key → HM Bool
  | [] => pure true
  | k :: ks => do
    let new ← halloc oom (.peer {} none none)
    if new = none then pure false
    else do
      hmod new (onPeer fun p => { p with flags := { removeMe := true } })
      hmod new (onPeer fun p => { p with publicKey := k })
      match ← hload file with
      | .dev _ first => do
        hmod new (setNextPeer first)
        hmod file (setFirstPeer new)
        hRemovals oom file ks
      | _ => hend .ub

/-- setconf.c:30-99 `sync_conf`; the array points to the keys in the nodes, which stay allocated while it is used. -/
def hSyncConf (oom : Nat → Bool) (sort : List PubkeyOrigin → List PubkeyOrigin) (ipc : Ipc) (file : Ptr) : HM (Bool × List IpcCall) := do
  let d ← readDevice file
  if d.peers = [] then pure (true, [])
  else match ipc.get d.name with
    | (0, some r) => do
      let runtime ← buildDevice r
      if r.peers = [] then do
        freeDevice runtime
        pure (true, [.get d.name])
      else do
        hmod file (onDev fun d => { d with flags := { d.flags with replacePeers := false } })
        let keys ← halloc oom .bytes
        if keys = none then do
          freeDevice runtime
          pure (false, [.get d.name])
        else do
          let r ← readDevice runtime
          let ok ← hRemovals oom file (removals (sort (origins d r)))
          freeDevice runtime
          hfree keys
          pure (ok, [.get d.name])
    | (0, none) => hend .ub
    | _ => pure (false, [.get d.name])

/-- setconf.c:143-155: the end of `setconf_main` for a device that was read. -/
def hSend (ipc : Ipc) (dev buffer : Ptr) (calls : List IpcCall) : HM (Nat × List IpcCall) := do
  let d ← readDevice dev
  hfree buffer
  freeDevice dev
  pure (if ipc.set d ≠ 0 then 1 else 0, calls ++ [.set d])

/-- setconf.c:101-156 `setconf_main`. The buffer of `getline` is allocated by its first call (a failure ends the loop like the end of the file, and is not
modelled). -/
def hSetconfMain (oom : Nat → Bool) (env : Env) (sort : List PubkeyOrigin → List PubkeyOrigin) (ipc : Ipc) (argv : List CStr) : HM (Nat × List IpcCall) :=
  match argv with
  | [cmd, iface, path] =>
    match env.file path with
    | none => pure (1, [])
    | some f => do
      let dev ← hReadInit oom (cmd = b!"addconf")
      if dev = none then pure (1, [])
      else do
        let buffer ← halloc (fun _ => false) .bytes
        let (ok, ctx) ← hReadLines oom env { device := dev } ((getlines f.bytes).map cstr)
        if !ok then do
          hfree buffer
          pure (1, [])
        else do
          let dev ← hReadFinish ctx
          if dev = none then do
            hfree buffer
            pure (1, [])
          else do
            hmod dev (onDev fun d => { d with name := copyName iface })
            if cmd = b!"syncconf" then do
              let (ok, calls) ← hSyncConf oom sort ipc dev
              if ok then hSend ipc dev buffer calls
              else do
                hfree buffer
                freeDevice dev
                pure (1, calls)
            else hSend ipc dev buffer []
  | _ => pure (1, [])

end WG
