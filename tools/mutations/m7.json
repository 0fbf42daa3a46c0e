[
{"definition":"freeIps","file":"Verif/Model/Heap.lean","old":"    | .ip _ next => do\n      hfree (some a)\n      freeIps fuel next","new":"    | .ip _ next => do\n      freeIps fuel next","claim":"C49 allowed IPs leaked"},
{"definition":"freePeers","file":"Verif/Model/Heap.lean","old":"      freeIps (fuel + 1) first\n      hfree (some a)","new":"      hfree (some a)","claim":"C49 allowed IPs of a peer leaked"},
{"definition":"freePeers","file":"Verif/Model/Heap.lean","old":"      hfree (some a)\n      freePeers fuel next","new":"      hfree (some a)\n      freePeers fuel first","claim":"C49 follows the wrong pointer after the free"},
{"definition":"freeDevice","file":"Verif/Model/Heap.lean","old":"      freePeers (m.brk + 2) first\n      hfree (some a)","new":"      freePeers (m.brk + 2) first","claim":"C49 device leaked"},
{"definition":"hPort","file":"Verif/Model/Heap.lean","old":"      | .unset => do\n        hfree (some info)\n        pure false","new":"      | .unset => pure false","claim":"C49 addrinfo leaked on error"},
{"definition":"hEndpoint","file":"Verif/Model/Heap.lean","old":"        | (.fail, k, _) => do\n          hfree copy\n          pure (false, k)","new":"        | (.fail, k, _) => pure (false, k)","claim":"C49 copy leaked when resolution fails"},
{"definition":"hEndpoint","file":"Verif/Model/Heap.lean","old":"      | none => do\n        hfree copy\n        pure (false, tick)\n      | some (host, port)","new":"      | none => do\n        hfree copy\n        hfree copy\n        pure (false, tick)\n      | some (host, port)","claim":"C49 double free for a malformed endpoint"},
{"definition":"hEndpoint","file":"Verif/Model/Heap.lean","old":"    if copy = none then pure (false, tick)\n    else match splitEndpoint","new":"    match splitEndpoint","claim":"C49 NULL copy used"},
{"definition":"hEntries","file":"Verif/Model/Heap.lean","old":"      | none => do\n        hfree new\n        hfree saved\n        hfree copy\n        pure (false, last, ws)\n      | some addr","new":"      | none => do\n        hfree saved\n        hfree copy\n        pure (false, last, ws)\n      | some addr","claim":"C49 entry leaked for a bad address"},
{"definition":"hEntries","file":"Verif/Model/Heap.lean","old":"          hLinkIp peer last new\n          hfree saved\n","new":"          hLinkIp peer last new\n","claim":"C49 copy of each entry leaked"},
{"definition":"hEntries","file":"Verif/Model/Heap.lean","old":"        | none => do\n          hfree new\n          hfree copy\n          hfree saved","new":"        | none => do\n          hLinkIp peer last new\n          hfree new\n          hfree copy\n          hfree saved","claim":"C49 bad entry freed although linked"},
{"definition":"hEntries","file":"Verif/Model/Heap.lean","old":"          hEntries oom env copy peer es new (","new":"          hEntries oom env copy peer es last (","claim":"C49 entries lost: leak (last not advanced)"},
{"definition":"hAllowedips","file":"Verif/Model/Heap.lean","old":"      pure (ok, if ok then l else last, ws)","new":"      pure (ok, last, ws)","claim":"C49 next AllowedIPs line overwrites the chain"},
{"definition":"hNewPeer","file":"Verif/Model/Heap.lean","old":"  if new = none then pure none\n  else do\n    hLinkPeer device lastPeer new","new":"  if new = none then pure none\n  else do\n    hLinkPeer device none new","claim":"C49 earlier peers lost"},
{"definition":"hProcessLine","file":"Verif/Model/Heap.lean","old":"      pure (true, { ctx with lastIp := none, lastPeer := new,","new":"      pure (true, { ctx with lastPeer := new,","claim":"C49 the allowed IPs of a second peer are put into the first one's list"},
{"definition":"hReadLine","file":"Verif/Model/Heap.lean","old":"    hfree line\n    if ret then pure (true, ctx)\n    else do\n      freeDevice ctx.device\n      pure (false, ctx)","new":"    if ret then do\n      hfree line\n      pure (true, ctx)\n    else do\n      freeDevice ctx.device\n      pure (false, ctx)","claim":"C49 line leaked on failure"},
{"definition":"hReadLine","file":"Verif/Model/Heap.lean","old":"  if line = none then do\n    freeDevice ctx.device\n    pure (false, ctx)\n  else do\n    let text","new":"  if line = none then pure (false, ctx)\n  else do\n    let text","claim":"C49 device leaked when the line cannot be allocated"},
{"definition":"hReadFinish","file":"Verif/Model/Heap.lean","old":"  else do\n    freeDevice ctx.device\n    pure none","new":"  else pure none","claim":"C49 device leaked when a peer has no key"},
{"definition":"hCmdPeer","file":"Verif/Model/Heap.lean","old":"    pure (r, { ctx with lastPeer := new, lastIp := none })","new":"    pure (r, { ctx with lastPeer := new })","claim":"C49 lists of peers mixed"},
{"definition":"hCmdIps","file":"Verif/Model/Heap.lean","old":"    hfree line\n    pure (r, { ctx with lastIp := l","new":"    pure (r, { ctx with lastIp := l","claim":"C49 stripped argument leaked"},
{"definition":"hCmdLoop","file":"Verif/Model/Heap.lean","old":"    else do\n      freeDevice ctx.device\n      pure (false, ctx)\n\n/-- config.c:578-650 `config_read_cmd`: NULL","new":"    else pure (false, ctx)\n\n/-- config.c:578-650 `config_read_cmd`: NULL","claim":"C49 leak for a missing argument"},
{"definition":"hReadCmd","file":"Verif/Model/Heap.lean","old":"    pure (if ok then ctx.device else none)","new":"    pure ctx.device","claim":"C49 freed device used"},
{"definition":"hSetMain","file":"Verif/Model/Heap.lean","old":"      let d ← readDevice dev\n      freeDevice dev\n      pure (if ipc","new":"      freeDevice dev\n      let d ← readDevice dev\n      pure (if ipc","claim":"C49 device used after free"},
{"definition":"hRemovals","file":"Verif/Model/Heap.lean","old":"        hmod new (setNextPeer first)\n","new":"","claim":"C49 file peers lost when a removal is added"},
{"definition":"hSyncConf","file":"Verif/Model/Heap.lean","old":"          freeDevice runtime\n          hfree keys\n          pure (ok,","new":"          freeDevice runtime\n          pure (ok,","claim":"C49 key array leaked"},
{"definition":"hSyncConf","file":"Verif/Model/Heap.lean","old":"        if keys = none then do\n          freeDevice runtime\n          pure (false","new":"        if keys = none then do\n          freeDevice runtime\n          freeDevice file\n          pure (false","claim":"C49 file device freed twice"},
{"definition":"hSyncConf","file":"Verif/Model/Heap.lean","old":"      if r.peers = [] then do\n        freeDevice runtime\n        pure (true","new":"      if r.peers = [] then do\n        pure (true","claim":"C49 runtime device leaked"},
{"definition":"hSyncConf","file":"Verif/Model/Heap.lean","old":"          let r ← readDevice runtime\n          let ok ← hRemovals oom file (removals (sort (origins d r)))\n          freeDevice runtime\n","new":"          freeDevice runtime\n          let r ← readDevice runtime\n          let ok ← hRemovals oom file (removals (sort (origins d r)))\n","claim":"C49 keys of the runtime device used after free"},
{"definition":"hSetconfMain","file":"Verif/Model/Heap.lean","old":"        if !ok then do\n          hfree buffer\n          pure (1, [])","new":"        if !ok then do\n          hfree buffer\n          freeDevice dev\n          pure (1, [])","claim":"C49 double free after a bad line"},
{"definition":"hSetconfMain","file":"Verif/Model/Heap.lean","old":"              else do\n                hfree buffer\n                freeDevice dev\n                pure (1, calls)","new":"              else do\n                hfree buffer\n                pure (1, calls)","claim":"C49 leak when sync fails"}
]
