import Verif.Spec.IpcList
/-! Adapters and pipes on Windows, as a user sees them. -/
namespace WG.Spec.Win

/-- An adapter of the WireGuard driver: its name, the identifier of the device, and is the driver loaded and the device started? -/
structure Adapter where
  name : List UInt8
  inst : List UInt16
  running : Bool
deriving DecidableEq

/-- The names to be listed: of the running ones. -/
def runningNames (l : List (Option Adapter)) : List (List UInt8) := (l.filterMap id |>.filter (·.running)).map (·.name)

/-- The adapters with a name. -/
def named (l : List (Option Adapter)) (name : List UInt8) : List Adapter := l.filterMap id |>.filter (·.name = name)

/-- No two adapters have the same name. -/
def UniqueNames (l : List (Option Adapter)) : Prop := ((l.filterMap id).map (·.name)).Nodup

/-- Where the pipe of a userspace implementation is among all pipes. -/
def pipeFile (name : List UInt8) : List UInt8 := b!"ProtectedPrefix\\Administrators\\WireGuard\\" ++ name

/-- The names of userspace implementations: those whose pipe is among the files. -/
def pipeNames (files : List (List UInt8)) : List (List UInt8) := files.filterMap fun f => if pipeFile [] <+: f then some (f.drop (pipeFile []).length) else none

end WG.Spec.Win
