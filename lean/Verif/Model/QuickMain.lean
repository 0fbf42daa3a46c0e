import Verif.Model.QuickRun
/-! Model of the whole of src/wg-quick/linux.bash: the choice of the operation (linux.bash:366-389) and `auto_su` (linux.bash:84-86). -/
namespace WG.Quick

/-- Where the script runs: whether as root (`$UID == 0`), the paths of bash and of the script (`$BASH`, `$SELF`), the prompt of linux.bash:85, the file system, and the
parameters of `Cfg` that do not come from the configuration file. -/
structure Host where
  root : Bool
  bash : CStr
  self : CStr
  prompt : CStr
  fs : Fs
  userspace : CStr
  sort : List CStr → List CStr
  plusMatch : CStr → Option CStr
  patsub : Bool
  patience : Nat

/-- What `parse_options` leaves in the global variables. -/
def Host.cfg (h : Host) (p : Parsed) : Cfg where
  iface := p.iface
  file := p.configFile
  opts := p.opts
  userspace := h.userspace
  sort := h.sort
  plusMatch := h.plusMatch
  patsub := h.patsub
  patience := h.patience

/-- How the script ends. -/
inductive End where
  | exit (status : Nat)
  /-- by SIGINT or SIGTERM -/
  | killed
  /-- it is replaced by another program (`exec`) -/
  | exec (argv : List CStr)
  | running
deriving DecidableEq

/-- What the script did: its end, what it printed itself on standard output, whether it printed the usage message on standard error, and the commands it ran. -/
structure Ran where
  end_ : End
  out : List UInt8 := []
  usage : Bool := false
  hist : List Ev := []

/-- The end of an operation: `exit 0` (linux.bash:389) follows. -/
def endOf : Out Unit × St → Ran
  | (.ok _, s) => { end_ := .exit 0, hist := s.hist }
  | (.exit n, s) => { end_ := .exit n, hist := s.hist }
  | (.signal _, s) => { end_ := .killed, hist := s.hist }
  | (.running, s) => { end_ := .running, hist := s.hist }

/-- linux.bash:84-86 `auto_su`: `none` if the script goes on. -/
def autoSu (h : Host) (args : List CStr) : Option (List CStr) :=
  if h.root then none
  else some ([b!"sudo", b!"-p", h.prompt, b!"--", h.bash, b!"--", h.self] ++ args)

/-- `auto_su; parse_options "$2"; …`; a failing `parse_options` exits with status 1. -/
def operate (h : Host) (args : List CStr) (arg : CStr) (op : Parsed → Ran) : Ran :=
  match autoSu h args with
  | some argv => { end_ := .exec argv }
  | none => match parseOptions h.fs arg with
    | none => { end_ := .exit 1 }
    | some p => op p

/-- linux.bash:366-389. -/
def quickMain (h : Host) (w : World) (args : List CStr) : Ran :=
  match args with
  | [a] =>
    if a = b!"--help" ∨ a = b!"-h" ∨ a = b!"help" then { end_ := .exit 0, usage := true }
    else { end_ := .exit 1, usage := true }
  | [op, arg] =>
    if op = b!"up" then operate h args arg fun p => endOf (cmdUp (h.cfg p) w {})
    else if op = b!"down" then operate h args arg fun p => endOf (cmdDown (h.cfg p) w {})
    else if op = b!"save" then operate h args arg fun p => endOf (cmdSave (h.cfg p) w {})
    else if op = b!"strip" then operate h args arg fun p => { end_ := .exit 0, out := stripText p.opts }
    else { end_ := .exit 1, usage := true }
  | _ => { end_ := .exit 1, usage := true }

end WG.Quick
