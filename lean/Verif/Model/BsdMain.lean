import Verif.Model.Bsd
/-!
Model of the choice of the operation, `auto_su`, `detect_launchd` and the beginning of `parse_options` in
src/wg-quick/{freebsd,openbsd,darwin}.bash. The lines are cited as in Model/Bsd (f:, o:, d:).
-/
namespace WG.Bsd
open WG.Quick (Ev World Out Opts parseConf stripText ifaceOf isName Parsed)

/-- What `parse_options` needs from the file system: `exists_` is `[[ -e … ]]`, `resolve` is `readlink -f` (FreeBSD, OpenBSD), `cd` is
`cd … && pwd -P` (macOS; `none`: it fails), `content` is what reading gives (`none`: the redirection fails). -/
structure Fs where
  exists_ : CStr → Bool
  resolve : CStr → CStr
  cd : CStr → Option CStr
  content : CStr → Option (List UInt8)

/-- Where the script runs: the system; whether as root (`$UID == 0`); the paths of bash and of the script (`$BASH`, `$SELF`); the prompt
of `auto_su`; macOS: whether `launchctl procinfo` has a line as in d:91; and the parameters of `Cfg` that do not come from the
configuration file. -/
structure Host where
  plat : Plat
  root : Bool
  bash : CStr
  self : CStr
  prompt : CStr
  launchd : Bool
  fs : Fs
  userspace : CStr
  sort : List CStr → List CStr
  patsub : Bool
  order : List CStr → List CStr
  patience : Nat

/-- What `parse_options` leaves in the global variables. -/
def Host.cfg (h : Host) (p : Parsed) : Cfg where
  plat := h.plat
  iface := p.iface
  file := p.configFile
  opts := p.opts
  userspace := h.userspace
  sort := h.sort
  patsub := h.patsub
  order := h.order
  patience := h.patience

/-- The variables before `parse_options`. -/
def Host.bare (h : Host) : Cfg := h.cfg ⟨[], [], {}⟩

/-- f:41, d:44 `CONFIG_SEARCH_PATHS`; o:44. -/
def searchPaths : Plat → List CStr
  | .openbsd => [b!"/etc/wireguard"]
  | _ => [b!"/etc/wireguard", b!"/usr/local/etc/wireguard"]

/-- f:68-71, d:50-53: the loop over the search path; `cur` is `CONFIG_FILE`. -/
def searchLoop (ex : CStr → Bool) (arg : CStr) : CStr → List CStr → CStr
  | cur, [] => cur
  | _, d :: ds =>
    let p := d ++ b!"/" ++ arg ++ b!".conf"
    if ex p then p else searchLoop ex arg p ds

/-- f:66-72, o:43-44, d:48-54. -/
def confPath (h : Host) (arg : CStr) : CStr := if isName arg then searchLoop h.fs.exists_ arg arg (searchPaths h.plat) else arg

/-- `${1##*/}`: what follows the last slash. -/
def afterLastSlash (a : CStr) : CStr := (a.reverse.takeWhile (· ≠ c!"/")).reverse

/-- f:75, o:47 `readlink -f`; d:57 `$(cd "${CONFIG_FILE%/*}" && pwd -P)/${CONFIG_FILE##*/}`; `none` ends the script. -/
def resolved (h : Host) (path : CStr) : Option CStr :=
  match h.plat with
  | .darwin => (h.fs.cd (beforeLastSlash path)).map fun d => d ++ b!"/" ++ afterLastSlash path
  | _ => some (h.fs.resolve path)

/-- f:64-103, o:41-75, d:46-85 `parse_options`; `none` is an exit with status 1 before anything was changed. The loop over the lines
(f:78-102) is the one of linux.bash. Not modelled: the warning about the permissions of the file. -/
def parseOptions (h : Host) (arg : CStr) : Option Parsed :=
  let path := confPath h arg
  if h.fs.exists_ path then
    match ifaceOf path with
    | none => none
    | some iface => match resolved h path with
      | none => none
      | some file => match h.fs.content file with
        | none => none
        | some content => match parseConf content with
          | none => none
          | some o => some ⟨iface, file, o⟩
  else none

/-- f:113-115, d:106-108; o:85-87 `auto_su`: the program that replaces the script. -/
def suArgv (h : Host) (args : List CStr) : List CStr :=
  (match h.plat with
   | .openbsd => [b!"doas", b!"--"]
   | _ => [b!"sudo", b!"-p", h.prompt, b!"--"]) ++ [h.bash, b!"--", h.self] ++ args

/-- What the script did: its end, what it printed itself on standard output, whether it printed the usage message, whether it waited for
the monitor before its end (d:520), and the final variables with the commands it ran. -/
structure Ran where
  end_ : End
  out : List UInt8 := []
  usage : Bool := false
  waits : Bool := false
  st : St

/-- f:461-462: whether the script gets to its arguments. -/
def started (c : Cfg) (w : World) : Bool :=
  match commands c (Sh.pure ()) w (St.start c) with
  | (.ok _, _) => true
  | _ => false

/-- `cmd_usage`, and the end of the script with status `n`. -/
def usage (h : Host) (w : World) (n : Nat) : Ran :=
  let r := script h.bare (if n = 0 then Sh.pure () else exitWith n) w
  { end_ := r.1, usage := started h.bare w, st := r.2 }

/-- An operation. -/
def operated (c : Cfg) (op : Sh Unit) (w : World) : Ran := let r := script c op w; { end_ := r.1, st := r.2 }

/-- d:87-96, 345, 520: `up`; when launched by launchd, it waits for the monitor. -/
def operatedUp (h : Host) (c : Cfg) (w : World) : Ran :=
  let waits := match commands c (cmdUp c) w (St.start c) with
    | (.ok _, _) => h.plat = .darwin && h.launchd
    | _ => false
  { operated c (cmdUp c) w with waits := waits }

/-- f:455-457, o:452-454, d:490-492 `cmd_strip`. -/
def operatedStrip (c : Cfg) (w : World) : Ran := { operated c (Sh.pure ()) w with out := if started c w then stripText c.opts else [] }

/-- `auto_su; parse_options "$2"; …`. `exec` does not run the EXIT trap. -/
def operate (h : Host) (w : World) (args : List CStr) (arg : CStr) (op : Cfg → Ran) : Ran :=
  if h.root then
    match parseOptions h arg with
    | none => operated h.bare (exitWith 1) w
    | some p => op (h.cfg p)
  else
    match commands h.bare (Sh.pure ()) w (St.start h.bare) with
    | (.ok _, s) => { end_ := .exec (suArgv h args), st := s }
    | _ => operated h.bare (Sh.pure ()) w

/-- f:461-487, o:456-481, d:494-522. -/
def bsdMain (h : Host) (w : World) (args : List CStr) : Ran :=
  match args with
  | [a] => if a = b!"--help" ∨ a = b!"-h" ∨ a = b!"help" then usage h w 0 else usage h w 1
  | [op, arg] =>
    if op = b!"up" then operate h w args arg fun c => operatedUp h c w
    else if op = b!"down" then operate h w args arg fun c => operated c (cmdDown c) w
    else if op = b!"save" then operate h w args arg fun c => operated c (cmdSave c) w
    else if op = b!"strip" then operate h w args arg fun c => operatedStrip c w
    else usage h w 1
  | _ => usage h w 1

end WG.Bsd
