import Verif.Model.QuickRun
/-!
The three other wg-quick scripts, src/wg-quick/freebsd.bash, openbsd.bash and darwin.bash: how a script runs.

As in Model/QuickRun, a script is a program over an arbitrary environment that answers every command. What differs: these scripts keep
more global variables, change their trap several times and leave a process of their own behind (`monitor_daemon`), so the current trap
is part of the state and the end of the process is a function of it.

Bash semantics made explicit: `set -e`, `pipefail`, traps (a signal runs the trap after the current command; the trap ends in `exit`,
or in a failing command, and so runs once more as EXIT trap; a failing command within the EXIT trap ends the process at once), command
substitution, `read`. Checked with bash 5.2.

Simplifications: as in Model/QuickRun. The scripts do not initialize AUTO_ROUTE4, AUTO_ROUTE6, GATEWAY4, GATEWAY6, ENDPOINTS,
REAL_INTERFACE, FIRSTADDR4 and FIRSTADDR6; they are taken to be unset in the environment.
-/
namespace WG.Bsd
open WG.Quick (Call Reply Ev World Out calm chomp readLoopLines afterFirst hasInfix isDig wordArg mtuIn endpointHost joinSpace resolvText stripText
  wordsAux readLine Opts confLine patsubText replaceFirst nameserverOf routesIn suffixes minus80 trim isIfs)

inductive Plat where
  | freebsd
  | openbsd
  | darwin
deriving DecidableEq, Repr

/-- What is to be done on SIGINT, SIGTERM and at the end. -/
inductive Trap where
  /-- nothing set -/
  | none
  /-- `clean_temp; exit` (freebsd.bash:462, 377, 438) -/
  | clean
  /-- `del_if; del_routes; [clean_temp;] exit` (freebsd.bash:422, openbsd.bash:419, darwin.bash:454) -/
  | up
  /-- `rm -f "$CONFIG_FILE.tmp"; [clean_temp;] exit` (freebsd.bash:373, openbsd.bash:371, darwin.bash:403) -/
  | save
  /-- `del_routes; [del_dns;] [clean_temp;] exit 0` (freebsd.bash:285, openbsd.bash:267, darwin.bash:325) -/
  | daemon
deriving DecidableEq, Repr

/-- The global variables of a script that change after `parse_options`, what happened so far, and the trap. -/
structure St where
  hist : List Ev := []
  trap : Trap := .none
  /-- `REAL_INTERFACE`; on FreeBSD, where the interface has the configured name, `INTERFACE`. -/
  real : CStr := []
  /-- `CLEANUP_TMPDIR` (FreeBSD) -/
  tmp : CStr := []
  /-- `HAVE_SET_DNS` (FreeBSD) -/
  haveDns : Bool := false
  /-- `FIRSTADDR4`, `FIRSTADDR6` (OpenBSD) -/
  first4 : CStr := []
  first6 : CStr := []
  /-- `AUTO_ROUTE4`, `AUTO_ROUTE6` -/
  auto4 : Bool := false
  auto6 : Bool := false
  /-- `GATEWAY4`, `GATEWAY6` -/
  gw4 : CStr := []
  gw6 : CStr := []
  /-- `ENDPOINTS` -/
  endpoints : List CStr := []
  /-- `SERVICE_DNS`, `SERVICE_DNS_SEARCH` (Darwin) -/
  svcDns : List (CStr × CStr) := []
  svcSearch : List (CStr × CStr) := []
deriving DecidableEq, Repr

def Sh (α : Type) : Type := World → St → Out α × St

def Sh.pure {α : Type} (a : α) : Sh α := fun _ s => (.ok a, s)

def Sh.bind {α β : Type} (m : Sh α) (f : α → Sh β) : Sh β := fun w s =>
  match m w s with
  | (.ok a, s) => f a w s
  | (.exit n, s) => (.exit n, s)
  | (.signal n, s) => (.signal n, s)
  | (.running, s) => (.running, s)

/-- `exit n`, also reached through `die` and `set -e`. -/
def exitWith {α : Type} (n : Nat) : Sh α := fun _ s => (.exit n, s)

/-- The observer gave up. -/
def giveUp {α : Type} : Sh α := fun _ s => (.running, s)

/-- Ask the environment; a signal stops the script here. -/
def call (c : Call) : Sh Reply := fun w s =>
  let r := w s.hist c
  let s := { s with hist := s.hist ++ [(c, r)] }
  if r.sig then (.signal r.status, s) else (.ok r, s)

/-- A simple command, with `set -e` in effect (`e = true`) or followed by `|| true`. -/
def run (e : Bool) (c : Call) : Sh Unit :=
  (call c).bind fun r => if e && r.status ≠ 0 then exitWith r.status else Sh.pure ()

def get : Sh St := fun _ s => (.ok s, s)
def modify (f : St → St) : Sh Unit := fun _ s => (.ok (), f s)
def setTrap (t : Trap) : Sh Unit := modify fun s => { s with trap := t }

/-- The sequential `for x in …; do f x; done`. -/
def forEach {α : Type} (f : α → Sh Unit) : List α → Sh Unit
  | [] => Sh.pure ()
  | x :: xs => (f x).bind fun _ => forEach f xs

/-- How a process ends. -/
inductive End where
  | exit (status : Nat)
  /-- by SIGINT or SIGTERM -/
  | killed
  /-- it is replaced by another program (`exec`) -/
  | exec (argv : List CStr)
  | running
deriving DecidableEq, Repr

/-- The EXIT trap of a process that exits with status `n`; `body` gives the commands of a trap, `fixed` the status in its `exit`, if it
has one. -/
def exitTrap (body : Trap → Sh Unit) (fixed : Trap → Option Nat) (n : Nat) (w : World) (s : St) : End × St :=
  match s.trap with
  | .none => (.exit n, s)
  | t =>
    match body t (calm w) s with
    | (.ok _, s) => (.exit ((fixed t).getD n), s)
    | (.exit m, s) => (.exit m, s)
    | (.signal m, s) => (.exit m, s)
    | (.running, s) => (.running, s)

/-- The end of a process whose commands ended with `o`. A signal runs the trap, whose `exit` (or failure) runs it again. -/
def finish (body : Trap → Sh Unit) (fixed : Trap → Option Nat) (w : World) : Out Unit × St → End × St
  | (.ok _, s) => exitTrap body fixed 0 w s
  | (.exit n, s) => exitTrap body fixed n w s
  | (.running, s) => (.running, s)
  | (.signal n, s) =>
    match s.trap with
    | .none => (.killed, s)
    | t =>
      match body t (calm w) s with
      | (.ok _, s) => exitTrap body fixed ((fixed t).getD n) w s
      | (.exit m, s) => exitTrap body fixed m w s
      | (.signal m, s) => exitTrap body fixed m w s
      | (.running, s) => (.running, s)

end WG.Bsd
