import Verif.Spec.BsdUp
/-!
What is done to take an interface down on the BSDs, by `down` or when `up` fails.
-/
namespace WG.Spec.Bsd
open WG.Quick (Call Reply Ev World Opts)
open WG.Bsd (Plat Cfg)
open WG.Spec.Quick

/-- FreeBSD: until the interface is gone. -/
inductive WaitedGone (c : Cfg) : List Ev → Prop
  | gone {r} : r.status ≠ 0 → WaitedGone c [(.query [b!"ifconfig", c.iface], r)]
  | wait {r e l} : r.status = 0 → Did (.query [b!"sleep", b!"0.1"]) e → WaitedGone c l → WaitedGone c ((.query [b!"ifconfig", c.iface], r) :: e :: l)

def backupOf (c : Cfg) : List UInt8 := b!"/etc/resolv.conf.wg-quick-backup." ++ c.iface

/-- OpenBSD: if there is a backup of the resolver configuration, the name servers of the interface are withdrawn and the backup takes
its place again. -/
def ResolvRestored (c : Cfg) (real : List UInt8) (l : List Ev) : Prop :=
  ∃ t l', l = (.query [b!"test", b!"-f", backupOf c], t) :: l' ∧
    ((t.status ≠ 0 ∧ l' = []) ∨
     (t.status = 0 ∧ ∃ n m, Did (cmd ([b!"route", b!"nameserver"] ++ if real = [] then [] else [real])) n ∧ Did (cmd [b!"mv", backupOf c, b!"/etc/resolv.conf"]) m ∧ l' = [n, m]))

/-- The interface is removed; `dns` tells whether FreeBSD's `resolvconf` was told about it in this run. -/
def IfRemoved (c : Cfg) (real : List UInt8) (dns : Bool) (l : List Ev) : Prop :=
  match c.plat with
  | .freebsd => ∃ l1 t d l2, l = l1 ++ (.query [b!"test", b!"-S", sockOf c.iface], t) :: d :: l2 ∧
      (if dns = true ∧ c.opts.dns ≠ [] then ∃ e, Did (cmd [b!"resolvconf", b!"-d", c.iface]) e ∧ l1 = [e] else l1 = []) ∧
      (if t.status = 0 then Did (cmd [b!"rm", b!"-f", sockOf c.iface]) d else Did (cmd [b!"ifconfig", c.iface, b!"destroy"]) d) ∧ WaitedGone c l2
  | .openbsd => real ≠ [] ∧ ∃ l1 d, ResolvRestored c real l1 ∧ Did (cmd [b!"ifconfig", real, b!"destroy"]) d ∧ l = l1 ++ [d]
  | .darwin => ∃ l1 n, (if real = [] then l1 = [] else ∃ e, Did (cmd [b!"rm", b!"-f", sockOf real]) e ∧ l1 = [e]) ∧ Did (cmd [b!"rm", b!"-f", nameFileOf c]) n ∧ l = l1 ++ [n]

/-- The destinations of the routes through the interface in a listing, in order. -/
def OwnRoutes (f : Family) (real out : List UInt8) (ds : List (List UInt8)) : Prop :=
  ∃ lines, EndedLines out lines ∧ Collected (fun l d => OnInterface f real l ∧ ∃ ws, Words blankSep l ws ∧ d = ws.head?.getD []) lines ds

/-- The routes through the interface and those to the endpoints are deleted (whether that succeeds or not). -/
def RoutesRemoved (c : Cfg) (real : List UInt8) (endpoints : List (List UInt8)) (l : List Ev) : Prop :=
  if c.plat ≠ .freebsd ∧ real = [] then l = []
  else ∃ r4 d4 l4 r6 d6 l6 le, l = (netstatOf .v4, r4) :: (l4 ++ (netstatOf .v6, r6) :: (l6 ++ le)) ∧
    OwnRoutes .v4 real r4.out d4 ∧ l4.map (·.1) = d4.map (deleteCmd b!"-inet") ∧ OwnRoutes .v6 real r6.out d6 ∧ l6.map (·.1) = d6.map (deleteCmd b!"-inet6") ∧
    le.map (·.1) = endpoints.map fun d => deleteCmd (famFlag d) d

/-- FreeBSD: the temporary directory goes. -/
def TempRemoved (c : Cfg) (dir : List UInt8) (l : List Ev) : Prop :=
  if c.plat = .freebsd then dir ≠ [] ∧ ∃ e, Did (cmd [b!"rm", b!"-rf", dir]) e ∧ l = [e] else l = []

/-- Everything that a failing `up` undoes: interface, routes, temporary directory. -/
def Undone (c : Cfg) (real : List UInt8) (dns : Bool) (endpoints : List (List UInt8)) (dir : List UInt8) (l : List Ev) : Prop :=
  ∃ l1 l2 l3, l = l1 ++ (l2 ++ l3) ∧ IfRemoved c real dns l1 ∧ RoutesRemoved c real endpoints l2 ∧ TempRemoved c dir l3

/-- Undoing ended early: with a command that failed; or, without one, as there is no name of an interface (OpenBSD) or of a
directory (FreeBSD). -/
def UndoStopped (c : Cfg) (real dir : List UInt8) (l : List Ev) : Prop :=
  (∃ pre e, l = pre ++ [e] ∧ e.2.status ≠ 0) ∨ (c.plat = .openbsd ∧ real = []) ∨ (c.plat = .freebsd ∧ dir = [])

end WG.Spec.Bsd
