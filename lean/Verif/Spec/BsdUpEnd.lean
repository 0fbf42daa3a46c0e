import Verif.Spec.BsdDown
/-!
How `wg-quick up` ends on the BSDs: done, refused, or failed and undone.
-/
namespace WG.Spec.Bsd
open WG.Quick (Call Reply Ev World Opts)
open WG.Bsd (Plat Cfg End)
open WG.Spec.Quick

/-- FreeBSD: the temporary directory could not be removed. -/
def TempLeft (c : Cfg) (dir : List UInt8) (l : List Ev) : Prop :=
  c.plat = .freebsd ∧ ((dir = [] ∧ l = []) ∨ ∃ r, r.status ≠ 0 ∧ l = [(cmd [b!"rm", b!"-rf", dir], r)])

/-- FreeBSD: the end of a run that leaves the interface alone. `k` is the exit status before and `e` that after it. -/
def Cleaned (c : Cfg) (dir : List UInt8) (k : Nat) (e : End) (l : List Ev) : Prop :=
  (TempRemoved c dir l ∧ e = .exit k) ∨ (TempLeft c dir l ∧ ∃ m, m ≠ 0 ∧ e = .exit m)

/-- Everything was done. -/
def UpSucceeded (c : Cfg) (e : End) (h : List Ev) : Prop := ∃ dir real h' l, h = h' ++ l ∧ UpDone c dir real h' ∧ Cleaned c dir 0 e l

/-- The interface exists: nothing is done. -/
def UpRefused (c : Cfg) (e : End) (h : List Ev) : Prop :=
  ∃ dir lt lx l, h = lt ++ (lx ++ l) ∧ TempStep c dir lt ∧ ExistsStep c lx ∧ Cleaned c dir 1 e l

/-- It did not come to anything: only questions were asked, apart from the temporary directory. -/
def UpNothing (c : Cfg) (e : End) (h : List Ev) : Prop :=
  (∀ v ∈ h, (∃ q, v.1 = .query q) ∨ (c.plat = .freebsd ∧ (v.1 = cmd [b!"mktemp", b!"-d"] ∨ ∃ d, v.1 = cmd [b!"rm", b!"-rf", d]))) ∧
  ((∃ v ∈ h, v.2.sig = true) ∨ ∃ k, k ≠ 0 ∧ e = .exit k)

/-- Making the interface failed or was interrupted. -/
def AddFailed (c : Cfg) (l : List Ev) : Prop :=
  (∃ pre v, l = pre ++ [v] ∧ (v.2.status ≠ 0 ∨ v.2.sig = true)) ∨
  (c.plat = .darwin ∧ ∃ d u l', l = d :: u :: l' ∧ Did (cmd [b!"mkdir", b!"-p", b!"/var/run/wireguard/"]) d ∧
    Did (cmd [b!"WG_TUN_NAME_FILE=" ++ nameFileOf c, c.userspace, b!"utun"]) u ∧ NameLookup c none l')

/-- `real` is the name of the interface as far as it was made. -/
def MadeAs (c : Cfg) (real : List UInt8) (l : List Ev) : Prop :=
  (∃ ladd rest, l = ladd ++ rest ∧ AddStep c real ladd) ∨ (AddFailed c l ∧ real = if c.plat = .freebsd then c.iface else [])

/-- FreeBSD: `resolvconf` was told about the interface. -/
def ToldDns (c : Cfg) (l : List Ev) : Prop :=
  c.plat = .freebsd ∧ ∃ v ∈ l, Did (.act [b!"resolvconf", b!"-a", c.iface, b!"-x"] (resolvLines c.opts)) v ∧ v.2.sig = false

/-- What undoing consists of: questions, removing the interface, its name and DNS settings, deleting routes, removing the temporary
directory. -/
def UndoAct (c : Cfg) (real dir : List UInt8) (k : Call) : Prop :=
  (∃ q, k = .query q) ∨ (∃ fam d, k = deleteCmd fam d) ∨
  match c.plat with
  | .freebsd => k = cmd [b!"resolvconf", b!"-d", c.iface] ∨ k = cmd [b!"rm", b!"-f", sockOf c.iface] ∨ k = cmd [b!"ifconfig", c.iface, b!"destroy"] ∨ k = cmd [b!"rm", b!"-rf", dir]
  | .openbsd => k = cmd ([b!"route", b!"nameserver"] ++ if real = [] then [] else [real]) ∨ k = cmd [b!"mv", backupOf c, b!"/etc/resolv.conf"] ∨ k = cmd [b!"ifconfig", real, b!"destroy"]
  | .darwin => k = cmd [b!"rm", b!"-f", sockOf real] ∨ k = cmd [b!"rm", b!"-f", nameFileOf c]

/-- One attempt to undo everything, finished or not. -/
def UndoTry (c : Cfg) (real : List UInt8) (dns : Bool) (endpoints : List (List UInt8)) (dir : List UInt8) (l : List Ev) : Prop :=
  (∀ v ∈ l, UndoAct c real dir v.1) ∧ (Undone c real dns endpoints dir l ∨ UndoStopped c real dir l)

/-- Something failed after the check (`l` is what was done from then on) and what was done is undone: interface, routes through the
interface, routes to all endpoints for which one was made; DNS (on FreeBSD if it was told). After a signal this is done twice. -/
def UpFailed (c : Cfg) (e : End) (h : List Ev) : Prop :=
  ∃ dir lt lc l lu real dns endpoints, h = lt ++ (lc ++ (l ++ lu)) ∧ TempStep c dir lt ∧ CheckStep c lc ∧ MadeAs c real l ∧ (dns = true ↔ ToldDns c l) ∧
    (∀ fam d via, Host d → addCmd fam d via ∈ l.map (·.1) → d ∈ endpoints) ∧
    ∃ k, e = .exit k ∧
    (((∃ pre v, l = pre ++ [v] ∧ v.2.sig = true) ∧ ∃ l1 l2, lu = l1 ++ l2 ∧ UndoTry c real dns endpoints dir l1 ∧ UndoTry c real dns endpoints dir l2) ∨
     (k ≠ 0 ∧ UndoTry c real dns endpoints dir lu))

end WG.Spec.Bsd
