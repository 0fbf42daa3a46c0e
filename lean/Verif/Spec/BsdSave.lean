import Verif.Spec.BsdUpEnd
/-!
What `wg-quick save` and `wg-quick down` do on the BSDs.
-/
namespace WG.Spec.Bsd
open WG.Quick (Call Reply Ev World Opts)
open WG.Bsd (Plat Cfg End)
open WG.Spec.Quick

/-! ### Finding the interface -/

/-- The name is one of those that `wg show interfaces` prints. -/
def ListedAs (name out : List UInt8) : Prop := Occurs (b!" " ++ name ++ b!" ") (b!" " ++ captured out ++ b!" ")

/-- The interface of this configuration is there; its name is `real`. -/
def FoundStep (c : Cfg) (real : List UInt8) (l : List Ev) : Prop :=
  match c.plat with
  | .freebsd => real = c.iface ∧ ∃ r, ListedAs c.iface r.out ∧ l = [(.query [b!"wg", b!"show", b!"interfaces"], r)]
  | .openbsd => ∃ r lines, FullLines r.out lines ∧ Described c.iface [] lines real ∧ l = [(.query [b!"ifconfig"], r)]
  | .darwin => ∃ l' r, NameLookup c (some real) l' ∧ ListedAs real r.out ∧ l = l' ++ [(.query [b!"wg", b!"show", b!"interfaces"], r)]

/-- It is not. -/
def MissingStep (c : Cfg) (l : List Ev) : Prop :=
  match c.plat with
  | .freebsd => ∃ r, ¬ ListedAs c.iface r.out ∧ l = [(.query [b!"wg", b!"show", b!"interfaces"], r)]
  | .openbsd => ∃ r lines, FullLines r.out lines ∧ (∀ n, ¬ Described c.iface [] lines n) ∧ l = [(.query [b!"ifconfig"], r)]
  | .darwin => NameLookup c none l ∨ ∃ l' r n, NameLookup c (some n) l' ∧ ¬ ListedAs n r.out ∧ l = l' ++ [(.query [b!"wg", b!"show", b!"interfaces"], r)]

/-! ### The new configuration -/

/-- The fourth word of a line (nothing, if there are fewer). -/
def FourthWord (line a : List UInt8) : Prop := ∃ ws, Words blankSep line ws ∧ a = (ws[3]?).getD []

/-- The line is not one of the link layer: its third word does not contain `Link`. -/
def NoLink (line : List UInt8) : Prop := ∃ ws, Words blankSep line ws ∧ ¬ Occurs b!"Link" ((ws[2]?).getD [])

/-- `inet ` or `inet6 `, as `ifconfig` shows it in front of an address. -/
def InetTag (t : List UInt8) : Prop := t = b!"inet " ∨ t = b!"inet6 "

/-- The word after the first `inet ` or `inet6 ` of a line that a word follows at once. -/
def IfconfigAddr (line a : List UInt8) : Prop :=
  ∃ pre tag rest, line = pre ++ tag ++ a ++ rest ∧ InetTag tag ∧ a ≠ [] ∧ (32 : UInt8) ∉ a ∧ (rest = [] ∨ rest.head? = some 32) ∧
    ∀ pre' tag' x rest', line = pre' ++ tag' ++ x :: rest' → InetTag tag' → x ≠ 32 → pre.length ≤ pre'.length

def netstatIf (real fam : List UInt8) : Call := .query [b!"netstat", b!"-I", real, b!"-n", b!"-W", b!"-f", fam]

/-- The addresses of the interface, as `netstat` or (macOS) `ifconfig` shows them. The first line of `netstat` is a heading. -/
def AddrsFound (c : Cfg) (real : List UInt8) (as : List (List UInt8)) (l : List Ev) : Prop :=
  match c.plat with
  | .freebsd => ∃ r4 r6 h4 h6 l4 l6, l = [(netstatIf real b!"inet", r4), (netstatIf real b!"inet6", r6)] ∧ EndedLines r4.out (h4 :: l4) ∧ EndedLines r6.out (h6 :: l6) ∧
      List.Forall₂ FourthWord (l4 ++ l6) as
  | .openbsd => ∃ r hd ls, l = [(.query [b!"netstat", b!"-I", real, b!"-n", b!"-v"], r)] ∧ EndedLines r.out (hd :: ls) ∧ Collected (fun x a => NoLink x ∧ FourthWord x a) ls as
  | .darwin => ∃ r ls, l = [(.query [b!"ifconfig", real], r)] ∧ EndedLines r.out ls ∧ Collected IfconfigAddr ls as

/-- The name servers: on FreeBSD those that `resolvconf` has for the interface, elsewhere those of the configuration. -/
def DnsFound (c : Cfg) (ns : List (List UInt8)) (l : List Ev) : Prop :=
  if c.plat = .freebsd then ∃ r, l = [(.query [b!"resolvconf", b!"-l", c.iface], r)] ∧ DnsServers r.out ns else ns = c.opts.dns ∧ l = []

/-- The complete new configuration `x` is found: the output of a successful `wg showconf` with, in place of its first `[Interface]`
line, wg-quick's own settings: addresses and name servers as found, the others as configured. -/
def SaveLook (c : Cfg) (real x : List UInt8) (l : List Ev) : Prop :=
  ∃ as ns la ld s new y, l = la ++ (ld ++ [(.query [b!"wg", b!"showconf", real], s)]) ∧ AddrsFound c real as la ∧ DnsFound c ns ld ∧ s.status = 0 ∧
    (let own := ownSection (savedSettings c.opts as ns (if c.opts.mtu = [] then none else some c.opts.mtu))
     if c.patsub then AmpText b!"[Interface]\n" own new else new = own) ∧
    Replaced b!"[Interface]\n" new (captured s.out) y ∧ x = y ++ b!"\n"

/-! ### Writing it -/

def tempOf (c : Cfg) : List UInt8 := c.file ++ b!".tmp"
def writeCmd (c : Cfg) (x : List UInt8) : Call := .act [b!"write", b!"077", tempOf c] x
def syncCmd (c : Cfg) : Call := cmd [b!"sync", tempOf c]
def renameCmd (c : Cfg) : Call := cmd [b!"mv", tempOf c, c.file]

/-- The temporary file is written (readable only by its owner), synced and renamed, all successful. -/
def SaveWrote (c : Cfg) (x : List UInt8) (l : List Ev) : Prop := ∃ e1 e2 e3, l = [e1, e2, e3] ∧ Did (writeCmd c x) e1 ∧ Did (syncCmd c) e2 ∧ Did (renameCmd c) e3

/-- An event at which the script stops: a failure or a signal. -/
def Bad (e : Ev) : Prop := e.2.status ≠ 0 ∨ e.2.sig = true

/-- That stopped: the last of these commands failed or was interrupted. -/
def SaveBroke (c : Cfg) (x : List UInt8) (l : List Ev) : Prop :=
  (∃ r1, l = [(writeCmd c x, r1)] ∧ Bad (writeCmd c x, r1)) ∨
  (∃ e1 r2, l = [e1, (syncCmd c, r2)] ∧ Did (writeCmd c x) e1 ∧ Bad (syncCmd c, r2)) ∨
  (∃ e1 e2 r3, l = [e1, e2, (renameCmd c, r3)] ∧ Did (writeCmd c x) e1 ∧ Did (syncCmd c) e2 ∧ Bad (renameCmd c, r3))

/-! ### The end -/

/-- FreeBSD: the temporary directory is removed, or that fails. -/
def TempTry (c : Cfg) (dir : List UInt8) (l : List Ev) : Prop := TempRemoved c dir l ∨ TempLeft c dir l

/-- The temporary file is removed, and then the directory; or that fails. -/
def FileTry (c : Cfg) (dir : List UInt8) (l : List Ev) : Prop :=
  ∃ r l', l = (cmd [b!"rm", b!"-f", tempOf c], r) :: l' ∧ if r.status = 0 then TempTry c dir l' else l' = []

/-- After `l` the script stops: with a status other than 0 and `try` once, or at a signal and `try` twice. -/
def Stops (P : List Ev → Prop) (e : End) (l last : List Ev) : Prop :=
  ((∃ k, k ≠ 0 ∧ e = .exit k) ∧ P last) ∨
  ((∃ pre v, l = pre ++ [v] ∧ v.2.sig = true) ∧ (e = .killed ∨ ∃ k, e = .exit k) ∧ ∃ l1 l2, last = l1 ++ l2 ∧ P l1 ∧ P l2)

/-- Nothing was found out, or the interface is not there: only questions were asked, apart from the temporary directory. -/
def Refused (c : Cfg) (e : End) (h : List Ev) : Prop :=
  ∃ dir lt lm l, h = lt ++ (lm ++ l) ∧ TempStep c dir lt ∧ MissingStep c lm ∧ Cleaned c dir 1 e l

/-- `save`: the file is replaced. -/
def SaveSucceeded (c : Cfg) (e : End) (h : List Ev) : Prop :=
  ∃ dir real x lt lf q t l, h = lt ++ (lf ++ (q ++ (t ++ l))) ∧ TempStep c dir lt ∧ FoundStep c real lf ∧ SaveLook c real x q ∧ SaveWrote c x t ∧ Cleaned c dir 0 e l

/-- A save that stops, with everything up to there: while looking, or while writing. -/
def SaveFailed (c : Cfg) (real dir : List UInt8) (e : End) (l last : List Ev) : Prop :=
  ((∀ v ∈ l, ∃ q, v.1 = .query q) ∧ Stops (TempTry c dir) e l last) ∨
  (∃ x q t, l = q ++ t ∧ SaveLook c real x q ∧ SaveBroke c x t ∧ Stops (FileTry c dir) e l last)

/-- `save` stops after the interface was found. -/
def SaveStoppedBsd (c : Cfg) (e : End) (h : List Ev) : Prop :=
  ∃ dir real lt lf l last, h = lt ++ (lf ++ (l ++ last)) ∧ TempStep c dir lt ∧ FoundStep c real lf ∧ SaveFailed c real dir e l last

/-! ### `down` -/

/-- A save that got through, if the configuration asks for one. -/
def SavedIf (c : Cfg) (real : List UInt8) (l : List Ev) : Prop :=
  if c.opts.saveConfig then ∃ x q t, l = q ++ t ∧ SaveLook c real x q ∧ SaveWrote c x t else l = []

/-- After the interface: the name servers are withdrawn (macOS: that is left to the monitor). -/
def DnsUndone (c : Cfg) (real : List UInt8) (l : List Ev) : Prop :=
  match c.plat with
  | .freebsd => if c.opts.dns ≠ [] then ∃ e, Did (cmd [b!"resolvconf", b!"-d", c.iface]) e ∧ l = [e] else l = []
  | .openbsd => ResolvRestored c real l
  | .darwin => l = []

/-- All of `down` after the check, in order: PreDown hooks, saving if asked for, removing the interface, withdrawing the name servers,
PostDown hooks. -/
def DownSteps (c : Cfg) (real : List UInt8) (h : List Ev) : Prop :=
  ∃ l1 l2 l3 l4 l5, h = l1 ++ (l2 ++ (l3 ++ (l4 ++ l5))) ∧ HooksDone c real c.opts.preDown l1 ∧ SavedIf c real l2 ∧ IfRemoved c real false l3 ∧ DnsUndone c real l4 ∧
    HooksDone c real c.opts.postDown l5

def DownSucceeded (c : Cfg) (e : End) (h : List Ev) : Prop :=
  ∃ dir real lt lf l last, h = lt ++ (lf ++ (l ++ last)) ∧ TempStep c dir lt ∧ FoundStep c real lf ∧ DownSteps c real l ∧ Cleaned c dir 0 e last

/-- Hooks, the last of which failed or was interrupted. -/
def HooksBroke (c : Cfg) (real : List UInt8) (hooks : List (List UInt8)) (l : List Ev) : Prop :=
  ∃ done h rest l' t r, hooks = done ++ h :: rest ∧ HooksDone c real done l' ∧ HookFor c real h t ∧ Bad (.hook t, r) ∧ l = l' ++ [(.hook t, r)]

/-- A command of removing the interface or withdrawing name servers. -/
def RemoveAct (c : Cfg) (real : List UInt8) (k : Call) : Prop :=
  (∃ q, k = .query q) ∨
  match c.plat with
  | .freebsd => k = cmd [b!"resolvconf", b!"-d", c.iface] ∨ k = cmd [b!"rm", b!"-f", sockOf c.iface] ∨ k = cmd [b!"ifconfig", c.iface, b!"destroy"]
  | .openbsd => k = cmd ([b!"route", b!"nameserver"] ++ if real = [] then [] else [real]) ∨ k = cmd [b!"mv", backupOf c, b!"/etc/resolv.conf"] ∨ k = cmd [b!"ifconfig", real, b!"destroy"]
  | .darwin => k = cmd [b!"rm", b!"-f", sockOf real] ∨ k = cmd [b!"rm", b!"-f", nameFileOf c]

/-- Removing the interface or the name servers, stopped at the last command. -/
def RemoveBroke (c : Cfg) (real : List UInt8) (l : List Ev) : Prop := (∀ v ∈ l, RemoveAct c real v.1) ∧ ∃ pre v, l = pre ++ [v] ∧ Bad v

/-- How far `down` got; `l` is everything after the check. The other steps are not taken. -/
inductive DownBroke (c : Cfg) (real dir : List UInt8) (e : End) : List Ev → List Ev → Prop
  | preDown {l last} : HooksBroke c real c.opts.preDown l → Stops (TempTry c dir) e l last → DownBroke c real dir e l last
  | save {l1 l2 last} : HooksDone c real c.opts.preDown l1 → c.opts.saveConfig = true → SaveFailed c real dir e l2 last → DownBroke c real dir e (l1 ++ l2) last
  | remove {l1 l2 l3 last} : HooksDone c real c.opts.preDown l1 → SavedIf c real l2 → RemoveBroke c real l3 → Stops (TempTry c dir) e l3 last →
      DownBroke c real dir e (l1 ++ (l2 ++ l3)) last
  | dns {l1 l2 l3 l4 last} : HooksDone c real c.opts.preDown l1 → SavedIf c real l2 → IfRemoved c real false l3 → RemoveBroke c real l4 → Stops (TempTry c dir) e l4 last →
      DownBroke c real dir e (l1 ++ (l2 ++ (l3 ++ l4))) last
  | postDown {l1 l2 l3 l4 l5 last} : HooksDone c real c.opts.preDown l1 → SavedIf c real l2 → IfRemoved c real false l3 → DnsUndone c real l4 → HooksBroke c real c.opts.postDown l5 →
      Stops (TempTry c dir) e l5 last → DownBroke c real dir e (l1 ++ (l2 ++ (l3 ++ (l4 ++ l5)))) last

def DownFailed (c : Cfg) (e : End) (h : List Ev) : Prop :=
  ∃ dir real lt lf l last, h = lt ++ (lf ++ (l ++ last)) ∧ TempStep c dir lt ∧ FoundStep c real lf ∧ DownBroke c real dir e l last

/-- `down` is still waiting for the interface to go away. -/
def DownWaiting (c : Cfg) (e : End) (h : List Ev) : Prop :=
  e = .running ∧ ∃ dir real lt lf l1 l2 l3, h = lt ++ (lf ++ (l1 ++ (l2 ++ l3))) ∧ TempStep c dir lt ∧ FoundStep c real lf ∧ HooksDone c real c.opts.preDown l1 ∧
    SavedIf c real l2 ∧ ∀ v ∈ l3, RemoveAct c real v.1

/-- In this history the interface was found and then its complete new configuration `x`. -/
def NewConfigBsd (c : Cfg) (h : List Ev) (x : List UInt8) : Prop :=
  ∃ real pre lf mid q post, h = pre ++ (lf ++ (mid ++ (q ++ post))) ∧ FoundStep c real lf ∧ SaveLook c real x q

end WG.Spec.Bsd
