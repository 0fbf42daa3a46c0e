import Verif.Spec.BsdDns
/-!
What `wg-quick up` does on the BSDs, step by step: the commands with their answers, in the order in which they are run. `real` is the
name of the interface in the system; on FreeBSD it is the configured name.
-/
namespace WG.Spec.Bsd
open WG.Quick (Call Reply Ev World Opts)
open WG.Bsd (Plat Cfg)
open WG.Spec.Quick

/-- A command that succeeded. -/
def Did (c : Call) (e : Ev) : Prop := e.1 = c ∧ e.2.status = 0

/-! ### Creating the interface -/

/-- FreeBSD: a directory for temporary files is made. -/
def TempStep (c : Cfg) (dir : List UInt8) (l : List Ev) : Prop :=
  if c.plat = .freebsd then ∃ r t, dir = captured r.out ∧ t.status = 0 ∧ l = [(cmd [b!"mktemp", b!"-d"], r), (.query [b!"test", b!"-d", dir], t)] else l = []

/-- A line `NAME: …` of `ifconfig` on OpenBSD with a name of lower-case letters and a number. -/
def IfLine (line name : List UInt8) : Prop :=
  ∃ a n x y, name = a ++ n ∧ line = a ++ n ++ b!": " ++ x :: y ∧ a ≠ [] ∧ (∀ c ∈ a, 97 ≤ c ∧ c ≤ 122) ∧ n ≠ [] ∧ ∀ c ∈ n, isDigit c

/-- OpenBSD: among the (complete) lines of `ifconfig` there is the description of this configuration, in the part of an interface whose
name begins with `wg`; `name` is the first such. -/
inductive Described (iface : List UInt8) : (cur : List UInt8) → List (List UInt8) → (name : List UInt8) → Prop
  | line {cur l n ls name} : IfLine l n → Described iface n ls name → Described iface cur (l :: ls) name
  | here {cur l ls} : (∀ n, ¬ IfLine l n) → b!"wg" <+: cur → l = b!"\tdescription: wg-quick: " ++ iface → Described iface cur (l :: ls) cur
  | other {cur l ls name} : (∀ n, ¬ IfLine l n) → ¬ (b!"wg" <+: cur ∧ l = b!"\tdescription: wg-quick: " ++ iface) → Described iface cur ls name →
      Described iface cur (l :: ls) name

/-- The complete lines of an output, nothing trimmed. -/
def FullLines (out : List UInt8) (lines : List (List UInt8)) : Prop :=
  ∃ last, out.filter (· ≠ 0) = lines.flatMap (· ++ [10]) ++ last ∧ (∀ s ∈ lines, (10 : UInt8) ∉ s) ∧ (10 : UInt8) ∉ last

def nameFileOf (c : Cfg) : List UInt8 := b!"/var/run/wireguard/" ++ c.iface ++ b!".name"
def sockOf (real : List UInt8) : List UInt8 := b!"/var/run/wireguard/" ++ real ++ b!".sock"

/-- The modification time that `stat` printed; if it failed `d`. -/
def MTime (r : Reply) (d : Nat) (t : Int) : Prop :=
  (r.status = 0 → (∀ c ∈ captured r.out, isDigit c) → t = (decVal (captured r.out) : Nat)) ∧ (r.status ≠ 0 → t = d)

/-- macOS: the name of the interface of this configuration is in the name file, its socket exists, and the two are at most a second
apart. -/
def NameLookup (c : Cfg) (found : Option (List UInt8)) (l : List Ev) : Prop :=
  ∃ i t l', l = (.query [b!"wg", b!"show", b!"interfaces"], i) :: (.query [b!"test", b!"-f", nameFileOf c], t) :: l' ∧
    ((t.status ≠ 0 ∧ found = none ∧ l' = []) ∨
     (t.status = 0 ∧ ∃ n l'', l' = (.query [b!"cat", nameFileOf c], n) :: l'' ∧
      ((captured n.out = [] ∧ found = none ∧ l'' = []) ∨
       (captured n.out ≠ [] ∧ ∃ k l3, l'' = (.query [b!"test", b!"-S", sockOf (captured n.out)], k) :: l3 ∧
        ((k.status ≠ 0 ∧ found = none ∧ l3 = []) ∨
         (k.status = 0 ∧ ∃ a b ta tb, l3 = [(.query [b!"stat", b!"-f", b!"%m", sockOf (captured n.out)], a), (.query [b!"stat", b!"-f", b!"%m", nameFileOf c], b)] ∧
          MTime a 200 ta ∧ MTime b 100 tb ∧ found = if (ta - tb).natAbs < 2 then some (captured n.out) else none))))))

/-- The interface does not exist yet. -/
def CheckStep (c : Cfg) (l : List Ev) : Prop :=
  match c.plat with
  | .freebsd => ∃ r, captured r.out = [] ∧ l = [(.query [b!"ifconfig", c.iface], r)]
  | .openbsd => ∃ r lines, FullLines r.out lines ∧ (∀ n, ¬ Described c.iface [] lines n) ∧ l = [(.query [b!"ifconfig"], r)]
  | .darwin => NameLookup c none l

/-- The interface exists. -/
def ExistsStep (c : Cfg) (l : List Ev) : Prop :=
  match c.plat with
  | .freebsd => ∃ r, captured r.out ≠ [] ∧ l = [(.query [b!"ifconfig", c.iface], r)]
  | .openbsd => ∃ r lines n, FullLines r.out lines ∧ Described c.iface [] lines n ∧ l = [(.query [b!"ifconfig"], r)]
  | .darwin => ∃ n, NameLookup c (some n) l

/-- FreeBSD: by the kernel, or else by the userspace implementation; an interface that another program made in the meantime is taken
over. -/
def AddFreebsd (c : Cfg) (l : List Ev) : Prop :=
  ∃ r l', l = (cmd [b!"ifconfig", b!"wg", b!"create", b!"name", c.iface], r) :: l' ∧
    ((r.status = 0 ∧ l' = []) ∨
     (r.status ≠ 0 ∧ Occurs b!"ifconfig: ioctl SIOCSIFNAME (set name): File exists" (captured r.out) ∧ l' = []) ∨
     (r.status ≠ 0 ∧ ¬ Occurs b!"ifconfig: ioctl SIOCSIFNAME (set name): File exists" (captured r.out) ∧ ∃ e, Did (cmd [c.userspace, c.iface]) e ∧ l' = [e]))

/-- `wgN` with the least `N` for which there is no such interface. -/
def FreeName (shown name : List UInt8) : Prop :=
  ∃ ws n, Words blankSep (captured shown) ws ∧ name = b!"wg" ++ showDec n ∧ name ∉ ws ∧ ∀ m < n, b!"wg" ++ showDec m ∈ ws

/-- OpenBSD: the first free name; if another program was faster, the next. -/
inductive AddOpenbsd (c : Cfg) (real : List UInt8) : List Ev → Prop
  | done {q r} : FreeName q.out real → r.status = 0 →
      AddOpenbsd c real [(.query [b!"wg", b!"show", b!"interfaces"], q), (cmd [b!"ifconfig", real, b!"create", b!"description", b!"wg-quick: " ++ c.iface], r)]
  | again {q r n l} : FreeName q.out n → r.status ≠ 0 → Occurs b!"ifconfig: SIOCIFCREATE: File exists" (captured r.out) → AddOpenbsd c real l →
      AddOpenbsd c real ((.query [b!"wg", b!"show", b!"interfaces"], q) :: (cmd [b!"ifconfig", n, b!"create", b!"description", b!"wg-quick: " ++ c.iface], r) :: l)

/-- The interface is made; its name is `real`. -/
def AddStep (c : Cfg) (real : List UInt8) (l : List Ev) : Prop :=
  match c.plat with
  | .freebsd => real = c.iface ∧ AddFreebsd c l
  | .openbsd => AddOpenbsd c real l
  | .darwin => ∃ d u l', l = d :: u :: l' ∧ Did (cmd [b!"mkdir", b!"-p", b!"/var/run/wireguard/"]) d ∧
      Did (cmd [b!"WG_TUN_NAME_FILE=" ++ nameFileOf c, c.userspace, b!"utun"]) u ∧ NameLookup c (some real) l'

/-! ### Hooks, configuration, addresses -/

/-- `s` with every `pat` (scanning from the left) replaced by `x`. -/
inductive ReplacedAll (pat x : List UInt8) : List UInt8 → List UInt8 → Prop
  | nil : ReplacedAll pat x [] []
  | name {s t} : ReplacedAll pat x s t → ReplacedAll pat x (pat ++ s) (x ++ t)
  | other {b s t} : ¬ (∃ r, b :: s = pat ++ r) → ReplacedAll pat x s t → ReplacedAll pat x (b :: s) (b :: t)

/-- `%i` is the name of the interface; where that differs from the configured one, the latter is `%I`. -/
def HookFor (c : Cfg) (real h t : List UInt8) : Prop :=
  if c.plat = .freebsd then ReplacedAll b!"%i" c.iface h t else ∃ u, ReplacedAll b!"%i" real h u ∧ ReplacedAll b!"%I" c.iface u t

/-- Hooks, run in order, all successful. -/
def HooksDone (c : Cfg) (real : List UInt8) (hooks : List (List UInt8)) (l : List Ev) : Prop :=
  List.Forall₂ (fun h e => ∃ t, HookFor c real h t ∧ Did (.hook t) e) hooks l

/-- The configuration is loaded. -/
def ConfStep (c : Cfg) (real : List UInt8) (e : Ev) : Prop :=
  Did (.act ([b!"wg", b!"setconf", real] ++ (if c.plat = .freebsd then [b!"/dev/stdin"] else [])) (c.opts.wgConfig ++ b!"\n")) e

/-- An address is assigned; on macOS an IPv4 address is its own peer. -/
def AddrStep (c : Cfg) (real a : List UInt8) (e : Ev) : Prop :=
  if c!":" ∈ a then Did (cmd [b!"ifconfig", real, b!"inet6", a, b!"alias"]) e
  else if c.plat = .darwin then ∃ p, Before c!"/" a p ∧ Did (cmd [b!"ifconfig", real, b!"inet", a, p, b!"alias"]) e
  else Did (cmd [b!"ifconfig", real, b!"inet", a, b!"alias"]) e

/-! ### MTU -/

/-- `interface: NAME` at the end of a line that is followed by a line feed. -/
def IfShown (s g : List UInt8) : Prop :=
  ∃ a b, s = a ++ b!"interface: " ++ g ++ 10 :: b ∧ g ≠ [] ∧ (32 : UInt8) ∉ g ∧ (∀ x y, b = x ++ 10 :: y → (32 : UInt8) ∈ x) ∧
    ∀ a' g' b', s = a' ++ b!"interface: " ++ g' ++ 10 :: b' → g' ≠ [] → (32 : UInt8) ∉ g' → a.length ≤ a'.length

/-- The MTU of the interface that a route goes through. -/
inductive ThroughMtu (output : List UInt8) : Option Nat → List Ev → Prop
  | found {i r n} : IfShown output i → MtuIn (captured r.out) n → ThroughMtu output (some n) [(.query [b!"ifconfig", i], r)]
  | noMtu {i r} : IfShown output i → (∀ n, ¬ MtuIn (captured r.out) n) → ThroughMtu output none [(.query [b!"ifconfig", i], r)]
  | noIf : (∀ i, ¬ IfShown output i) → ThroughMtu output none []

def famFlag (a : List UInt8) : List UInt8 := if c!":" ∈ a then b!"-inet6" else b!"-inet"

/-- The MTUs of the interfaces towards the endpoints. -/
inductive HostMtus : List (List UInt8) → List Nat → List Ev → Prop
  | nil : HostMtus [] [] []
  | look {h r m l1 hs ms l2} : ThroughMtu (captured r.out) m l1 → HostMtus hs ms l2 →
      HostMtus (h :: hs) (m.toList ++ ms) ((.query [b!"route", b!"-n", b!"get", famFlag h, h], r) :: (l1 ++ l2))

/-- FreeBSD, OpenBSD: the largest of the MTUs of the interfaces towards the endpoints; without any 1500 (the default route is asked for,
but the answer has no influence). -/
def BasePath (real : List UInt8) (base : Nat) (l : List Ev) : Prop :=
  ∃ r hosts ms l1 l2, l = (endpointsOf real, r) :: (l1 ++ l2) ∧ HostsShown r.out hosts ∧ HostMtus hosts ms l1 ∧
    ((base ≠ 0 ∧ base ∈ ms ∧ (∀ m ∈ ms, m ≤ base) ∧ l2 = []) ∨
     ((∀ m ∈ ms, m = 0) ∧ base = 1500 ∧ ∃ d, l2 = [(.query [b!"route", b!"-n", b!"get", b!"default"], d)]))

/-- macOS: the interface of the first default route in the IPv4 routing table, if any. -/
def DefaultIf (out i : List UInt8) : Prop :=
  ∃ lines, EndedLines out lines ∧
    let IsDefault := fun (l i : List UInt8) => ∃ ws, Words blankSep l ws ∧ ws.head? = some b!"default" ∧ i = (ws[5]?).getD []
    ((∃ a l b, lines = a ++ l :: b ∧ (∀ x ∈ a, ∀ i, ¬ IsDefault x i) ∧ IsDefault l i) ∨ ((∀ x ∈ lines, ∀ i, ¬ IsDefault x i) ∧ i = []))

/-- `n` is the MTU shown, or `d` if none is. -/
def MtuOr (out : List UInt8) (d n : Int) : Prop := (∃ k, MtuIn (captured out) k ∧ n = k) ∨ ((∀ k, ¬ MtuIn (captured out) k) ∧ n = d)

/-- Decimal text of an integer. -/
def intText (i : Int) : List UInt8 := if i < 0 then b!"-" ++ showDec i.natAbs else showDec i.natAbs

/-- macOS: that of the interface of the default route; without any 1500. It is set unless the interface has it already. -/
def MtuDarwin (real : List UInt8) (l : List Ev) : Prop :=
  ∃ r i l1 base o cur l2, l = (netstatOf .v4, r) :: (l1 ++ (.query [b!"ifconfig", real], o) :: l2) ∧ DefaultIf r.out i ∧
    ((i = [] ∧ l1 = [] ∧ base = (1500 : Int)) ∨
     (i ≠ [] ∧ ∃ q n, l1 = [(.query [b!"ifconfig", i], q)] ∧ MtuOr q.out 0 n ∧ base = if n = 0 then 1500 else n)) ∧
    MtuOr o.out (-1) cur ∧
    if base - 80 = cur then l2 = [] else ∃ e, Did (cmd [b!"ifconfig", real, b!"mtu", intText (base - 80)]) e ∧ l2 = [e]

/-- The MTU is set: as configured, or 80 less than that of the path. -/
def MtuSet (c : Cfg) (real : List UInt8) (l : List Ev) : Prop :=
  if c.opts.mtu ≠ [] then ∃ e, Did (cmd [b!"ifconfig", real, b!"mtu", c.opts.mtu]) e ∧ l = [e]
  else if c.plat = .darwin then MtuDarwin real l
  else ∃ base l' e, BasePath real base l' ∧ Did (cmd [b!"ifconfig", real, b!"mtu", diffText base 80]) e ∧ l = l' ++ [e]

/-! ### DNS -/

/-- OpenBSD: only if `unwind` or `resolvd` is running. -/
def ResolverRuns (b : Bool) (l : List Ev) : Prop :=
  (∃ u, u.status = 0 ∧ b = true ∧ l = [(.query [b!"pgrep", b!"-qx", b!"unwind"], u)]) ∨
  (∃ u r, u.status ≠ 0 ∧ b = decide (r.status = 0) ∧ l = [(.query [b!"pgrep", b!"-qx", b!"unwind"], u), (.query [b!"pgrep", b!"-qx", b!"resolvd"], r)])

/-- The name servers and search domains before the routes (FreeBSD, OpenBSD). -/
def DnsSet (c : Cfg) (real : List UInt8) (l : List Ev) : Prop :=
  if c.opts.dns = [] then l = []
  else match c.plat with
  | .freebsd => ∃ e, Did (.act [b!"resolvconf", b!"-a", c.iface, b!"-x"] (resolvLines c.opts)) e ∧ l = [e]
  | .openbsd => ∃ b l1 l2, ResolverRuns b l1 ∧ l = l1 ++ l2 ∧
      if b then ∃ cp ls ns, Did (cmd [b!"cp", b!"/etc/resolv.conf", b!"/etc/resolv.conf.wg-quick-backup." ++ c.iface]) cp ∧
        (if c.opts.dnsSearch = [] then ls = []
         else ∃ e, Did (.act [b!"write", b!"/etc/resolv.conf"] (b!"search " ++ List.intercalate b!" " c.opts.dnsSearch ++ b!"\n")) e ∧ ls = [e]) ∧
        Did (cmd ([b!"route", b!"nameserver", real] ++ c.opts.dns)) ns ∧ l2 = cp :: (ls ++ [ns])
      else l2 = []
  | .darwin => l = []

/-! ### Routes -/

/-- What is before the last slash of `x`. -/
def AddrPart (x a : List UInt8) : Prop := (∃ n, x = a ++ c!"/" :: n ∧ c!"/" ∉ n) ∨ (c!"/" ∉ x ∧ a = x)

/-- OpenBSD: the first configured address of the family, without its length (something like `/24` alone is no address). -/
def FirstAddr (o : Opts) (v6 : Prop) (a : List UInt8) : Prop :=
  ∃ pre x post, o.addresses = pre ++ x :: post ∧ ((c!":" ∈ x) ↔ v6) ∧ (∀ y ∈ pre, ((c!":" ∈ y) ↔ v6) → AddrPart y []) ∧ AddrPart x a ∧ a ≠ []

/-- How a route to an allowed IP goes. -/
def ViaIf (c : Cfg) (real r : List UInt8) (via : Via) : Prop :=
  if c.plat = .openbsd then ∃ a, FirstAddr c.opts (c!":" ∈ r) a ∧ via = [b!"-iface", a] else via = [b!"-interface", real]

/-- A default route, in two halves. -/
def HalvesDone (r : List UInt8) (via : Via) (l : List Ev) : Prop :=
  ∃ e1 e2, l = [e1, e2] ∧
    if c!":" ∈ r then Did (addCmd b!"-inet6" b!"::/1" via) e1 ∧ Did (addCmd b!"-inet6" b!"8000::/1" via) e2
    else Did (addCmd b!"-inet" b!"0.0.0.0/1" via) e1 ∧ Did (addCmd b!"-inet" b!"128.0.0.0/1" via) e2

/-- Another network, unless its route goes through the interface already (the name is compared as a regular expression; no statement is
made for names with `.` or `+`). -/
def NetDone (real r : List UInt8) (via : Via) (l : List Ev) : Prop :=
  ∃ q l', l = (.query [b!"route", b!"-n", b!"get", famFlag r, r], q) :: l' ∧
    (l' = [] ∨ ∃ e, Did (addCmd (famFlag r) r via) e ∧ l' = [e]) ∧
    (c!"." ∉ real → c!"+" ∉ real → (l' = [] ↔ Occurs (b!"interface: " ++ real ++ b!"\n") (captured q.out)))

/-- What is done for one allowed IP. -/
def RouteDone (c : Cfg) (real r : List UInt8) (l : List Ev) : Prop :=
  if c.opts.table = b!"off" then l = []
  else ∃ via, ViaIf c real r via ∧
    if c.opts.table = [] ∨ c.opts.table = b!"auto" then (if b!"/0" <:+ r then HalvesDone r via l else NetDone real r via l)
    else match c.plat with
    | .freebsd => ∃ e, Did (cmd ([b!"route", b!"-q", b!"-n", b!"add", famFlag r, b!"-fib", c.opts.table, r] ++ via)) e ∧ l = [e]
    | .openbsd => ∃ e, Did (cmd ([b!"route", b!"-q", b!"-n", b!"-T", c.opts.table, b!"add", famFlag r, r] ++ via)) e ∧ l = [e]
    | .darwin => c.opts.table = b!"main" ∧ NetDone real r via l

/-- The routes to the endpoints (see RouteRight): questions, and routes to hosts that are deleted or added, if there is a default route. -/
def DirectDone (c : Cfg) (real allowed : List UInt8) (l : List Ev) : Prop :=
  ((DefaultWanted c .v4 allowed ∨ DefaultWanted c .v6 allowed) ∧
    ∃ r4 r6 re hosts l', HostsShown re.out hosts ∧ l = (netstatOf .v4, r4) :: (netstatOf .v6, r6) :: (endpointsOf real, re) :: l' ∧
      ∀ e ∈ l', ∃ fam, ∃ d ∈ hosts, e.1 = deleteCmd fam d ∨ ∃ via, e.1 = addCmd fam d via) ∨
  (¬ (DefaultWanted c .v4 allowed ∨ DefaultWanted c .v6 allowed) ∧ l = [])

/-- macOS: the DNS settings of the network services are changed after the routes. -/
def DnsLate (c : Cfg) (l : List Ev) : Prop :=
  if c.plat = .darwin ∧ c.opts.dns ≠ [] then ∃ m, DnsChanged c ⟨fun _ => [], fun _ => []⟩ m l else l = []

/-! ### All of `up` -/

/-- The steps of a successful `up`, in order. -/
def UpDone (c : Cfg) (dir real : List UInt8) (h : List Ev) : Prop :=
  ∃ ltemp lcheck ladd lpre conf laddrs lmtu up ldns q routes lroutes ldirect llate mon lpost,
    h = ltemp ++ (lcheck ++ (ladd ++ (lpre ++ conf :: (laddrs ++ (lmtu ++ up :: (ldns ++ (allowedOf real, q) :: (lroutes ++ (ldirect ++ (llate ++ mon :: lpost)))))))) ) ∧
    TempStep c dir ltemp ∧ CheckStep c lcheck ∧ AddStep c real ladd ∧ HooksDone c real c.opts.preUp lpre ∧ ConfStep c real conf ∧
    List.Forall₂ (AddrStep c real) c.opts.addresses laddrs ∧ MtuSet c real lmtu ∧ Did (cmd [b!"ifconfig", real, b!"up"]) up ∧ DnsSet c real ldns ∧
    RoutesShown q.out routes ∧ (∃ ls, List.Forall₂ (RouteDone c real) (c.sort routes) ls ∧ lroutes = ls.flatten) ∧ DirectDone c real q.out ldirect ∧
    DnsLate c llate ∧ Did (cmd [b!"monitor_daemon", b!"&"]) mon ∧ HooksDone c real c.opts.postUp lpost

end WG.Spec.Bsd
