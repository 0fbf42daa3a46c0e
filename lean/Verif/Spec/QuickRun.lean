import Verif.Model.QuickRun
import Verif.Spec.QuickText
import Mathlib.Data.List.Forall2
import Mathlib.Data.Set.Basic
/-!
What wg-quick is documented to do, in terms of the commands it runs. A history is a list of calls with the environment's replies;
`acts` keeps those made for their effect.
-/
namespace WG.Spec.Quick
open WG.Quick (Call Reply Ev Cfg Opts)

def isAct : Call → Bool
  | .query _ => false
  | _ => true

/-- The calls made for their effect, in order. -/
def acts (h : List Ev) : List Call := (h.map (·.1)).filter isAct

/-- A command without standard input. -/
def cmd (argv : List (List UInt8)) : Call := .act argv []

/-- The first step of `up`: the kernel interface, or after a failure of that the userspace implementation. -/
def AddActs (c : Cfg) (l : List Call) : Prop :=
  l = [cmd [b!"ip", b!"link", b!"add", c.iface, b!"type", b!"wireguard"]] ∨
  l = [cmd [b!"ip", b!"link", b!"add", c.iface, b!"type", b!"wireguard"], cmd [c.userspace, c.iface]]

/-- The interface was added: by the kernel, or by the userspace implementation when the kernel module is missing. -/
def Added (c : Cfg) (l : List Ev) : Prop :=
  (∃ r, l = [(cmd [b!"ip", b!"link", b!"add", c.iface, b!"type", b!"wireguard"], r)] ∧ r.status = 0 ∧ r.sig = false) ∨
  (∃ r m u a, l = [(cmd [b!"ip", b!"link", b!"add", c.iface, b!"type", b!"wireguard"], r),
      (.query [b!"test", b!"-e", b!"/sys/module/wireguard"], m), (.query [b!"command", b!"-v", c.userspace], u),
      (cmd [c.userspace, c.iface], a)] ∧
    r.status ≠ 0 ∧ m.status ≠ 0 ∧ u.status = 0 ∧ a.status = 0 ∧ r.sig = false ∧ m.sig = false ∧ u.sig = false ∧ a.sig = false)

/-- `s` with every `%i` (scanning from the left) replaced by the interface name. -/
inductive HookText (iface : List UInt8) : List UInt8 → List UInt8 → Prop
  | nil : HookText iface [] []
  | name {s t} : HookText iface s t → HookText iface (b!"%i" ++ s) (iface ++ t)
  | other {x s t} : ¬ (∃ r, x :: s = b!"%i" ++ r) → HookText iface s t → HookText iface (x :: s) (x :: t)

/-- The hooks, run in order. -/
def HookActs (c : Cfg) (hooks : List (List UInt8)) (l : List Call) : Prop :=
  List.Forall₂ (fun h a => ∃ t, a = .hook t ∧ HookText c.iface h t) hooks l

/-- An address or route with a colon is IPv6. -/
def family (a : List UInt8) : List UInt8 := if c!":" ∈ a then b!"-6" else b!"-4"

/-- Assigning an address. -/
def addrAct (c : Cfg) (a : List UInt8) : Call := cmd [b!"ip", family a, b!"address", b!"add", a, b!"dev", c.iface]

/-- Setting the MTU and bringing the interface up. -/
def upAct (c : Cfg) (mtu : List UInt8) : Call := cmd [b!"ip", b!"link", b!"set", b!"mtu", mtu, b!"up", b!"dev", c.iface]

/-- The resolv.conf lines for the configured servers and search domains. -/
def resolvLines (o : Opts) : List UInt8 :=
  o.dns.flatMap (fun d => b!"nameserver " ++ d ++ b!"\n") ++
  (if o.dnsSearch = [] then [] else b!"search " ++ List.intercalate b!" " o.dnsSearch ++ b!"\n")

/-- The prefix for the interface's name that resolvconf's order file asks for, and how it is found. -/
def PrefixShown (pre : List UInt8) (l : List Ev) : Prop :=
  (∃ t, t.status ≠ 0 ∧ pre = [] ∧ l = [(.query [b!"test", b!"-f", b!"/etc/resolvconf/interface-order"], t)]) ∨
  (∃ t r lines ps, t.status = 0 ∧ l = [(.query [b!"test", b!"-f", b!"/etc/resolvconf/interface-order"], t),
      (.query [b!"cat", b!"/etc/resolvconf/interface-order"], r)] ∧ EndedLines r.out lines ∧ Collected OrderLine lines ps ∧
    pre = match ps.head? with | some p => p ++ b!"." | none => [])

/-- Telling resolvconf about the servers, under the interface's name with the prefix. -/
def DnsStep (c : Cfg) (l : List Ev) : Prop :=
  if c.opts.dns = [] then l = []
  else ∃ pre l' r, PrefixShown pre l' ∧
    l = l' ++ [(.act [b!"resolvconf", b!"-a", pre ++ c.iface, b!"-m", b!"0", b!"-x"] (resolvLines c.opts), r)]

/-! ### MTU -/

/-- The MTU in the output of `ip route`, or else that of the link it names. -/
inductive MtuOf (output : List UInt8) : Option Nat → List Ev → Prop
  | route {n} : MtuIn output n → MtuOf output (some n) []
  | link {dev r n} : (∀ n, ¬ MtuIn output n) → DevIn output dev → MtuIn (captured r.out) n →
      MtuOf output (some n) [(.query [b!"ip", b!"link", b!"show", b!"dev", dev], r)]
  | linkNone {dev r} : (∀ n, ¬ MtuIn output n) → DevIn output dev → (∀ n, ¬ MtuIn (captured r.out) n) →
      MtuOf output none [(.query [b!"ip", b!"link", b!"show", b!"dev", dev], r)]
  | none : (∀ n, ¬ MtuIn output n) → (∀ d, ¬ DevIn output d) → MtuOf output none []

/-- The MTUs of the routes to the endpoints. -/
inductive EndpointMtus : List (List UInt8) → List Nat → List Ev → Prop
  | nil : EndpointMtus [] [] []
  | skip {e es ms l} : (∀ h, ¬ EndpointHost e h) → EndpointMtus es ms l → EndpointMtus (e :: es) ms l
  | look {e h r m l1 es ms l2} : EndpointHost e h → MtuOf (captured r.out) m l1 → EndpointMtus es ms l2 →
      EndpointMtus (e :: es) (m.toList ++ ms) ((.query [b!"ip", b!"route", b!"get", h], r) :: (l1 ++ l2))

/-- The MTU of the path: the largest of those of the routes to the endpoints; without any that of the default route; without that
1500. -/
def PathMtu (c : Cfg) (base : Nat) (l : List Ev) : Prop :=
  ∃ r eps ms le ld, l = (.query [b!"wg", b!"show", c.iface, b!"endpoints"], r) :: (le ++ ld) ∧ Remainders r.out eps ∧ EndpointMtus eps ms le ∧
    ((base ≠ 0 ∧ base ∈ ms ∧ (∀ m ∈ ms, m ≤ base) ∧ ld = []) ∨
     ((∀ m ∈ ms, m = 0) ∧ ∃ r' line m l', FirstLine r'.out line ∧ MtuOf line m l' ∧
        ld = (.query [b!"ip", b!"route", b!"show", b!"default"], r') :: l' ∧ base = if m.getD 0 = 0 then 1500 else m.getD 0))

/-- Decimal text of a difference. -/
def diffText (a b : Nat) : List UInt8 := if a < b then b!"-" ++ showDec (b - a) else showDec (a - b)

/-- The interface is brought up with the configured MTU, or with 80 bytes less than the path has. -/
def MtuStep (c : Cfg) (l : List Ev) : Prop :=
  if c.opts.mtu ≠ [] then ∃ r, l = [(upAct c c.opts.mtu, r)]
  else ∃ base l' r, PathMtu c base l' ∧ l = l' ++ [(upAct c (diffText base 80), r)]

/-! ### Routes -/

/-- `n` is the first table number from `m` on for which no routes of either family are shown. -/
inductive FreeTable : Nat → Nat → List Ev → Prop
  | free {m r4 r6} : captured r4.out = [] → captured r6.out = [] →
      FreeTable m m [(.query [b!"ip", b!"-4", b!"route", b!"show", b!"table", showDec m], r4),
        (.query [b!"ip", b!"-6", b!"route", b!"show", b!"table", showDec m], r6)]
  | used4 {m n r4 l} : captured r4.out ≠ [] → FreeTable (m + 1) n l →
      FreeTable m n ((.query [b!"ip", b!"-4", b!"route", b!"show", b!"table", showDec m], r4) :: l)
  | used6 {m n r4 r6 l} : captured r4.out = [] → captured r6.out ≠ [] → FreeTable (m + 1) n l →
      FreeTable m n ((.query [b!"ip", b!"-4", b!"route", b!"show", b!"table", showDec m], r4) ::
        (.query [b!"ip", b!"-6", b!"route", b!"show", b!"table", showDec m], r6) :: l)

/-- The interface has a firewall mark: `wg show` succeeded and printed something other than `off`. -/
def Marked (m : Reply) : Prop := m.status = 0 ∧ captured m.out ≠ [] ∧ captured m.out ≠ b!"off"

/-- `t` is the mark in decimal (given that the mark is shown as `0x` and hexadecimal digits). -/
def MarkText (m : Reply) (t : List UInt8) : Prop := ∀ h n, captured m.out = b!"0x" ++ h → IsHexNum h n → t = showDec n

/-- The table for default routes, which is also the mark: the interface's mark, or else a free table from 51820 on, which is then
made the mark. -/
def MarkStep (c : Cfg) (t : List UInt8) (l : List Ev) : Prop :=
  ∃ m, (Marked m ∧ MarkText m t ∧ l = [(.query [b!"wg", b!"show", c.iface, b!"fwmark"], m)]) ∨
    (¬ Marked m ∧ ∃ n lf r, FreeTable 51820 n lf ∧ t = showDec n ∧
      l = (.query [b!"wg", b!"show", c.iface, b!"fwmark"], m) :: (lf ++ [(cmd [b!"wg", b!"set", c.iface, b!"fwmark", t], r)]))

/-- The comment on the iptables rules of this interface. -/
def ruleComment (c : Cfg) : List UInt8 := b!"-m comment --comment \"wg-quick(8) rule for " ++ c.iface ++ b!"\""

def unlines (ls : List (List UInt8)) : List UInt8 := ls.flatMap (· ++ b!"\n")

/-- The iptables rules: packets to the interface's addresses that come in elsewhere and not from this host are dropped; the mark is
kept in the connection for outgoing encrypted packets and restored for incoming ones. -/
def iptRules (c : Cfg) (t : List UInt8) (addrs : List (List UInt8)) : List (List UInt8) :=
  [b!"*raw"] ++
  addrs.map (fun a => b!"-I PREROUTING ! -i " ++ c.iface ++ b!" -d " ++ a ++ b!" -m addrtype ! --src-type LOCAL -j DROP " ++ ruleComment c) ++
  [b!"COMMIT", b!"*mangle", b!"-I POSTROUTING -m mark --mark " ++ t ++ b!" -p udp -j CONNMARK --save-mark " ++ ruleComment c,
    b!"-I PREROUTING -p udp -j CONNMARK --restore-mark " ++ ruleComment c, b!"COMMIT"]

/-- The same with nftables, in a table of its own; `pf` is `ip` or `ip6`. -/
def nftRules (c : Cfg) (pf t : List UInt8) (addrs : List (List UInt8)) : List (List UInt8) :=
  let table := pf ++ b!" wg-quick-" ++ c.iface
  [b!"add table " ++ table,
    b!"add chain " ++ table ++ b!" preraw { type filter hook prerouting priority -300; }",
    b!"add chain " ++ table ++ b!" premangle { type filter hook prerouting priority -150; }",
    b!"add chain " ++ table ++ b!" postmangle { type filter hook postrouting priority -150; }"] ++
  addrs.map (fun a => b!"add rule " ++ table ++ b!" preraw iifname != \"" ++ c.iface ++ b!"\" " ++ pf ++ b!" daddr " ++ a ++
    b!" fib saddr type != local drop") ++
  [b!"add rule " ++ table ++ b!" postmangle meta l4proto udp mark " ++ t ++ b!" ct mark set mark ",
    b!"add rule " ++ table ++ b!" premangle meta l4proto udp meta mark set ct mark "]

/-- Installing the firewall rules, with nftables if it is there. -/
def FirewallStep (c : Cfg) (r t : List UInt8) (addrs : List (List UInt8)) (l : List Ev) : Prop :=
  ∃ n d, l = [(.query [b!"type", b!"-p", b!"nft"], n),
    (if n.status = 0 then .act [b!"nft", b!"-f"] (unlines (nftRules c (if c!":" ∈ r then b!"ip6" else b!"ip") t addrs))
     else .act [if c!":" ∈ r then b!"ip6tables-restore" else b!"iptables-restore", b!"-n"] (unlines (iptRules c t addrs)), d)]

/-- A default route: its own table selected for all packets without the firewall mark, other routes of the main table taking
precedence, and firewall rules for the interface's addresses of that family. -/
def DefaultStep (c : Cfg) (r : List UInt8) (l : List Ev) : Prop :=
  ∃ t lm r1 r2 r3 a addrs ls lf, MarkStep c t lm ∧ InetAddrs a.out addrs ∧ FirewallStep c r t addrs lf ∧
    (if c!":" ∈ r then ls = [] else ∃ d, ls = [(cmd [b!"sysctl", b!"-q", b!"net.ipv4.conf.all.src_valid_mark=1"], d)]) ∧
    l = lm ++
      ([(cmd [b!"ip", family r, b!"rule", b!"add", b!"not", b!"fwmark", t, b!"table", t], r1),
        (cmd [b!"ip", family r, b!"rule", b!"add", b!"table", b!"main", b!"suppress_prefixlength", b!"0"], r2),
        (cmd [b!"ip", family r, b!"route", b!"add", r, b!"dev", c.iface, b!"table", t], r3),
        (.query [b!"ip", b!"-o", family r, b!"addr", b!"show", b!"dev", c.iface], a)] ++ (ls ++ lf))

/-- What is done for one route, by the `Table` setting: nothing with `off`; with a table of its own it is added there; otherwise a
network of prefix length 0 is a default route, and another is added to the main table unless a route for it is shown already. -/
def RouteStep (c : Cfg) (r : List UInt8) (l : List Ev) : Prop :=
  if c.opts.table = b!"off" then l = []
  else if c.opts.table ≠ [] ∧ c.opts.table ≠ b!"auto" then
    ∃ d, l = [(cmd [b!"ip", family r, b!"route", b!"add", r, b!"dev", c.iface, b!"table", c.opts.table], d)]
  else if b!"/0" <:+ r then DefaultStep c r l
  else ∃ q, if captured q.out ≠ [] then l = [(.query [b!"ip", family r, b!"route", b!"show", b!"dev", c.iface, b!"match", r], q)]
    else ∃ d, l = [(.query [b!"ip", family r, b!"route", b!"show", b!"dev", c.iface, b!"match", r], q),
      (cmd [b!"ip", family r, b!"route", b!"add", r, b!"dev", c.iface], d)]

/-- The prefix length of a network `address/length`. -/
def prefixLen (r : List UInt8) : Nat := decVal ((r.dropWhile (· ≠ c!"/")).drop 1)

/-- `sort -nr -k 2 -t /`: longest prefixes first. -/
def LongestFirst (sort : List (List UInt8) → List (List UInt8)) : Prop :=
  ∀ l, (sort l).Perm l ∧ (sort l).Pairwise fun a b => prefixLen b ≤ prefixLen a

/-- Commands that change routes, routing rules, kernel settings or the firewall. -/
def isRouting : Call → Bool
  | .act (p :: _ :: x :: _) _ => (p == b!"ip" && (x == b!"route" || x == b!"rule")) || p == b!"sysctl"
  | .act (p :: _) _ => p == b!"nft" || p == b!"iptables-restore" || p == b!"ip6tables-restore"
  | _ => false

/-- The mark the interface has after a history, if it had `m` before and only `wg set IFACE fwmark` changes it. -/
inductive MarkAfter (c : Cfg) : Option Nat → List Ev → Option Nat → Prop
  | nil {m} : MarkAfter c m [] m
  | set {m n r h m'} : r.status = 0 → MarkAfter c (some n) h m' →
      MarkAfter c m ((cmd [b!"wg", b!"set", c.iface, b!"fwmark", showDec n], r) :: h) m'
  | other {m e h m'} : (∀ t, e.1 ≠ cmd [b!"wg", b!"set", c.iface, b!"fwmark", t]) → MarkAfter c m h m' → MarkAfter c m (e :: h) m'

/-- The answer to `wg show IFACE fwmark` for the mark `m`. -/
def ShowsMark (m : Option Nat) (r : Reply) : Prop :=
  match m with
  | none => ¬ Marked r
  | some n => r.status = 0 ∧ ∃ h, captured r.out = b!"0x" ++ h ∧ IsHexNum h n

/-- In the history `wg` answers according to the mark the interface has, which is `m` at the beginning. -/
def MarkKept (c : Cfg) (m : Option Nat) (h : List Ev) : Prop :=
  ∀ a b r m', h = a ++ (.query [b!"wg", b!"show", c.iface, b!"fwmark"], r) :: b → MarkAfter c m a m' → ShowsMark m' r

/-- Hooks, run in order. -/
def HookSteps (c : Cfg) (hooks : List (List UInt8)) (l : List Ev) : Prop :=
  List.Forall₂ (fun h (e : Ev) => ∃ t, e.1 = .hook t ∧ HookText c.iface h t) hooks l

/-- The steps of `up` once there is an interface, in order: PreUp hooks, configuration, addresses in file order, MTU, DNS, routes
for the allowed IPs that `wg` then reports (as sorted), PostUp hooks. -/
def RestSteps (c : Cfg) (h : List Ev) : Prop :=
  ∃ hpre rset haddrs hmtu hdns q routes hroutes hpost,
    h = hpre ++ (.act [b!"wg", b!"setconf", c.iface] (c.opts.wgConfig ++ b!"\n"), rset) ::
      (haddrs ++ (hmtu ++ (hdns ++ (.query [b!"wg", b!"show", c.iface, b!"allowed-ips"], q) :: (hroutes ++ hpost)))) ∧
    HookSteps c c.opts.preUp hpre ∧
    List.Forall₂ (fun a (e : Ev) => e.1 = addrAct c a) c.opts.addresses haddrs ∧
    MtuStep c hmtu ∧ DnsStep c hdns ∧
    RoutesShown q.out routes ∧ (∃ ls, List.Forall₂ (RouteStep c) (c.sort routes) ls ∧ hroutes = ls.flatten) ∧
    HookSteps c c.opts.postUp hpost

/-- All steps of `up`: the interface is added, then the rest. -/
def UpSteps (c : Cfg) (h : List Ev) : Prop := ∃ h1 h2, AddActs c (acts h1) ∧ RestSteps c h2 ∧ h = h1 ++ h2

/-- Deleting the interface. -/
def deleteAct (c : Cfg) : Call := cmd [b!"ip", b!"link", b!"delete", b!"dev", c.iface]

/-- The other commands of the cleanup: undoing DNS, firewall and rules. -/
def IsUndo (c : Cfg) (a : Call) : Prop :=
  (∃ pre, a = cmd [b!"resolvconf", b!"-d", pre ++ c.iface, b!"-f"]) ∨
  (∃ text, a = .act [b!"nft", b!"-f"] text) ∨
  (∃ text, a = .act [b!"iptables-restore", b!"-n"] text) ∨
  (∃ text, a = .act [b!"ip6tables-restore", b!"-n"] text) ∨
  (∃ fam t, a = cmd [b!"ip", fam, b!"rule", b!"delete", b!"table", t]) ∨
  (∃ fam, a = cmd [b!"ip", fam, b!"rule", b!"delete", b!"table", b!"main", b!"suppress_prefixlength", b!"0"])

/-! ### Undoing -/

/-- The nftables tables of this interface among the lines of `nft list tables` (`table FAMILY NAME`): those whose name is
`wg-quick-` and the interface's. -/
def ownTables (c : Cfg) (lines : List (List UInt8)) : List (List UInt8) := lines.filter fun t => decide (b!" wg-quick-" ++ c.iface <:+ t)

/-- If nft is there, exactly the tables of this interface are deleted. -/
def NftRemoval (c : Cfg) (l : List Ev) : Prop :=
  (∃ t, t.status ≠ 0 ∧ l = [(.query [b!"type", b!"-p", b!"nft"], t)]) ∨
  (∃ t r lines, t.status = 0 ∧ EndedLines r.out lines ∧ ownTables c lines = [] ∧
    l = [(.query [b!"type", b!"-p", b!"nft"], t), (.query [b!"nft", b!"list", b!"tables"], r)]) ∨
  (∃ t r d lines, t.status = 0 ∧ EndedLines r.out lines ∧ ownTables c lines ≠ [] ∧
    l = [(.query [b!"type", b!"-p", b!"nft"], t), (.query [b!"nft", b!"list", b!"tables"], r),
      (.act [b!"nft", b!"-f"] ((ownTables c lines).flatMap fun t => b!"delete " ++ t ++ b!"\n"), d)])

/-- A rule of this interface, as iptables-save shows it: `-A ` and the rest, with the comment. -/
def OwnRule (c : Cfg) (l : List UInt8) : Prop := ∃ a b, l = b!"-A " ++ (a ++ ruleComment c ++ b)

/-- The headers and ends of tables. -/
def TableLine (l : List UInt8) : Prop := (∃ t, l = b!"*" ++ t) ∨ l = b!"COMMIT"

/-- What is fed back to iptables-restore: own rules with `-D`, headers and ends of tables; everything else dropped. -/
inductive UndoLines (c : Cfg) : List (List UInt8) → List (List UInt8) → Prop
  | nil : UndoLines c [] []
  | table {l ls us} : TableLine l → UndoLines c ls us → UndoLines c (l :: ls) (l :: us)
  | rule {r ls us} : OwnRule c (b!"-A" ++ r) → UndoLines c ls us → UndoLines c ((b!"-A" ++ r) :: ls) ((b!"-D" ++ r) :: us)
  | other {l ls us} : ¬ TableLine l → ¬ OwnRule c l → UndoLines c ls us → UndoLines c (l :: ls) us

/-- If there are own rules they are deleted, and nothing else. -/
def IptRemoval (c : Cfg) (ipt : List UInt8) (l : List Ev) : Prop :=
  (∃ r lines, EndedLines r.out lines ∧ (∀ x ∈ lines, ¬ OwnRule c x) ∧ l = [(.query [ipt ++ b!"-save"], r)]) ∨
  (∃ r lines d us, EndedLines r.out lines ∧ (∃ x ∈ lines, OwnRule c x) ∧ UndoLines c lines us ∧
    l = [(.query [ipt ++ b!"-save"], r), (.act [ipt ++ b!"-restore", b!"-n"] (us.flatMap fun u => u ++ b!"\n"), d)])

/-- Removing the firewall rules of this interface. -/
def FwRemoval (c : Cfg) (l : List Ev) : Prop :=
  ∃ l1 t l2, l = l1 ++ (.query [b!"type", b!"-p", b!"iptables"], t) :: l2 ∧ NftRemoval c l1 ∧
    if t.status = 0 then ∃ l4 l6, IptRemoval c b!"iptables" l4 ∧ IptRemoval c b!"ip6tables" l6 ∧ l2 = l4 ++ l6 else l2 = []

/-- Telling resolvconf to forget the interface. -/
def DnsRemoval (c : Cfg) (l : List Ev) : Prop :=
  if c.opts.dns = [] then l = [] else ∃ pre l' r, PrefixShown pre l' ∧ l = l' ++ [(cmd [b!"resolvconf", b!"-d", pre ++ c.iface, b!"-f"], r)]

/-- `pat` occurs in `s`. -/
def Occurs (pat s : List UInt8) : Prop := ∃ a b, s = a ++ pat ++ b

/-- Deleting routing rules until the listing has no `pat` left. -/
inductive RuleRemoval (fam pat : List UInt8) (args : List (List UInt8)) : List Ev → Prop
  | done {r} : ¬ Occurs pat (captured r.out) → RuleRemoval fam pat args [(.query [b!"ip", fam, b!"rule", b!"show"], r)]
  | again {r d l} : Occurs pat (captured r.out) → RuleRemoval fam pat args l →
      RuleRemoval fam pat args ((.query [b!"ip", fam, b!"rule", b!"show"], r) ::
        (cmd ([b!"ip", fam, b!"rule", b!"delete", b!"table"] ++ args), d) :: l)

/-- The rules of both families. -/
def RulesRemoval (t : List UInt8) (l : List Ev) : Prop :=
  ∃ l1 l2 l3 l4, l = l1 ++ (l2 ++ (l3 ++ l4)) ∧
    RuleRemoval b!"-4" (b!"lookup " ++ t) [t] l1 ∧
    RuleRemoval b!"-4" b!"from all lookup main suppress_prefixlength 0" [b!"main", b!"suppress_prefixlength", b!"0"] l2 ∧
    RuleRemoval b!"-6" (b!"lookup " ++ t) [t] l3 ∧
    RuleRemoval b!"-6" b!"from all lookup main suppress_prefixlength 0" [b!"main", b!"suppress_prefixlength", b!"0"] l4

/-- Some allowed IP ends in `/0`: `/0` followed by a blank, a line feed or the end. -/
def DefaultShown (s : List UInt8) : Prop := ∃ a b, s = a ++ b!"/0" ++ b ∧ (b = [] ∨ b.head? = some 32 ∨ b.head? = some 10)

/-- Undoing the default route (only when wg-quick chose the table itself): if the interface has a mark `t` and an allowed IP of
prefix length 0, the rules are removed. -/
def DefaultRemoval (c : Cfg) (l : List Ev) : Prop :=
  if c.opts.table = [] ∨ c.opts.table = b!"auto" then
    ∃ m l', l = (.query [b!"wg", b!"show", c.iface, b!"fwmark"], m) :: l' ∧
      ((¬ Marked m ∧ l' = []) ∨
       (Marked m ∧ ∃ q l'', l' = (.query [b!"wg", b!"show", c.iface, b!"allowed-ips"], q) :: l'' ∧
        ((¬ DefaultShown (captured q.out) ∧ l'' = []) ∨
         (DefaultShown (captured q.out) ∧ ∃ t, MarkText m t ∧ RulesRemoval t l''))))
  else l = []

/-- Everything done to take the interface down, given whether DNS and firewall were set up in this run: the last command deletes
the interface. -/
def Removal (c : Cfg) (dns fw : Bool) (l : List Ev) : Prop :=
  ∃ l1 l2 l3 d, l = l1 ++ (l2 ++ (l3 ++ [(deleteAct c, d)])) ∧
    (if dns then DnsRemoval c l1 else l1 = []) ∧ (if fw then FwRemoval c l2 else l2 = []) ∧ DefaultRemoval c l3

/-- The event is a successful, uninterrupted one. -/
def Succeeded (e : Ev) : Prop := e.2.status = 0 ∧ e.2.sig = false

/-- One run of the cleanup (`dns`, `fw` as for `Removal`): all of it, with every command successful, or up to the first command
that failed. -/
def CleanedUp (c : Cfg) (dns fw : Bool) (l : List Ev) : Prop :=
  (Removal c dns fw l ∧ ∀ e ∈ l, isAct e.1 = true → e.2.status = 0) ∨
  (∃ pre a r full, l = pre ++ [(a, r)] ∧ isAct a = true ∧ r.status ≠ 0 ∧ (∀ e ∈ pre, isAct e.1 = true → e.2.status = 0) ∧
    Removal c dns fw full ∧ acts l <+: acts full)

/-- Telling resolvconf about the interface. -/
def IsDnsAdd (c : Cfg) (a : Call) : Prop := ∃ pre text, a = .act [b!"resolvconf", b!"-a", pre ++ c.iface, b!"-m", b!"0", b!"-x"] text

/-- Feeding rules to the firewall. -/
def IsFwAdd (a : Call) : Prop := ∃ argv text, a = .act argv text ∧ text ≠ [] ∧
  (argv = [b!"nft", b!"-f"] ∨ argv = [b!"iptables-restore", b!"-n"] ∨ argv = [b!"ip6tables-restore", b!"-n"])

/-! ### Saving -/

/-- What is known of the two files: the contents with which the configuration file may be found if the program is killed or the
machine crashes now, the same for the temporary file, and what the temporary file holds as long as nothing crashes. -/
structure Disk where
  conf : Set (List UInt8)
  temp : Set (List UInt8)
  seen : Option (List UInt8)
  /-- What the configuration file holds as long as nothing crashes. -/
  holds : Option (List UInt8)

/-- The effect of one event on the files `f` (configuration) and `f.tmp`. A written file may have any contents after a crash until
it was synced; a write that did not return success may leave anything; renaming is atomic, but it may or may not have happened
when the command did not return or the machine crashes. Other commands and programs are assumed not to touch the two files. -/
def Disk.after (f : List UInt8) (d : Disk) (e : Ev) : Disk :=
  match e.1 with
  | .act argv text =>
    if argv = [b!"write", b!"077", f ++ b!".tmp"] then { d with temp := Set.univ, seen := if e.2.status = 0 then some text else none }
    else if argv = [b!"sync", f ++ b!".tmp"] then
      match d.seen with
      | some t => if e.2.status = 0 then { d with temp := {t} } else d
      | none => d
    else if argv = [b!"mv", f ++ b!".tmp", f] then
      { conf := d.conf ∪ d.temp, temp := Set.univ, seen := none, holds := if e.2.status = 0 then d.seen else d.holds }
    else if argv = [b!"rm", b!"-f", f ++ b!".tmp"] then { d with temp := Set.univ, seen := none }
    else d
  | _ => d

/-- The files after a history, starting with the configuration `old` and any temporary file. -/
def diskAfter (f old : List UInt8) (h : List Ev) : Disk := h.foldl (Disk.after f) { conf := {old}, temp := Set.univ, seen := none, holds := some old }

/-- The DNS listing `d` was obtained from resolvconf, or failing that (also) from its file. -/
def DnsShown (c : Cfg) (d : List UInt8) (h : List Ev) : Prop :=
  (∃ pre r, (.query [b!"resolvconf", b!"-l", pre ++ c.iface], r) ∈ h ∧ r.status = 0 ∧ d = r.out) ∨
  (∃ pre r pre' r', (.query [b!"resolvconf", b!"-l", pre ++ c.iface], r) ∈ h ∧ r.status ≠ 0 ∧
    (.query [b!"cat", b!"/etc/resolvconf/run/interface/" ++ pre' ++ c.iface], r') ∈ h ∧ d = r.out ++ r'.out)

/-- The line `nameserver A` of a resolv.conf listing. -/
def NameserverLine (line a : List UInt8) : Prop :=
  line = b!"nameserver " ++ a ∧ a ≠ [] ∧ ∀ c ∈ a, isAlpha c ∨ isDigit c ∨ c ∈ b!"_=+:%.-"

/-- The servers in a resolv.conf listing. -/
def DnsServers (out : List UInt8) (ns : List (List UInt8)) : Prop := ∃ lines, EndedLines out lines ∧ Collected NameserverLine lines ns

/-- The current MTU, asked for only if one was configured. -/
def MtuShown (c : Cfg) (m : Option (List UInt8)) (h : List Ev) : Prop :=
  (c.opts.mtu = [] ∧ m = none) ∨
  (c.opts.mtu ≠ [] ∧ ∃ r, (.query [b!"ip", b!"link", b!"show", b!"dev", c.iface], r) ∈ h ∧
    ((∃ d, FirstArg b!"mtu " isDigit (captured r.out) d ∧ m = some d) ∨ ((∀ d, ¬ FirstArg b!"mtu " isDigit (captured r.out) d) ∧ m = none)))

/-- A line of `ip -brief address`: the interface, at least two spaces, the state, and after a space the addresses. -/
def BriefLine (iface out rest : List UInt8) : Prop :=
  ∃ sp st, out = iface ++ sp ++ st ++ rest ∧ 2 ≤ sp.length ∧ (∀ c ∈ sp, c = 32) ∧ st ≠ [] ∧ (∀ c ∈ st, 65 ≤ c ∧ c ≤ 90) ∧ rest.head? = some 32

/-- The addresses in the output of `ip -brief address`; no statement is made for interface names with a `+`. -/
def BriefAddrs (iface out : List UInt8) (as : List (List UInt8)) : Prop :=
  c!"+" ∉ iface → (∃ rest, BriefLine iface (captured out) rest ∧ Words blankSep rest as) ∨ ((∀ rest, ¬ BriefLine iface (captured out) rest) ∧ as = [])

/-- wg-quick's settings as they are saved: addresses, DNS servers and MTU as now found, the others as configured. -/
def savedSettings (o : Opts) (addrs dns : List (List UInt8)) (mtu : Option (List UInt8)) : List (List UInt8 × List UInt8) :=
  addrs.map (b!"Address", ·) ++ dns.map (b!"DNS", ·) ++ mtu.toList.map (b!"MTU", ·) ++
  (if o.table = [] then [] else [(b!"Table", o.table)]) ++ (if o.saveConfig then [(b!"SaveConfig", b!"true")] else []) ++
  o.preUp.map (b!"PreUp", ·) ++ o.postUp.map (b!"PostUp", ·) ++ o.preDown.map (b!"PreDown", ·) ++ o.postDown.map (b!"PostDown", ·)

/-- The section with these settings. -/
def ownSection (sets : List (List UInt8 × List UInt8)) : List UInt8 := b!"[Interface]\n" ++ sets.flatMap fun p => p.1 ++ b!" = " ++ p.2 ++ b!"\n"

/-- `t` is `s` with the first occurrence of `pat` (if any) replaced by `new`. -/
def Replaced (pat new s t : List UInt8) : Prop :=
  (∃ a b, s = a ++ pat ++ b ∧ t = a ++ new ++ b ∧ ∀ a' b', s = a' ++ pat ++ b' → a.length ≤ a'.length) ∨ (¬ Occurs pat s ∧ t = s)

/-- What bash 5.2 and later make of a replacement text: `&` stands for the replaced text, `\&` for `&`, two backslashes for one. -/
inductive AmpText (matched : List UInt8) : List UInt8 → List UInt8 → Prop
  | nil : AmpText matched [] []
  | amp {s t} : AmpText matched s t → AmpText matched (c!"&" :: s) (matched ++ t)
  | esc {x s t} : x = c!"&" ∨ x = 92 → AmpText matched s t → AmpText matched (92 :: x :: s) (x :: t)
  | other {x s t} : x ≠ c!"&" → ¬ (x = 92 ∧ (s.head? = some c!"&" ∨ s.head? = some 92)) → AmpText matched s t → AmpText matched (x :: s) (x :: t)

/-- `x` is the complete new configuration: the output of a successful `wg showconf` with, in place of its first `[Interface]` line,
wg-quick's own settings. -/
def NewConfig (c : Cfg) (h : List Ev) (x : List UInt8) : Prop :=
  ∃ a d m s as ns new y, (.query [b!"ip", b!"-all", b!"-brief", b!"address", b!"show", b!"dev", c.iface], a) ∈ h ∧ BriefAddrs c.iface a.out as ∧
    DnsShown c d h ∧ DnsServers d ns ∧ MtuShown c m h ∧ (.query [b!"wg", b!"showconf", c.iface], s) ∈ h ∧ s.status = 0 ∧
    (if c.patsub then AmpText b!"[Interface]\n" (ownSection (savedSettings c.opts as ns m)) new else new = ownSection (savedSettings c.opts as ns m)) ∧
    Replaced b!"[Interface]\n" new (captured s.out) y ∧ x = y ++ b!"\n"

/-- The commands of a save with the text `x` that got through: the temporary file is written (readable only by its owner), synced,
and renamed. -/
def SaveDone (c : Cfg) (x : List UInt8) (t : List Ev) : Prop :=
  ∃ r1 r2 r3, t = [(.act [b!"write", b!"077", c.file ++ b!".tmp"] x, r1), (cmd [b!"sync", c.file ++ b!".tmp"], r2),
      (cmd [b!"mv", c.file ++ b!".tmp", c.file], r3)] ∧
    r1.status = 0 ∧ r1.sig = false ∧ r2.status = 0 ∧ r2.sig = false ∧ r3.status = 0 ∧ r3.sig = false

/-- The commands of a save that stopped: each step is only taken after the earlier ones succeeded; finally the temporary file is
removed (`k`, once or twice). -/
def SaveStopped (c : Cfg) (x : List UInt8) (t : List Ev) : Prop :=
  ∃ b k, t = b ++ k ∧ k ≠ [] ∧ (∀ e ∈ k, e.1 = cmd [b!"rm", b!"-f", c.file ++ b!".tmp"]) ∧
    ((∃ r1, b = [(.act [b!"write", b!"077", c.file ++ b!".tmp"] x, r1)] ∧ ¬ (r1.status = 0 ∧ r1.sig = false)) ∨
     (∃ r1 r2, b = [(.act [b!"write", b!"077", c.file ++ b!".tmp"] x, r1), (cmd [b!"sync", c.file ++ b!".tmp"], r2)] ∧
       r1.status = 0 ∧ r1.sig = false ∧ ¬ (r2.status = 0 ∧ r2.sig = false)) ∨
     (∃ r1 r2 r3, b = [(.act [b!"write", b!"077", c.file ++ b!".tmp"] x, r1), (cmd [b!"sync", c.file ++ b!".tmp"], r2),
         (cmd [b!"mv", c.file ++ b!".tmp", c.file], r3)] ∧
       r1.status = 0 ∧ r1.sig = false ∧ r2.status = 0 ∧ r2.sig = false ∧ ¬ (r3.status = 0 ∧ r3.sig = false)))

/-! ### `down` -/

/-- A save that got through, with everything it looked at. -/
def Saved (c : Cfg) (b : List Ev) : Prop := ∃ q t x, b = q ++ t ∧ (∀ e ∈ q, isAct e.1 = false) ∧ NewConfig c q x ∧ SaveDone c x t

/-- The steps of `down` up to the removal: PreDown hooks in order, then saving if SaveConfig is set; each command successful and
no signal. -/
def DownFirst (c : Cfg) (h : List Ev) : Prop :=
  ∃ a b, h = a ++ b ∧ HookActs c c.opts.preDown (acts a) ∧ (∀ e ∈ a, e.2.status = 0 ∧ e.2.sig = false) ∧
    if c.opts.saveConfig then Saved c b else b = []

/-- The steps after the removal: DNS and firewall, then PostDown hooks in order. -/
def DownLast (c : Cfg) (h : List Ev) : Prop :=
  ∃ l1 l2 l3, h = l1 ++ (l2 ++ l3) ∧ DnsRemoval c l1 ∧ FwRemoval c l2 ∧ HookActs c c.opts.postDown (acts l3)

end WG.Spec.Quick
