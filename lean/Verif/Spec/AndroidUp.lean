import Verif.Spec.AndroidRun
import Verif.Model.Android
/-!
What wg-quick for Android runs when it brings an interface up. Of the model only the types of calls, replies and events are used.
-/
namespace WG.Spec.Android
open WG.Spec WG.Spec.Quick
open WG.Android (Call Reply Ev)

/-- A command of the network daemon. -/
def ndc (s : List UInt8) : Call := .read (b!"ndc " ++ s)

/-- The lines of an output. -/
def linesOf (out : List UInt8) : List (List UInt8) := (fileLines out).map beforeNul

/-! ### Addresses -/

/-- What would end a quotation. -/
def Unquotable (w : List UInt8) : Prop := c!"'" ∈ w ∨ c!"\\" ∈ w

/-- The entries of a list of addresses or DNS servers: its words, but those with quotes. -/
def Entries (list : List UInt8) (es : List (List UInt8)) : Prop :=
  ∃ ws, Words listSep list ws ∧ Collected (fun w x => x = w ∧ ¬ Unquotable w) ws es

/-- The calls that add an address: an IPv6 address; an IPv4 address with and without a prefix length. -/
def AddsAddr (iface a : List UInt8) (calls : List Call) : Prop :=
  (c!":" ∈ a → calls = [ndc (b!"interface ipv6 " ++ iface ++ b!" enable"), .system (b!"ip -6 addr add '" ++ a ++ b!"' dev " ++ iface)]) ∧
  (c!":" ∉ a → c!"/" ∉ a → calls = [ndc (b!"interface setcfg " ++ iface ++ b!" '" ++ a ++ b!"' 32")]) ∧
  (∀ host len n, c!":" ∉ a → a = host ++ b!"/" ++ len → c!"/" ∉ host → IsDecimal len n → n < 256 →
    calls = [ndc (b!"interface setcfg " ++ iface ++ b!" '" ++ host ++ b!"' " ++ decimal n)])

/-! ### DNS -/

/-- Each entry in quotes, with blanks between them. -/
def Quoted (es : List (List UInt8)) (text : List UInt8) : Prop :=
  text = es.flatMap (fun w => b!"'" ++ w ++ b!"' ") ∨ ∃ w, es = [w] ∧ text = b!"'" ++ w ++ b!"'"

/-- How the resolver is told of servers and domains: through its service, or by the network daemon if there is no such service. Nothing is done
without a server or if the list is too long. -/
def DnsTold (netid : Nat) (list : List UInt8) (t : List Ev) : Prop :=
  ∃ es servers domains, Entries list es ∧ Collected (fun w x => x = w ∧ IsNameserver w) es servers ∧ Collected (fun w x => x = w ∧ ¬ IsNameserver w) es domains ∧
    ((list.length > 65536 ∨ servers = []) → t = []) ∧
    (¬ (list.length > 65536 ∨ servers = []) → ∃ r, (Call.handle, r) ∈ t ∧
      (r.status = .exited 0 → t.map Prod.fst = [.handle, .createCache netid, .setResolver netid servers domains]) ∧
      (r.status ≠ .exited 0 → ∃ ds ss, Quoted domains ds ∧ Quoted servers ss ∧
        t.map Prod.fst = [.handle, ndc (b!"resolver setnetdns " ++ decimal netid ++ b!" '" ++ ds ++ b!"' " ++ ss)]))

/-! ### Routes -/

/-- A line of `wg show IFACE allowed-ips` or `endpoints`: what follows the key. -/
def AfterKey (line v : List UInt8) : Prop := ∃ key, line = key ++ 9 :: v ∧ 9 ∉ key

/-- The allowed IPs in the output of `wg show IFACE allowed-ips`. -/
def AllowedShown (out : List UInt8) (routes : List (List UInt8)) : Prop :=
  ∃ vs wss, Collected AfterKey (linesOf out) vs ∧ List.Forall₂ (Words shownSep) vs wss ∧ Collected (fun w x => x = w ∧ w ≠ b!"(none)") wss.flatten routes

/-! ### MTU -/

/-- The command that shows the route to an endpoint. -/
def routeQuery (endpoint : List UInt8) : Call :=
  .read ((if endpoint = b!"default" then b!"ip -o route show " else b!"ip -o route get ") ++ endpoint)

/-- The MTU of the route to an endpoint: that in the route, or that of its interface, if they are known. -/
inductive RouteMtu (endpoint : List UInt8) : Option Nat → List Ev → Prop
  | noRoute {r} : linesOf r.out = [] → RouteMtu endpoint none [(routeQuery endpoint, r)]
  | route {r l rest n} : linesOf r.out = l :: rest → MtuIn l n → RouteMtu endpoint (some n) [(routeQuery endpoint, r)]
  | noDev {r l rest} : linesOf r.out = l :: rest → (∀ n, ¬ MtuIn l n) → (∀ d, ¬ DevIn l d) → RouteMtu endpoint none [(routeQuery endpoint, r)]
  | noLink {r l rest dev r'} : linesOf r.out = l :: rest → (∀ n, ¬ MtuIn l n) → DevIn l dev → linesOf r'.out = [] →
      RouteMtu endpoint none [(routeQuery endpoint, r), (.read (b!"ip -o link show dev " ++ dev), r')]
  | link {r l rest dev r' l' rest' n} : linesOf r.out = l :: rest → (∀ n, ¬ MtuIn l n) → DevIn l dev → linesOf r'.out = l' :: rest' → MtuIn l' n →
      RouteMtu endpoint (some n) [(routeQuery endpoint, r), (.read (b!"ip -o link show dev " ++ dev), r')]
  | linkNone {r l rest dev r' l' rest'} : linesOf r.out = l :: rest → (∀ n, ¬ MtuIn l n) → DevIn l dev → linesOf r'.out = l' :: rest' → (∀ n, ¬ MtuIn l' n) →
      RouteMtu endpoint none [(routeQuery endpoint, r), (.read (b!"ip -o link show dev " ++ dev), r')]

/-- The MTUs of the routes to the endpoints in these lines. -/
inductive LineMtus : List (List UInt8) → List Nat → List Ev → Prop
  | nil : LineMtus [] [] []
  | skip {l ls ms t} : (∀ h, ¬ EndpointHost l h) → LineMtus ls ms t → LineMtus (l :: ls) ms t
  | look {l host m t1 ls ms t2} : EndpointHost l host → RouteMtu host m t1 → LineMtus ls ms t2 → LineMtus (l :: ls) (m.toList ++ ms) (t1 ++ t2)

/-- `m` is the smallest of the first number and those of the others that are not 0. -/
def Least (first : Nat) (others : List Nat) (m : Nat) : Prop :=
  (m = first ∨ m ∈ others ∧ 0 < m) ∧ m ≤ first ∧ ∀ x ∈ others, 0 < x → m ≤ x

/-- An integer in decimal. -/
def decimalInt (i : Int) : List UInt8 := if i < 0 then b!"-" ++ decimal i.natAbs else decimal i.natAbs

/-- The MTU of the interface: as configured, or that of the path less 80. -/
def MtuSet (iface : List UInt8) (mtu : Nat) (t : List Ev) : Prop :=
  (mtu ≠ 0 → t.map Prod.fst = [ndc (b!"interface setmtu " ++ iface ++ b!" " ++ decimal mtu)]) ∧
  (mtu = 0 → ∃ dflt td r ms te m last, RouteMtu b!"default" dflt td ∧ LineMtus (linesOf r.out) ms te ∧ Least (dflt.getD 1500) ms m ∧
    t = td ++ (Call.read (b!"wg show " ++ iface ++ b!" endpoints"), r) :: te ++ [last] ∧
    last.1 = ndc (b!"interface setmtu " ++ iface ++ b!" " ++ decimalInt (m - 80)))

/-! ### The port -/

/-- The port that `wg show IFACE listen-port` prints. -/
def PortShown (out : List UInt8) (port : Nat) : Prop := ∀ n, n ≤ 65535 → linesOf out = [decimal n ++ b!"\n"] → port = n

/-- The rules that let packets to the port in; IPv6 packets are dropped if there are endpoints and none has an IPv6 address. -/
def PortRules (iface : List UInt8) (port : Nat) (t : List Ev) : Prop :=
  let comment := b!" -m comment --comment \"wireguard rule " ++ iface ++ b!"\""
  (port = 0 → t = []) ∧
  (port ≠ 0 → ∃ r vs block, (Call.read (b!"wg show " ++ iface ++ b!" endpoints"), r) ∈ t ∧ Collected AfterKey (linesOf r.out) vs ∧
    (block = true ↔ (∀ v ∈ vs, ¬ b!"[" <+: v) ∧ ∃ v ∈ vs, ¬ b!"(" <+: v) ∧
    t.map Prod.fst = [.system (b!"iptables -I INPUT 1 -p udp --dport " ++ decimal port ++ b!" -j ACCEPT" ++ comment), .read (b!"wg show " ++ iface ++ b!" endpoints"),
      .system (b!"ip6tables -I INPUT 1 -p udp --dport " ++ decimal port ++ b!" -j " ++ (if block then b!"DROP" else b!"ACCEPT") ++ comment)])

/-! ### All of it -/

/-- A complete run: the interface is made, configured and started with its marks and rules, the network made, and addresses, DNS, routes, MTU and
users are set; then the application is told. -/
def BroughtUp (iface config addrs dnses : List UInt8) (mtu sdk : Nat) (caller : Option (List UInt8)) (netid : Nat) (users hist : List Ev) : Prop :=
  ∃ r0 rp ra port t1 tr t2 es as td ta routes tm tn,
    hist = (Call.read (b!"ip link show dev " ++ iface ++ b!" 2>/dev/null"), r0) :: t1 ++ tr ++ t2 ++ td ++
      (Call.read (b!"wg show " ++ iface ++ b!" allowed-ips"), ra) :: ta ++ tm ++ users ++ tn ∧
    linesOf r0.out = [] ∧
    (.read (b!"wg show " ++ iface ++ b!" listen-port"), rp) ∈ t1 ∧ PortShown rp.out port ∧
    t1.map Prod.fst =
      [.system (b!"ip link add " ++ iface ++ b!" type wireguard"), .write (b!"wg setconf " ++ iface ++ b!" /proc/self/fd/0") config,
       .system (b!"ip link set up dev " ++ iface), .read (b!"wg show " ++ iface ++ b!" listen-port"), .system (b!"ip link set down dev " ++ iface),
       .system (b!"wg set " ++ iface ++ b!" fwmark 0x20000"),
       .system (b!"iptables -I OUTPUT 1 -m mark --mark 0x20000 -j ACCEPT -m comment --comment \"wireguard rule " ++ iface ++ b!"\""),
       .system (b!"ip6tables -I OUTPUT 1 -m mark --mark 0x20000 -j ACCEPT -m comment --comment \"wireguard rule " ++ iface ++ b!"\"")] ∧
    PortRules iface port tr ∧ Entries addrs es ∧ List.Forall₂ (AddsAddr iface) es as ∧
    t2.map Prod.fst =
      [.system (b!"ip link set up dev " ++ iface), ndc (b!"network create " ++ decimal netid ++ (if sdk < 31 then b!" vpn 1 1" else b!" vpn 1")),
       ndc (b!"network interface add " ++ decimal netid ++ b!" " ++ iface)] ++ as.flatten ∧
    DnsTold netid dnses td ∧ AllowedShown ra.out routes ∧
    ta.map Prod.fst = routes.map (fun r => ndc (b!"network route add " ++ decimal netid ++ b!" " ++ iface ++ b!" " ++ r)) ∧
    MtuSet iface mtu tm ∧
    (∀ ev ∈ users, ∃ s, ev.1 = ndc (b!"network users add " ++ decimal netid ++ b!" " ++ s)) ∧
    tn.map Prod.fst = (news caller).map Call.system

end WG.Spec.Android
