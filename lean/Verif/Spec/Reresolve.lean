import Verif.Model.Reresolve
import Verif.Spec.Quick
import Verif.Spec.Show
/-! What contrib/reresolve-dns/reresolve-dns.sh is to do. -/
namespace WG.Spec
open WG.Reresolve (Call Ev Reply)

/-- The configuration file and the interface meant by an argument: an interface name, or a path to a file named after one. -/
def Means (arg file iface : List UInt8) : Prop :=
  (Quick.IsIfaceName arg ∧ file = b!"/etc/wireguard/" ++ arg ++ b!".conf" ∧ iface = arg) ∨
  (¬ Quick.IsIfaceName arg ∧ file = arg ∧ Quick.IsIfaceName iface ∧ ∃ dir, arg = dir ++ iface ++ b!".conf" ∧ (dir = [] ∨ ∃ d, dir = d ++ b!"/"))

/-- The keys and values of the lines of a file. -/
def Entries (content : List UInt8) (es : List (List UInt8 × List UInt8)) : Prop :=
  ∃ lines, Quick.ScriptLines content lines ∧ List.Forall₂ (fun l e => Quick.HasKey l e.1 ∧ Quick.HasValue l e.2) lines es

/-- The entries before the next section. -/
def sectionBody (es : List (List UInt8 × List UInt8)) : List (List UInt8 × List UInt8) := es.takeWhile fun e => e.1.head? ≠ some c!"["

/-- The last value of a key, whose case does not matter. -/
def lastValue (name : List UInt8) (es : List (List UInt8 × List UInt8)) : List UInt8 :=
  (((es.filter fun e => decide (e.1.map lower = name)).getLast?).map (·.2)).getD []

/-- Public key and endpoint of the [Peer] sections that have both, in order. -/
def peersIn : List (List UInt8 × List UInt8) → List (List UInt8 × List UInt8)
  | [] => []
  | e :: es =>
    let k := lastValue b!"publickey" (sectionBody es)
    let ep := lastValue b!"endpoint" (sectionBody es)
    (if e.1.map lower = b!"[peer]" ∧ k ≠ [] ∧ ep ≠ [] then [(k, ep)] else []) ++ peersIn es

/-- What `wg show INTERFACE latest-handshakes` prints for these peers. -/
def handshakeTable (rows : List (Key × Nat)) : List UInt8 := table (rows.map fun r => [rfc4648 r.1.toList, decimal r.2])

/-- The events for these peers, and the exit status: the endpoint of a peer is set if and only if the interface has the peer and its
latest handshake is more than 135 seconds ago; a failure to set one ends everything. -/
inductive Updates (iface : List UInt8) : List (List UInt8 × List UInt8) → List Ev → Nat → Prop
  | done : Updates iface [] [] 0
  | unknown {k : Key} {ep ps r rows t s} : r.out = handshakeTable rows → (∀ x ∈ rows, x.1 ≠ k) → Updates iface ps t s →
      Updates iface ((rfc4648 k.toList, ep) :: ps) ((.handshakes iface, r) :: t) s
  | recent {k : Key} {ep ps r rows at_ c t s} : r.out = handshakeTable rows → (k, at_) ∈ rows → (c.time : Int) - at_ ≤ 135 → Updates iface ps t s →
      Updates iface ((rfc4648 k.toList, ep) :: ps) ((.handshakes iface, r) :: (.clock, c) :: t) s
  | old {k : Key} {ep ps r rows at_ c q t s} : r.out = handshakeTable rows → (k, at_) ∈ rows → (c.time : Int) - at_ > 135 → q.status = 0 →
      Updates iface ps t s →
      Updates iface ((rfc4648 k.toList, ep) :: ps) ((.handshakes iface, r) :: (.clock, c) :: (.setEndpoint iface (rfc4648 k.toList) ep, q) :: t) s
  | failed {k : Key} {ep ps r rows at_ c q} : r.out = handshakeTable rows → (k, at_) ∈ rows → (c.time : Int) - at_ > 135 → q.status ≠ 0 →
      Updates iface ((rfc4648 k.toList, ep) :: ps) [(.handshakes iface, r), (.clock, c), (.setEndpoint iface (rfc4648 k.toList) ep, q)] q.status

/-- What the answers are like: `wg show` prints the peers of an interface, and times are those of this era. -/
structure Usual (env : Reresolve.Env) (iface : List UInt8) : Prop where
  listing : ∀ tr, ∃ rows : List (Key × Nat), (env.reply tr (.handshakes iface)).out = handshakeTable rows ∧ (∀ x ∈ rows, x.2 < 2 ^ 62) ∧
    (rows.map (·.1)).Nodup
  clock : ∀ tr, (env.reply tr .clock).time < 2 ^ 62

/-- No other key on the interface differs from this one in nothing but case. -/
def CaseUnique (env : Reresolve.Env) (iface : List UInt8) (k : Key) : Prop :=
  ∀ tr rows, (env.reply tr (.handshakes iface)).out = handshakeTable rows → ∀ x ∈ rows,
    (rfc4648 x.1.toList).map lower = (rfc4648 k.toList).map lower → x.1 = k

end WG.Spec
