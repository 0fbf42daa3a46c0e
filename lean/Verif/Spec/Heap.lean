import Verif.Model.Heap
/-! Lists of nodes in a heap: what C49 speaks about. -/
namespace WG

abbrev IpN := Nat × AllowedIP
abbrev PeerN := Nat × Peer × List IpN

/-- A list of allowed IPs in the heap. -/
inductive IpsAt (f : Nat → Option Cell) : Ptr → List IpN → Prop
  | nil : IpsAt f none []
  | cons {a : Nat} {v : AllowedIP} {next : Ptr} {l : List IpN} : f a = some (.ip v next) → IpsAt f next l → IpsAt f (some a) ((a, v) :: l)

/-- A list of peers in the heap. -/
inductive PeersAt (f : Nat → Option Cell) : Ptr → List PeerN → Prop
  | nil : PeersAt f none []
  | cons {a : Nat} {p : Peer} {first next : Ptr} {l : List IpN} {ps : List PeerN} : f a = some (.peer p first next) → IpsAt f first l → PeersAt f next ps →
      PeersAt f (some a) ((a, p, l) :: ps)

/-- The addresses of a peer's nodes. -/
def pids (n : PeerN) : List Nat := n.1 :: n.2.2.map (·.1)
/-- The addresses of all nodes. -/
def ids (ps : List PeerN) : List Nat := ps.flatMap pids

/-- A device's nodes in some cells. -/
def DevAt (f : Nat → Option Cell) (a : Nat) (d : Device) (ps : List PeerN) : Prop := ∃ first, f a = some (.dev d first) ∧ PeersAt f first ps

/-- Without some addresses. -/
def without (f : Nat → Option Cell) (l : List Nat) : Nat → Option Cell := fun x => if x ∈ l then none else f x

end WG
