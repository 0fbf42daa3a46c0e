import Verif.Model.PunchServer
/-!
What the server of contrib/nat-hole-punching is for: a client sends its public key and the key of a peer, and is told where the server last
heard from that peer.
-/
namespace WG.Spec.Punch
open WG.Punch (PubKey Place Recv Sent)

/-- A request: who sends it, the key it is sent for, the key it asks for. -/
structure Request where
  sender : Place
  own : PubKey
  wanted : PubKey

/-- A datagram of 64 bytes or more is a request. -/
def request : Recv → Option Request
  | .error => none
  | .datagram data sender => if 64 ≤ data.length then some ⟨sender, data.take 32, (data.take 64).drop 32⟩ else none

def requests (rs : List Recv) : List Request := rs.filterMap request

/-- Where this key was last heard from. -/
def lastHeard (rs : List Request) (key : PubKey) : Option Place :=
  (rs.reverse.find? fun r => r.own = key).map (·.sender)

/-- The keys that were heard. -/
def heard (rs : List Request) : List PubKey := rs.map (·.own)

/-- The six bytes of an address; nothing if it is unknown. -/
def answer : Option Place → List UInt8
  | some a => a.ip ++ a.port
  | none => []

/-! The exact rule: a queue of `n` places. A key that has a place keeps it and its address is renewed; another key takes the place at the end, and
the first one, which was taken before all others, is given up. -/

abbrev Queue := List (PubKey × Place)

def renew (key : PubKey) (a : Place) : Queue → Queue
  | [] => []
  | (k, b) :: q => if k = key then (k, a) :: q else (k, b) :: renew key a q

def hear (q : Queue) (key : PubKey) (a : Place) : Queue :=
  if key ∈ q.map Prod.fst then renew key a q else q.drop 1 ++ [(key, a)]

def known (q : Queue) (key : PubKey) : Option Place := (q.find? fun p => p.1 = key).map (·.2)

/-- The queue after these requests. -/
def queue (q : Queue) : List Request → Queue
  | [] => q
  | r :: rs => queue (hear q r.own r.sender) rs

/-- At the beginning every place belongs to the key of 32 zeros, which is at address 0.0.0.0 port 0. -/
def firstQueue : Queue := List.replicate 65536 (List.replicate 32 0, ⟨[0, 0, 0, 0], [0, 0]⟩)

end WG.Spec.Punch
