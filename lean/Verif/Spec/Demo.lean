import Verif.Model.DemoServer
import Verif.Spec.Encoding
import Verif.Spec.Show
/-!
What the demo server of contrib/ncat-client-server is to do: every client has an address of its own.
-/
namespace WG.Spec.Demo
open WG.Demo

/-- Every peer has one address, 192.168.4.2 to 192.168.4.254; no two peers have the same; no key is there twice; there are at most 253. -/
def Fair (d : Iface) : Prop :=
  (∀ p ∈ d, ∃ h, p.hosts = [h] ∧ 2 ≤ h ∧ h ≤ 254) ∧
  d.Pairwise (fun p q => p.key ≠ q.key ∧ ∀ h ∈ p.hosts, h ∉ q.hosts) ∧
  d.length ≤ 253

/-- The address of a key. -/
def addressOf (d : Iface) (k : Key) : Option Nat := (d.find? fun p => p.key = k).bind fun p => p.hosts.head?

/-- A peer without a more recent handshake than any other. -/
def IsOldest (oldest : Oldest) : Prop :=
  ∀ d : Iface, d ≠ [] → ∃ p ∈ d, oldest d = some p.key ∧ ∀ q ∈ d, p.handshake ≤ q.handshake

/-- Handshakes take place, nothing else changes. -/
def Handshakes (d d' : Iface) : Prop := d.map (fun p => (p.key, p.hosts)) = d'.map fun p => (p.key, p.hosts)

/-- All states the interface can get into, if connections come one after the other. -/
inductive Reaches (oldest : Oldest) (pub : Key) (port : Nat) : Iface → Prop where
  | fresh : Reaches oldest pub port []
  | traffic {d d'} (h : Reaches oldest pub port d) (ht : Handshakes d d') : Reaches oldest pub port d'
  | connection {d} (h : Reaches oldest pub port d) (input : List UInt8) : Reaches oldest pub port (session oldest pub port d input).1

/-- All states if connections overlap in any way: each of them at some time removes a peer it saw as the oldest, reads the listing, and later gives the
address it chose then. -/
inductive Interleaved (oldest : Oldest) : Iface → Prop where
  | fresh : Interleaved oldest []
  | traffic {d d'} (h : Interleaved oldest d) (ht : Handshakes d d') : Interleaved oldest d'
  | remove {d seen} (h : Interleaved oldest d) (hs : Interleaved oldest seen) (k : Key) (ho : oldest seen = some k) :
      Interleaved oldest (d.filter fun p => p.key ≠ k)
  | gives {d seen} (h : Interleaved oldest d) (hs : Interleaved oldest seen) (k : Key) (i : Nat) (hi : nextIp seen = some i) :
      Interleaved oldest (give d k i)

end WG.Spec.Demo
