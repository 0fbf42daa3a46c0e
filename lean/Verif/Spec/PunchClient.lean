import Verif.Model.PunchClient
import Verif.Spec.Punch
import Verif.Spec.Show
/-!
What contrib/nat-hole-punching/nat-punch-client.c is for: to ask the server about every peer and to give the answer to WireGuard. The classic BPF
machine, the packets, the command, the server at the other end of the line.
-/
namespace WG.Spec.PunchClient
open WG.PunchClient (Insn Call Reply Ev)
open WG.Punch (PubKey Place Recv loop start)

/-- A number in network order. -/
def bigEndian (l : List UInt8) : Nat := l.foldl (fun n b => n * 256 + b.toNat) 0

/-- Some bytes of the packet as a number; `none`: beyond the end. -/
def load (packet : List UInt8) (k n : Nat) : Option Nat :=
  if k + n ≤ packet.length then some (bigEndian ((packet.drop k).take n)) else none

/-- Linux: how many bytes of the packet the filter lets through. A load beyond the end ends the program with 0. The jumps count from the next
instruction. -/
def bpf (packet : List UInt8) : List Insn → Nat → Nat
  | [], _ => 0
  | .ldWord k :: is, _ =>
    match load packet k 4 with
    | some a => bpf packet is a
    | none => 0
  | .ldHalf k :: is, _ =>
    match load packet k 2 with
    | some a => bpf packet is a
    | none => 0
  | .jeq k jt jf :: is, a => if a = k then bpf packet (is.drop jt) a else bpf packet (is.drop jf) a
  | .ret k :: _, _ => k
termination_by is _ => is.length
decreasing_by all_goals (simp; try omega)

/-- A UDP packet without checksum. -/
def udp (source dest : Nat) (data : List UInt8) : List UInt8 :=
  [UInt8.ofNat (source / 256), UInt8.ofNat source, UInt8.ofNat (dest / 256), UInt8.ofNat dest,
    UInt8.ofNat ((8 + data.length) / 256), UInt8.ofNat (8 + data.length), 0, 0] ++ data

/-- `192.0.2.1:51820` -/
def endpoint (p : Place) : CStr :=
  match p.ip with
  | [a, b, c, d] => decimal a.toNat ++ b!"." ++ decimal b.toNat ++ b!"." ++ decimal c.toNat ++ b!"." ++ decimal d.toNat ++ b!":" ++
      decimal (bigEndian p.port)
  | _ => []

/-- The command; at most 2046 bytes of it are run. -/
def setEndpoint (iface key : CStr) (p : Place) : CStr :=
  (b!"wg set " ++ iface ++ b!" peer " ++ key ++ b!" persistent-keepalive 25 endpoint " ++ endpoint p).take 2046

/-- The address in an answer: IP header, UDP header, address, port. -/
def placeIn (answer : List UInt8) : Place := ⟨(answer.drop 28).take 4, (answer.drop 32).take 2⟩

/-- The commands of a trace that change peers. -/
def sets (t : List Ev) : List CStr :=
  t.filterMap fun e => match e.1 with
    | .run c => if b!"wg set " <+: c then some c else none
    | _ => none

/-- An interface with this key, this port and these peers, all through the run; `b64_pton` decodes base64. -/
structure Interface (env : WG.PunchClient.Env) (iface : CStr) (own : WG.Key) (port : Nat) (peers : List WG.Key) : Prop where
  name : iface.length ≤ 1024
  few : peers.length < 65536
  range : port < 65536
  keyIs : ∀ h, env.reply h (.run (b!"wg show " ++ iface ++ b!" public-key")) = { out := rfc4648 own.toList ++ [10] }
  portIs : ∀ h, env.reply h (.run (b!"wg show " ++ iface ++ b!" listen-port")) = { out := decimal port ++ [10] }
  peersAre : ∀ h, env.reply h (.run (b!"wg show " ++ iface ++ b!" peers")) = { out := (peers.map fun k => rfc4648 k.toList ++ [10]).flatten }
  decodes : ∀ k : WG.Key, env.pton (rfc4648 k.toList) = some k.toList

/-- The other end of the line: what others send to the server before it hears the n-th request of this client, and the address it hears this
client from. -/
structure World where
  others : Nat → List Recv
  me : Place
  /-- The headers of the answers. -/
  header : List Ev → List UInt8

/-- All that has arrived at the server. -/
def arrived (w : World) : Nat → List Ev → List Recv
  | _, [] => []
  | n, (.send p _, _) :: t => w.others n ++ .datagram (p.drop 8) w.me :: arrived w (n + 1) t
  | n, (.recv, _) :: t => arrived w n t
  | n, (.lookup _, _) :: t => arrived w n t
  | n, (.run _, _) :: t => arrived w n t
  | n, (.socket, _) :: t => arrived w n t
  | n, (.filter _, _) :: t => arrived w n t
  | n, (.sleep, _) :: t => arrived w n t

/-- The network loses, repeats and delays nothing: after a request, `recv` gives the answer of the server to it. -/
def Connected (env : WG.PunchClient.Env) (w : World) : Prop :=
  (∀ h, (w.header h).length = 28) ∧ w.me.ip.length = 4 ∧ w.me.port.length = 2 ∧
  (∀ n data p, Recv.datagram data p ∈ w.others n → p.ip.length = 4 ∧ p.port.length = 2) ∧
  ∀ h p d r, h.getLast? = some (.send p d, r) → 72 ≤ p.length →
    ∃ s, (loop start (arrived w 0 h)).getLast? = some [s] ∧ env.reply h .recv = { out := w.header h ++ s.data }

end WG.Spec.PunchClient
