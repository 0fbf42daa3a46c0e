import Verif.Model.Ipc
import Verif.Spec.Netlink
import Verif.Spec.Uapi
import Verif.Spec.IpcList
import Verif.Spec.Driver
import Verif.Spec.Showconf
/-! What becomes of an interface when bytes arrive: the kernel reads netlink messages, a userspace implementation reads the text on its socket; both carry out
what they have read. -/
namespace WG.Spec
open WG

/-- `x`, sent in the system `sys`, takes the interface `name` from state `s` to state `s'`. `R`: how the userspace implementation reads values. -/
def Gives (R : Readers) (sys : System) (name : List UInt8) : Sent → Iface → Iface → Prop
  | .nothing, _, _ => False
  | .kernel msgs, s, s' =>
    ∃ reqs, List.Forall₂ (fun m r => readSetMessage sys.nl.id sys.nl.version m = some (name, r)) msgs reqs ∧ s' = reqs.foldl applyReq s
  | .socket path text, s, s' => path = (socketPath sys.sock.runstate name).take 107 ∧ ∃ r, serve R text = some r ∧ s' = applyReq s r

/-- The system is as it should be: a sensible netlink buffer, failed system calls have an errno, and userspace implementations read canonical texts. -/
structure Sane (R : Readers) (sys : System) : Prop where
  buffer : 272 ≤ sys.nl.size ∧ sys.nl.size < 65536
  sendErrno : ∀ i, sys.send i ≠ some 0
  openErrno : sys.nlOpen ≠ some 0
  sockErrno : ∀ tr, (∀ p e, sys.sock.stat tr p = .error e → e ≠ 0) ∧ sys.sock.socket tr ≠ some 0 ∧ (∀ p, sys.sock.connect tr p ≠ some 0) ∧
    (∀ p, sys.sock.unlink tr p ≠ some 0) ∧ sys.sock.fdopen tr ≠ some 0
  reads : ServerReads R sys.out.ntop4 sys.out.ntop6

/-- `x` is one way of making the change `r` to the interface `name`, all of it. -/
def Makes (R : Readers) (sys : System) (name : List UInt8) (x : Sent) (r : SetReq) : Prop :=
  (∀ s, Gives R sys name x s (applyReq s r)) ∧ ∀ s s', Gives R sys name x s s' → s' = applyReq s r

/-- If `x` goes to a userspace implementation, then that implementation reads the texts of the endpoints in `d`. -/
def EndpointsRead (R : Readers) (sys : System) (x : Sent) (d : Device) : Prop :=
  (∃ path text, x = .socket path text) → ∀ p ∈ d.peers, p.endpoint ≠ .unset → Printable R sys.out.nameinfo p.endpoint

/-- The kernel answers the first request for a dump, in as many datagrams and fragments as it likes, with a faithful report of `s`. -/
def KernelReports (sys : System) (s : Iface) : Prop :=
  (sys.attempts 0).openErr = none ∧ (sys.attempts 0).sendErr = none ∧
  ∃ (ds : List (List UInt8 × List UInt8)) (ms : List NlMsg) (whole : DevDump) (fs : List DevDump),
    (sys.attempts 0).recvs = (ds.map fun d => .msg d.1 d.2) ∧ (∀ d ∈ ds, (d.1 ++ d.2).length < 2 ^ 30) ∧
    Dump (sys.attempts 0).seq (sys.attempts 0).portid (ds.map (·.1)) ms ∧ List.Forall₂ (fun m f => readDevDump (m.body.drop 4) = some f) ms fs ∧
    FragmentsOf whole fs ∧ Reports whole.device s

/-- The userspace implementation answers a get request with a faithful report of `s`. -/
def SocketReports (sys : System) (s : Iface) : Prop :=
  ∃ dev peers, ReportSays sys.env.pton4 sys.env.pton6 (fun h p e => ∀ n, sys.env.gai n h p = .found e) ((fileLines sys.report).map beforeNul) dev peers ∧
    Reports (deviceReported sys.pubOf [] dev peers) s

/-- Prefix lengths of an interface's networks are possible ones. -/
def Iface.Ranged (s : Iface) : Prop := ∀ n k, s.owner n = some k → n.cidr.toNat ≤ addrBits n.addr

end WG.Spec
