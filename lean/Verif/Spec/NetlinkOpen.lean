import Verif.Spec.Netlink
import Verif.Model.NetlinkOpen
/-! What "asking the kernel for the WireGuard family" and "releasing everything" mean, independently of the code. The only thing taken from the model is the
vocabulary of events (`NlEv`, `NlRes`). -/
namespace WG.Spec

/-- The request for the id of the family "wireguard", byte by byte: length 36, type 16 (the controller), flags 5 (a request, to be acknowledged), the sequence number,
port 0; command 3 (get family), version 1; an attribute of length 14 and type 2 (family name) with the name, a NUL and two bytes of padding. -/
def familyRequest (seq : UInt32) : List UInt8 :=
  [36, 0, 0, 0, 16, 0, 5, 0] ++ ackMessage.word seq ++ [0, 0, 0, 0] ++ [3, 1, 0, 0] ++
  [14, 0, 2, 0] ++ b!"wireguard" ++ [0] ++ [0, 0]

/-- The request for all network interfaces, byte by byte: length 32, type 18 (RTM_GETLINK), flags 0x305 (a request, to be acknowledged, dump), the sequence number, port 0,
and a zero `struct ifinfomsg`. -/
def allLinksRequest (seq : UInt32) : List UInt8 :=
  [32, 0, 0, 0, 18, 0, 5, 3] ++ ackMessage.word seq ++ [0, 0, 0, 0] ++ [0, 0, 0, 0, 0, 0, 0, 0, 0, 0, 0, 0, 0, 0, 0, 0]

/-- A request to read an interface, as the documentation of the protocol says: type and version of the family, flags 0x305 (dump), command 0 (WG_CMD_GET_DEVICE), and a
single attribute WGDEVICE_A_IFNAME (2), the name with a NUL. -/
def readGetMessage (id : UInt16) (version : UInt8) (msg : List UInt8) : Option (List UInt8) :=
  if 20 ≤ msg.length ∧ le (msg.take 4) = msg.length ∧ le ((msg.drop 4).take 2) = id.toNat ∧ le ((msg.drop 6).take 2) = 0x305 ∧
      (msg.drop 16).take 2 = [0, version] then
    match attrs (msg.drop 20) with
    | some [(2, n)] => if n.getLast? = some 0 ∧ 0 ∉ n.dropLast then some n.dropLast else none
    | _ => none
  else none

/-- The family id in a message with attributes `l` for a program that knows the attributes up to `max`: those before the first that is unknown or is a
CTRL_ATTR_FAMILY_ID (1) without exactly two bytes count; the last family id among them. -/
def familyId (max : Nat) (l : List (Nat × List UInt8)) : Option UInt16 :=
  (attr? (l.takeWhile fun a => decide (a.1 ≤ max ∧ (a.1 = 1 → a.2.length = 2))) 1).map fun b => UInt16.ofNat (le b)

/-- A message of the controller that tells the family id. -/
def NlMsg.TellsFamily (m : NlMsg) (seq portid max : Nat) (id : UInt16) : Prop :=
  m.IsData seq portid ∧ ∃ l, attrs (m.body.drop 4) = some l ∧ familyId max l = some id

/-- An acknowledgement (`error` = 0) or an error: NLMSG_ERROR (2), which begins with the negative errno and ends with the header of the request. -/
def NlMsg.IsError (m : NlMsg) (seq portid error : Nat) : Prop :=
  m.type = 2 ∧ m.flags.testBit 4 = false ∧ m.seq = seq ∧ m.portid = portid ∧ 20 ≤ m.body.length ∧ error < 2 ^ 31 ∧
  (le (m.body.take 4) + error) % 2 ^ 32 = 0

/-- `ReplyIs datagrams ms`: the messages received begin with `ms`, however they are spread over datagrams. -/
inductive ReplyIs : List (List UInt8) → List NlMsg → Prop
  | here (data : List UInt8) (more : List (List UInt8)) (ms rest : List NlMsg) : ms ≠ [] → messages data = some (ms ++ rest) → ReplyIs (data :: more) ms
  | split (data : List UInt8) (more : List (List UInt8)) (ms ms' : List NlMsg) : ms ≠ [] → messages data = some ms → ReplyIs more ms' → ReplyIs (data :: more) (ms ++ ms')

/-- `Tells bs seq portid id`: somewhere in the bytes `bs`, a message of at least type 16 that does not carry another sequence number or port has an attribute of
type 1 with the two bytes `id`. (A number 0 in the message, or 0 as our own number, matches everything.) -/
def Tells (bs : List UInt8) (seq portid : Nat) (id : UInt16) : Prop :=
  ∃ h x, HeaderAt bs h ∧ h + msgLen bs h ≤ bs.length ∧ 16 ≤ le ((bs.drop (h + 4)).take 2) ∧
    (le ((bs.drop (h + 8)).take 4) = seq ∨ le ((bs.drop (h + 8)).take 4) = 0 ∨ seq = 0) ∧
    (le ((bs.drop (h + 12)).take 4) = portid ∨ le ((bs.drop (h + 12)).take 4) = 0 ∨ portid = 0) ∧
    AttrAt bs (h + 20) (h + pad4 (msgLen bs h)) x ∧ x + attrLen bs x ≤ h + pad4 (msgLen bs h) ∧
    le ((bs.drop (x + 2)).take 2) % 0x4000 = 1 ∧ attrLen bs x = 6 ∧ id.toNat = le ((bs.drop (x + 4)).take 2)

/-- What is held after the events, if held before was `l`: nothing is released that is not held, and bytes are sent only on an open socket. `none`: violated. -/
def held : List NlEv → List NlRes → Option (List NlRes)
  | [], l => some l
  | .take r :: evs, l => held evs (r :: l)
  | .give r :: evs, l => if r ∈ l then held evs (l.erase r) else none
  | .send _ :: evs, l => if .fd ∈ l then held evs l else none

/-- The bytes sent. -/
def sentBytes (evs : List NlEv) : List (List UInt8) := evs.filterMap fun e => match e with | .send b => some b | _ => none

end WG.Spec
