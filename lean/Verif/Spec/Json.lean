import Verif.Spec.Show
/-!
JSON texts (RFC 8259) and what they mean, as far as needed: strings of printable ASCII without escapes, natural numbers, arrays and objects;
and the JSON value of a list of devices.
-/
namespace WG.Spec

inductive Json where
  | str (s : List UInt8)
  | num (n : Nat)
  | arr (l : List Json)
  | obj (l : List (List UInt8 × Json))

/-- White space (section 2): spaces, tabs, line feeds, carriage returns. -/
def JsonWs (w : List UInt8) : Prop := ∀ c ∈ w, c = 32 ∨ c = 9 ∨ c = 10 ∨ c = 13

/-- The bytes of a string that need no escape (section 7), of ASCII. -/
def JsonChars (s : List UInt8) : Prop := ∀ c ∈ s, 32 ≤ c ∧ c < 127 ∧ c ≠ 34 ∧ c ≠ 92

/-- An element of an array: the white space before it, its text, and the white space after it. -/
structure Slot where
  pre : List UInt8
  text : List UInt8
  post : List UInt8

/-- A member of an object: also the white space around the colon. -/
structure Member extends Slot where
  name : List UInt8
  mid1 : List UInt8
  mid2 : List UInt8

def Slot.all (s : Slot) : List UInt8 := s.pre ++ s.text ++ s.post
def Member.all (m : Member) : List UInt8 := m.pre ++ b!"\"" ++ m.name ++ b!"\"" ++ m.mid1 ++ b!":" ++ m.mid2 ++ m.text ++ m.post

/-- Sections 3 to 7: `IsJson v t`: the text `t` is JSON and means `v`. -/
inductive IsJson : Json → List UInt8 → Prop
  | str (s : List UInt8) : JsonChars s → IsJson (.str s) (b!"\"" ++ s ++ b!"\"")
  | num (n : Nat) : IsJson (.num n) (decimal n)
  | arrEmpty (w : List UInt8) : JsonWs w → IsJson (.arr []) (b!"[" ++ w ++ b!"]")
  | arr (items : List (Json × Slot)) : items ≠ [] → (∀ i ∈ items, JsonWs i.2.pre ∧ JsonWs i.2.post) → (∀ i ∈ items, IsJson i.1 i.2.text) →
      IsJson (.arr (items.map (·.1))) (b!"[" ++ joinWith b!"," (items.map (·.2.all)) ++ b!"]")
  | objEmpty (w : List UInt8) : JsonWs w → IsJson (.obj []) (b!"{" ++ w ++ b!"}")
  | obj (items : List (Json × Member)) : items ≠ [] →
      (∀ i ∈ items, JsonChars i.2.name ∧ JsonWs i.2.pre ∧ JsonWs i.2.mid1 ∧ JsonWs i.2.mid2 ∧ JsonWs i.2.post) → (∀ i ∈ items, IsJson i.1 i.2.text) →
      IsJson (.obj (items.map fun i => (i.2.name, i.1))) (b!"{" ++ joinWith b!"," (items.map (·.2.all)) ++ b!"}")

/-- What is said about a peer: what is not set is left out. -/
def peerJson (T : Texts) (p : Peer) : List UInt8 × Json :=
  (rfc4648 p.publicKey.toList, .obj (
    (if p.flags.hasPresharedKey then [(b!"presharedKey", .str (rfc4648 p.presharedKey.toList))] else []) ++
    (if p.endpoint = .unset then [] else [(b!"endpoint", .str (T.endpoint p.endpoint))]) ++
    (if p.handshakeSec = 0 then [] else [(b!"latestHandshake", .num p.handshakeSec.toNat)]) ++
    (if p.rx = 0 then [] else [(b!"transferRx", .num p.rx)]) ++
    (if p.tx = 0 then [] else [(b!"transferTx", .num p.tx)]) ++
    (if p.keepalive = 0 then [] else [(b!"persistentKeepalive", .num p.keepalive.toNat)]) ++
    [(b!"allowedIps", .arr (p.allowedIPs.map fun a => .str (T.addr a.addr ++ b!"/" ++ decimal a.cidr.toNat)))]))

/-- What is said about a device. -/
def deviceJson (T : Texts) (d : Device) : List UInt8 × Json :=
  (d.name, .obj (
    (if d.flags.hasPrivateKey then [(b!"privateKey", .str (rfc4648 d.privateKey.toList))] else []) ++
    (if d.flags.hasPublicKey then [(b!"publicKey", .str (rfc4648 d.publicKey.toList))] else []) ++
    (if d.listenPort = 0 then [] else [(b!"listenPort", .num d.listenPort.toNat)]) ++
    (if d.fwmark = 0 then [] else [(b!"fwmark", .num d.fwmark.toNat)]) ++
    [(b!"peers", .obj (d.peers.map (peerJson T)))]))

/-- All devices. -/
def devicesJson (T : Texts) (ds : List Device) : Json := .obj (ds.map (deviceJson T))

/-- One word that a JSON string can hold as it is. -/
def JsonWord (s : List UInt8) : Prop := s ≠ [] ∧ ∀ c ∈ s, 33 ≤ c ∧ c < 127 ∧ c ≠ 34 ∧ c ≠ 92

/-- The dump of a device, as `wg show all dump` prints it. -/
def dumpOf (T : Texts) (d : Device) : List UInt8 := table (dumpRows T d true)

/-- What the script needs: words of printable characters without quotes and backslashes for names and endpoints, endpoints that are not
`(none)`, addresses of hexadecimal digits, colons and dots, and numbers of 64 bits. -/
structure JsonReady (T : Texts) (d : Device) : Prop where
  name : JsonWord d.name
  endpoint : ∀ p ∈ d.peers, p.endpoint ≠ .unset → JsonWord (T.endpoint p.endpoint) ∧ T.endpoint p.endpoint ≠ b!"(none)"
  addr : ∀ p ∈ d.peers, ∀ a ∈ p.allowedIPs, ∀ c ∈ T.addr a.addr, isHexDigit c = true ∨ c = c!":" ∨ c = c!"."
  numbers : ∀ p ∈ d.peers, 0 ≤ p.handshakeSec ∧ p.handshakeSec < 2 ^ 64 ∧ p.rx < 2 ^ 64 ∧ p.tx < 2 ^ 64

end WG.Spec
