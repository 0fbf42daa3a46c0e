import Verif.Model.Highlight
import Verif.Model.Inet
import Verif.Spec.Values
import Verif.Spec.Show
/-! Specification of the highlighter (C72-C74); of the model only the types of its results are used. -/
namespace WG.Spec

/-- What a configuration may have between its parts. -/
def Gap (c : UInt8) : Prop := c = 32 ∨ c = 9 ∨ c = 10

/-- From `pos` on, the spans are what a user of `highlight_config` relies on: in order, not empty, not overlapping, inside the configuration, and with only white space between them; and there is exactly one mark of the end, the last. -/
def Tiles (cfg : List UInt8) : Nat → List Hl.HSpan → Prop
  | _, [] => False
  | pos, h :: t =>
    if h.type = .end_ then t = [] ∧ ∀ c ∈ cfg.drop pos, Gap c
    else pos ≤ h.start ∧ 0 < h.len ∧ h.start + h.len ≤ cfg.length ∧ (∀ c ∈ (cfg.drop pos).take (h.start - pos), Gap c) ∧ Tiles cfg (h.start + h.len) t

/-- What is printed around the byte at `k`: a colour when a span starts with it, a reset when one ends with it. -/
def before (spans : List Hl.HSpan) (color : Hl.HType → List UInt8) (k : Nat) : List UInt8 :=
  ((spans.find? fun h => h.type ≠ .end_ ∧ h.start = k).map fun h => color h.type).getD []
def after (spans : List Hl.HSpan) (k : Nat) : List UInt8 := if spans.any fun h => h.type ≠ .end_ ∧ h.start + h.len = k + 1 then b!"\x1b[0m" else []

/-- The input, coloured. -/
def colored (input : List UInt8) (spans : List Hl.HSpan) (color : Hl.HType → List UInt8) : List UInt8 :=
  (List.range input.length).flatMap fun k => before spans color k ++ [input.getD k 0] ++ after spans k

/-- `out` is `input` with terminal escape sequences `ESC [ digits m` inserted. -/
inductive Decorated : List UInt8 → List UInt8 → Prop
  | nil : Decorated [] []
  | byte (b : UInt8) {i o : List UInt8} : Decorated i o → Decorated (b :: i) (b :: o)
  | esc (ds : List UInt8) {i o : List UInt8} : (∀ d ∈ ds, 48 ≤ d ∧ d ≤ 57) → Decorated i o → Decorated i (27 :: 91 :: ds ++ 109 :: o)

/-! What a value may be, as the highlighter understands it. -/

/-- The text of an IPv4 address, or of an IPv6 address: what `inet_pton` takes. -/
def Ip4 (v : List UInt8) : Prop := ∃ a, pton4 v = some a
def Ip6 (v : List UInt8) : Prop := ∃ a, pton6 v = some a

/-- A key in base64. -/
def KeyText (v : List UInt8) : Prop := ∃ k : Key, v = rfc4648 k.toList

/-- A name: at most 63 letters, digits, dashes and dots, no dash or dot at either end, and not only digits and dots. -/
def Hostname (v : List UInt8) : Prop :=
  v ≠ [] ∧ v.length ≤ 63 ∧ (∀ c ∈ v, isAlpha c ∨ isDigit c ∨ c = c!"-" ∨ c = c!".") ∧ (∀ c, v.head? = some c ∨ v.getLast? = some c → c ≠ c!"-" ∧ c ≠ c!".") ∧
  ∃ c ∈ v, isAlpha c ∨ c = c!"-"

/-- A decimal number from `lo` to `hi`, of at most ten digits. -/
def Number (lo hi : Nat) (v : List UInt8) : Prop := v.length ≤ 10 ∧ ∃ n, IsDecimal v n ∧ lo ≤ n ∧ n ≤ hi

/-- `0x` and at most eight hexadecimal digits. -/
def HexNumber (v : List UInt8) : Prop := v.length ≤ 10 ∧ ∃ h n, v = b!"0x" ++ h ∧ IsHexNum h n

def Mark (v : List UInt8) : Prop := v = b!"off" ∨ Number 0 4294967295 v ∨ HexNumber v
def Keepalive (v : List UInt8) : Prop := v = b!"off" ∨ Number 0 65535 v

/-- The scope of an address: at most 64 letters, digits and `_=+.-`. -/
def Scope (v : List UInt8) : Prop := v ≠ [] ∧ v.length ≤ 64 ∧ ∀ c ∈ v, isAlpha c ∨ isDigit c ∨ c ∈ b!"_=+.-"

/-- `[address]:port`, `[address%scope]:port` or `host:port`. -/
def EndpointValue (v : List UInt8) : Prop :=
  (∃ h p, v = c!"[" :: h ++ c!"]" :: c!":" :: p ∧ Number 0 65535 p ∧ (Ip6 h ∨ ∃ a z, h = a ++ c!"%" :: z ∧ Ip6 a ∧ Scope z)) ∨
  (∃ h p, v = h ++ c!":" :: p ∧ Number 0 65535 p ∧ (Ip4 h ∨ Hostname h))

/-- An address, or an address, a slash and one to three digits. -/
def Network (v : List UInt8) : Prop :=
  Ip4 v ∨ Ip6 v ∨ ∃ ip m n, v = ip ++ c!"/" :: m ∧ m.length ≤ 3 ∧ IsDecimal m n ∧ ((Ip4 ip ∧ n ≤ 32) ∨ (Ip6 ip ∧ n ≤ 128))

/-! The parts of a configuration. -/

/-- A part: what it is (nothing for what is not marked) and its text. -/
abbrev Part := Option Hl.HType × List UInt8

def isBlank (c : UInt8) : Bool := c = 32 ∨ c = 9
/-- The blanks in front, the text without the blanks around it, and the blanks behind. -/
def lead (v : List UInt8) : List UInt8 := v.takeWhile isBlank
def core (v : List UInt8) : List UInt8 := ((v.dropWhile isBlank).reverse.dropWhile isBlank).reverse
def trail (v : List UInt8) : List UInt8 := ((v.dropWhile isBlank).reverse.takeWhile isBlank).reverse

/-- A text, of which the blanks around it are not marked. -/
def padded (f : List UInt8 → List Part) (v : List UInt8) : List Part := (none, lead v) :: f (core v) ++ [(none, trail v)]

open Classical in
/-- A text that is of some kind, or else an error. -/
noncomputable def check (P : List UInt8 → Prop) (t : Hl.HType) (v : List UInt8) : List Part := [(some (if P v then t else .error), v)]

open Classical in
/-- A DNS server: an address, a name, or an error. -/
noncomputable def dnsItem (v : List UInt8) : List Part := if Ip4 v ∨ Ip6 v then [(some .ip, v)] else check Hostname .host v

open Classical in
/-- A network: an address, perhaps with a slash and a prefix length; or an error. -/
noncomputable def networkItem (v : List UInt8) : List Part :=
  if Network v then [(some .ip, v.takeWhile (· ≠ c!"/")), (some .delimiter, (v.dropWhile (· ≠ c!"/")).take 1), (some .cidr, (v.dropWhile (· ≠ c!"/")).drop 1)]
  else [(some .error, v)]

/-- A list: items between commas, which are errors when only blanks follow. -/
def items (item : List UInt8 → List Part) : List (List UInt8) → List Part
  | [] => []
  | [p] => padded item p
  | p :: r => padded item p ++ (some (if r.map core = [[]] then .error else .delimiter), b!",") :: items item r

def listOf (item : List UInt8 → List Part) (v : List UInt8) : List Part := items item (splitOn c!"," v)

open Classical in
/-- An endpoint: a host, a colon (the last one) and a port; or an error. -/
noncomputable def endpointParts (v : List UInt8) : List Part :=
  if EndpointValue v then
    let port := (v.reverse.takeWhile (· ≠ c!":")).reverse
    [(some .host, v.take (v.length - port.length - 1)), (some .delimiter, b!":"), (some .port, port)]
  else [(some .error, v)]

inductive Sect where
  | interface | peer
deriving DecidableEq

/-- The fields: the name, where it belongs, and what its value is made of. -/
noncomputable def fields : List (List UInt8 × Sect × (List UInt8 → List Part)) :=
  [(b!"PrivateKey", .interface, check KeyText .privateKey), (b!"ListenPort", .interface, check (Number 0 65535) .port), (b!"Address", .interface, listOf networkItem),
   (b!"DNS", .interface, listOf dnsItem), (b!"MTU", .interface, check (Number 576 65535) .mtu), (b!"PublicKey", .peer, check KeyText .publicKey),
   (b!"PresharedKey", .peer, check KeyText .presharedKey), (b!"AllowedIPs", .peer, listOf networkItem), (b!"Endpoint", .peer, endpointParts),
   (b!"PersistentKeepalive", .peer, check Keepalive .keepalive), (b!"FwMark", .interface, check Mark .fwMark), (b!"Table", .interface, check (·.length < 512) .table),
   (b!"PreUp", .interface, check (· ≠ []) .cmd), (b!"PostUp", .interface, check (· ≠ []) .cmd), (b!"PreDown", .interface, check (· ≠ []) .cmd),
   (b!"PostDown", .interface, check (· ≠ []) .cmd), (b!"SaveConfig", .interface, check (fun v => v = b!"true" ∨ v = b!"false") .saveConfig)]

/-- The field of a name, in upper or lower case. -/
noncomputable def fieldOf (name : List UInt8) : Option (Sect × (List UInt8 → List Part)) := (fields.find? fun f => f.1.map lower = name.map lower).map (·.2)

/-- The section of a line like `[Peer]`. -/
def sectionOf (v : List UInt8) : Option Sect :=
  if v.map lower = b!"[peer]" then some .peer else if v.map lower = b!"[interface]" then some .interface else none

/-- A name: a field of the section we are in, or an error. -/
noncomputable def namePart (s : Option Sect) (v : List UInt8) : List Part := [(some (if s ≠ none ∧ (fieldOf v).map (·.1) = s then .field else .error), v)]

/-- The value of a field; of an unknown one it is an error. -/
noncomputable def valueParts (name v : List UInt8) : List Part :=
  match fieldOf name with
  | some f => f.2 v
  | none => [(some .error, v)]

/-- A line without comment and blanks around it, in a section: nothing, a section, or a name, an equals sign (not the first byte) and a value. -/
noncomputable def bodyParts (s : Option Sect) : List UInt8 → List Part
  | [] => []
  | c :: t =>
    if c = c!"[" then [(some (if sectionOf (c :: t) = none then .error else .section_), c :: t)]
    else if c!"=" ∉ t then [(some .error, c :: t)]
    else
      let name := c :: t.takeWhile (· ≠ c!"=")
      let val := (t.dropWhile (· ≠ c!"=")).drop 1
      padded (namePart s) name ++ if val = [] then [(some .error, b!"=")] else (some .delimiter, b!"=") :: padded (valueParts (core name)) val

/-- A line and its comment. -/
noncomputable def lineParts (s : Option Sect) (l : List UInt8) : List Part := padded (bodyParts s) (l.takeWhile (· ≠ c!"#")) ++ [(some .comment, l.dropWhile (· ≠ c!"#"))]

/-- The section after a line. -/
def sectionAfter (s : Option Sect) (l : List UInt8) : Option Sect :=
  let b := core (l.takeWhile (· ≠ c!"#"))
  if b.head? = some c!"[" then sectionOf b else s

/-- The lines, with the line feeds between them. -/
noncomputable def linesParts : Option Sect → List (List UInt8) → List Part
  | _, [] => []
  | s, [l] => lineParts s l
  | s, l :: r => lineParts s l ++ (none, [10]) :: linesParts (sectionAfter s l) r

noncomputable def parts (cfg : List UInt8) : List Part := linesParts none (splitOn 10 cfg)

/-- The spans of parts which start at an offset; there are none for empty parts. -/
def place : Nat → List Part → List Hl.HSpan
  | _, [] => []
  | o, (none, v) :: r => place (o + v.length) r
  | o, (some t, v) :: r => if v = [] then place o r else ⟨t, o, v.length⟩ :: place (o + v.length) r

/-! What `wg` reads of a configuration (C74). -/

/-- A line says `name = value`: before a comment, with any blanks around name and value. -/
def Setting (l name v : List UInt8) : Prop := ∃ x y, l.takeWhile (· ≠ c!"#") = x ++ c!"=" :: y ∧ c!"=" ∉ x ∧ core x = name ∧ core y = v

/-- The settings that only `wg-quick` knows. -/
def quickNames : List (List UInt8) := [b!"address", b!"dns", b!"mtu", b!"table", b!"preup", b!"postup", b!"predown", b!"postdown", b!"saveconfig"]

/-- A line that `wg-quick` does not hand to `wg`. -/
def QuickLine (l : List UInt8) : Prop := ∃ name v, Setting l name v ∧ name.map lower ∈ quickNames

end WG.Spec
