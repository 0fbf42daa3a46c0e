import Verif.Model.Libc
/-! Model of contrib/highlighter/highlighter.c ("hl") and highlight.c, built without MOBILE_WGQUICK_SUBSET. Pointers into the configuration are offsets. -/
namespace WG.Hl

/-- A `char` as an `int`; `sc`: `char` is signed. -/
def chI (sc : Bool) (c : UInt8) : Int := if sc ∧ 128 ≤ c then (c.toNat : Int) - 256 else c.toNat

/-- hl:18-21 `is_decimal`. -/
def isDecimal (sc : Bool) (c : UInt8) : Bool := 48 ≤ chI sc c ∧ chI sc c ≤ 57

/-- `c | 32`, which sets a bit of the low byte, also of a negative number. -/
def or32 (sc : Bool) (c : UInt8) : Int := chI sc (c ||| 32)

/-- hl:23-26 `is_hexadecimal`. -/
def isHexadecimal (sc : Bool) (c : UInt8) : Bool := isDecimal sc c || (97 ≤ or32 sc c ∧ or32 sc c ≤ 102)

/-- hl:28-31 `is_alphabet`. -/
def isAlphabet (sc : Bool) (c : UInt8) : Bool := 97 ≤ or32 sc c ∧ or32 sc c ≤ 122

/-- A span as the functions below see it (hl:13-16 `string_span_t`): its bytes, and the one behind it, which is in the configuration or its NUL. -/
structure Text where
  s : List UInt8
  next : UInt8

/-- Reading `s.s[i]`; what is further than one byte behind the span is not allowed (it might still be in the configuration, but this never happens). -/
def rd (t : List UInt8) (next : UInt8) (i : Nat) : Res UInt8 :=
  if i < t.length then .ok (t.getD i 0) else if i = t.length then .ok next else .ub

/-- hl:33-40 `is_same`. -/
def isSame (s : Text) (c : CStr) : Bool := s.s.length = c.length ∧ s.s = c

/-- hl:50-53: `(unsigned)a - 'a' < 26`, then `a &= 95`. -/
def upper (sc : Bool) (a : UInt8) : UInt8 := if (chI sc a - 97) % 2 ^ 32 < 26 then a &&& 95 else a

/-- hl:42-58 `is_caseless_same`. -/
def isCaselessSame (sc : Bool) (s : Text) (c : CStr) : Bool := s.s.length = c.length ∧ (c.zip s.s).all fun (a, b) => upper sc a = upper sc b

/-- hl:60-92 `is_valid_key`. -/
def isValidKey (sc : Bool) (s : Text) : Bool :=
  if s.s.length ≠ 44 ∨ s.s.getD 43 0 ≠ c!"=" then false
  else if ¬ (s.s.take 42).all fun c => isDecimal sc c || isAlphabet sc c || c = c!"/" || c = c!"+" then false
  else b!"AEIMQUYcgkosw480".contains (s.s.getD 42 0)

/-- hl:105-119: the loop of `is_valid_hostname`; `none`: `return false`; else `num_digit` and how often `num_entity` was decremented. Line 117 cannot be reached with a dot. -/
def hostLoop (sc : Bool) : List UInt8 → Nat → Nat → Option (Nat × Nat)
  | [], d, p => some (d, p)
  | c :: t, d, p =>
    if isDecimal sc c then hostLoop sc t (d + 1) p
    else if c = c!"." then hostLoop sc t d (p + 1)
    else if ¬ isAlphabet sc c ∧ c ≠ c!"-" then none
    else hostLoop sc t d p

/-- hl:94-121 `is_valid_hostname`. -/
def isValidHostname (sc : Bool) (s : Text) : Bool :=
  if s.s.length > 63 ∨ s.s.length = 0 then false
  else if s.s.getD 0 0 = c!"-" ∨ s.s.getD (s.s.length - 1) 0 = c!"-" then false
  else if s.s.getD 0 0 = c!"." ∨ s.s.getD (s.s.length - 1) 0 = c!"." then false
  else match hostLoop sc s.s 0 0 with
    | none => false
    | some (d, p) => d ≠ s.s.length - p

/-- hl:128-129: at most `n` digits at the start of `t`: their number and value. -/
def octet (sc : Bool) : Nat → List UInt8 → Nat → Nat → Nat × Nat
  | 0, _, j, val => (j, val)
  | _, [], j, val => (j, val)
  | n + 1, c :: t, j, val => if isDecimal sc c then octet sc n t (j + 1) (10 * val + (c.toNat - 48)) else (j, val)

/-- hl:125-137: the loop of `is_valid_ipv4`; `n`: `4 - i`; `t`: the span from `pos` on. -/
def v4Loop (sc : Bool) (next : UInt8) : Nat → List UInt8 → Res Bool
  | 0, _ => .ok false
  | n + 1, t =>
    if t = [] then .ok false
    else
      let o := octet sc 3 t 0 0
      if o.1 = 0 ∨ (o.1 > 1 ∧ t.getD 0 0 = c!"0") ∨ o.2 > 255 then .ok false
      else if o.1 = t.length ∧ n = 0 then .ok true
      else (rd t next o.1).bind fun c => if c ≠ c!"." then .ok false else v4Loop sc next n (t.drop (o.1 + 1))

/-- hl:123-139 `is_valid_ipv4`. -/
def isValidIpv4 (sc : Bool) (s : Text) : Res Bool := v4Loop sc s.next 4 s.s

/-- hl:161: at most `n` hexadecimal digits at the start: their number. -/
def hexRun (sc : Bool) : Nat → List UInt8 → Nat
  | 0, _ => 0
  | _, [] => 0
  | n + 1, c :: t => if isHexadecimal sc c then hexRun sc n t + 1 else 0

/-- hl:153-175: the loop of `is_valid_ipv6`; `t`: the span from `pos` on. The last argument bounds the number of rounds, which is at most the length. -/
def v6Loop (sc : Bool) (next : UInt8) : Nat → List UInt8 → Nat → Bool → Res Bool
  | 0, _, _, _ => .running
  | fuel + 1, t, i, seen =>
    if t = [] then .ok true
    else if t.getD 0 0 = c!":" ∧ ¬ seen then
      if t.tail = [] then .ok true
      else if i = 7 then .ok false
      else v6Loop sc next fuel t.tail (i + 1) true
    else
      let j := hexRun sc 4 t
      if j = 0 then .ok false
      else if j = t.length ∧ (seen ∨ i = 7) then .ok true
      else if i = 7 then .ok false
      else
        (rd t next j).bind fun c =>
        if c ≠ c!":" then
          if c ≠ c!"." ∨ (i < 6 ∧ ¬ seen) then .ok false
          else isValidIpv4 sc ⟨t, next⟩
        else v6Loop sc next fuel (t.drop (j + 1)) (i + 1) seen

/-- hl:141-177 `is_valid_ipv6`. -/
def isValidIpv6 (sc : Bool) (s : Text) : Res Bool :=
  if s.s.length < 2 then .ok false
  else if s.s.getD 0 0 = c!":" ∧ s.s.getD 1 0 ≠ c!":" then .ok false
  else if s.s.getD (s.s.length - 1) 0 = c!":" ∧ s.s.getD (s.s.length - 2) 0 ≠ c!":" then .ok false
  else v6Loop sc s.next (s.s.length + 1) (if s.s.getD 0 0 = c!":" then s.s.tail else s.s) 0 false

/-- hl:188-195: hexadecimal digits; `none`: `return false`. -/
def hexNum (sc : Bool) : List UInt8 → Nat → Option Nat
  | [], val => some val
  | c :: t, val =>
    if (chI sc c - 48) % 2 ^ 32 < 10 then hexNum sc t (16 * val + (c.toNat - 48))
    else if (or32 sc c - 97) % 2 ^ 32 < 6 then hexNum sc t (16 * val + ((c ||| 32).toNat - 97) + 10)
    else none

/-- hl:197-201: decimal digits. -/
def decNum (sc : Bool) : List UInt8 → Nat → Option Nat
  | [], val => some val
  | c :: t, val => if isDecimal sc c then decNum sc t (10 * val + (c.toNat - 48)) else none

/-- hl:179-204 `is_valid_uint`; with at most 10 digits there is no overflow of 64 bits. -/
def isValidUint (sc : Bool) (s : Text) (hex : Bool) (min max : Nat) : Bool :=
  if s.s.length > 10 ∨ s.s.length = 0 then false
  else
    match (if hex ∧ s.s.length > 2 ∧ s.s.getD 0 0 = c!"0" ∧ s.s.getD 1 0 = c!"x" then hexNum sc (s.s.drop 2) 0 else decNum sc s.s 0) with
    | none => false
    | some val => val ≤ max ∧ val ≥ min

/-- hl:206-209 `is_valid_port`. -/
def isValidPort (sc : Bool) (s : Text) : Bool := isValidUint sc s false 0 65535
/-- hl:211-214 `is_valid_mtu`. -/
def isValidMtu (sc : Bool) (s : Text) : Bool := isValidUint sc s false 576 65535
/-- hl:216-221 `is_valid_persistentkeepalive`. -/
def isValidKeepalive (sc : Bool) (s : Text) : Bool := isSame s b!"off" || isValidUint sc s false 0 65535
/-- hl:225-230 `is_valid_fwmark`. -/
def isValidFwmark (sc : Bool) (s : Text) : Bool := isSame s b!"off" || isValidUint sc s true 0 4294967295
/-- hl:232-243 `is_valid_table`. -/
def isValidTable (sc : Bool) (s : Text) : Bool := isSame s b!"auto" || isSame s b!"off" || s.s.length < 512 || isValidUint sc s false 0 4294967295
/-- hl:245-248 `is_valid_saveconfig`. -/
def isValidSaveconfig (s : Text) : Bool := isSame s b!"true" || isSame s b!"false"
/-- hl:250-255 `is_valid_prepostupdown`. -/
def isValidCmd (s : Text) : Bool := s.s.length ≠ 0

/-- hl:258-269 `is_valid_scope`. -/
def isValidScope (sc : Bool) (s : Text) : Bool :=
  if s.s.length > 64 ∨ s.s.length = 0 then false
  else s.s.all fun c => isAlphabet sc c || isDecimal sc c || c = c!"_" || c = c!"=" || c = c!"+" || c = c!"." || c = c!"-"

/-- hl:281-303: the loop over `[host%scope]:port`. `host`: `hostspan`; the last argument: the span from `i` on. -/
def bracketLoop (sc : Bool) (next : UInt8) (host : List UInt8) (seen : Bool) : List UInt8 → Res Bool
  | [] => .ok false
  | c :: t =>
    if c = c!"%" then
      if seen then .ok false
      else (isValidIpv6 sc ⟨host, c⟩).bind fun ok => if ¬ ok then .ok false else bracketLoop sc next [] true t
    else if c = c!"]" then
      (if seen then .ok (isValidScope sc ⟨host, c⟩) else isValidIpv6 sc ⟨host, c⟩).bind fun ok =>
      if ¬ ok then .ok false
      else if t = [] then .ok false
      else if t.getD 0 0 ≠ c!":" then .ok false
      else .ok (isValidPort sc ⟨t.drop 1, next⟩)
    else bracketLoop sc next (host ++ [c]) seen t

/-- hl:271-312 `is_valid_endpoint`. -/
def isValidEndpoint (sc : Bool) (s : Text) : Res Bool :=
  match s.s with
  | [] => .ok false
  | c :: t =>
    if c = c!"[" then bracketLoop sc s.next [] false t
    else
      let host := s.s.takeWhile (· ≠ c!":")
      match s.s.dropWhile (· ≠ c!":") with
      | [] => .ok false
      | colon :: port =>
        if ¬ isValidPort sc ⟨port, s.next⟩ then .ok false
        else (isValidIpv4 sc ⟨host, colon⟩).bind fun ok => if ok then .ok true else .ok (isValidHostname sc ⟨host, colon⟩)

/-- hl:325-329: the prefix length, in 16 bits; at most three digits. -/
def cidrNum (sc : Bool) : List UInt8 → Nat → Option Nat
  | [], val => some val
  | c :: t, val => if isDecimal sc c then cidrNum sc t ((10 * val + (c.toNat - 48)) % 2 ^ 16) else none

/-- hl:314-339 `is_valid_network`. -/
def isValidNetwork (sc : Bool) (s : Text) : Res Bool :=
  let ip := s.s.takeWhile (· ≠ c!"/")
  match s.s.dropWhile (· ≠ c!"/") with
  | slash :: cidr =>
    if cidr.length > 3 ∨ cidr.length = 0 then .ok false
    else
      match cidrNum sc cidr 0 with
      | none => .ok false
      | some n =>
        (isValidIpv4 sc ⟨ip, slash⟩).bind fun ok =>
        if ok then .ok (n ≤ 32)
        else (isValidIpv6 sc ⟨ip, slash⟩).bind fun ok => if ok then .ok (n ≤ 128) else .ok false
  | [] => (isValidIpv4 sc s).bind fun ok => if ok then .ok true else isValidIpv6 sc s

/-- hl:341-365 `enum field`. -/
inductive Field where
  | interfaceSection | privateKey | listenPort | address | dns | mtu | fwMark | table | preUp | postUp | preDown | postDown | saveConfig
  | peerSection | publicKey | presharedKey | allowedIPs | endpoint | persistentKeepalive | invalid
deriving DecidableEq

/-- hl:367-374 `section_for_field`. -/
def sectionForField : Field → Field
  | .privateKey | .listenPort | .address | .dns | .mtu | .fwMark | .table | .preUp | .postUp | .preDown | .postDown | .saveConfig => .interfaceSection
  | .publicKey | .presharedKey | .allowedIPs | .endpoint | .persistentKeepalive => .peerSection
  | .interfaceSection | .peerSection | .invalid => .invalid

/-- hl:379-398: the names, in the order of the checks. -/
def fieldNames : List (CStr × Field) :=
  [(b!"PrivateKey", .privateKey), (b!"ListenPort", .listenPort), (b!"Address", .address), (b!"DNS", .dns), (b!"MTU", .mtu), (b!"PublicKey", .publicKey),
   (b!"PresharedKey", .presharedKey), (b!"AllowedIPs", .allowedIPs), (b!"Endpoint", .endpoint), (b!"PersistentKeepalive", .persistentKeepalive), (b!"FwMark", .fwMark),
   (b!"Table", .table), (b!"PreUp", .preUp), (b!"PostUp", .postUp), (b!"PreDown", .preDown), (b!"PostDown", .postDown), (b!"SaveConfig", .saveConfig)]

/-- hl:376-400 `get_field`. -/
def getField (sc : Bool) (s : Text) : Field := ((fieldNames.find? fun x => isCaselessSame sc s x.1).map (·.2)).getD .invalid

/-- hl:402-409 `get_sectiontype`. -/
def getSectiontype (sc : Bool) (s : Text) : Field :=
  if isCaselessSame sc s b!"[Peer]" then .peerSection else if isCaselessSame sc s b!"[Interface]" then .interfaceSection else .invalid

/-- highlighter.h:8-30 `enum highlight_type`. -/
inductive HType where
  | section_ | field | privateKey | publicKey | presharedKey | ip | cidr | host | port | mtu | keepalive | comment | delimiter | table | fwMark | saveConfig | cmd | error | end_
deriving DecidableEq

/-- highlighter.h:32-35 `struct highlight_span`. -/
structure HSpan where
  type : HType
  start : Nat
  len : Nat
deriving DecidableEq

/-- hl:411-414 `struct highlight_span_array`, and the number of reallocations so far. `spans` is NULL when `cap` is 0. -/
structure Arr where
  spans : List HSpan := []
  cap : Nat := 0
  calls : Nat := 0
deriving DecidableEq

/-- hl:13-16 `string_span_t`, in the configuration. -/
structure Span where
  start : Nat
  len : Nat
deriving DecidableEq

/-- The machine: is `char` signed, and does the n-th reallocation succeed (hl:416-426 `realloc_array` may refuse as well)? -/
structure Mach where
  sc : Bool
  mem : Nat → Bool

/-- hl:428-446 `append_highlight_span`; its result is never looked at. -/
def append (m : Mach) (a : Arr) (s : Span) (t : HType) : Arr :=
  if s.len = 0 then a
  else if a.spans.length ≥ a.cap then
    if m.mem a.calls then { spans := a.spans ++ [⟨t, s.start, s.len⟩], cap := if a.cap ≠ 0 then a.cap * 2 else 64, calls := a.calls + 1 }
    else { calls := a.calls + 1 }
  else { a with spans := a.spans ++ [⟨t, s.start, s.len⟩] }

/-- The bytes of a span and the one behind it, which must be in the configuration or its NUL. -/
def text (cfg : CStr) (s : Span) : Res Text :=
  if s.start + s.len ≤ cfg.length then .ok ⟨(cfg.drop s.start).take s.len, cfg.getD (s.start + s.len) 0⟩ else .ub

/-- One span with a type, or an error. -/
def one (m : Mach) (a : Arr) (s : Span) (ok : Bool) (t : HType) : Arr := append m a s (if ok then t else .error)

/-- hl:448-485 `highlight_multivalue_value`. -/
def multivalueValue (m : Mach) (cfg : CStr) (a : Arr) (s : Span) (field : Field) : Res Arr :=
  (text cfg s).bind fun t =>
  if field = .dns then
    (isValidIpv4 m.sc t).bind fun ok4 =>
    (if ok4 then .ok true else isValidIpv6 m.sc t).bind fun ok =>
    .ok (if ok then append m a s .ip else one m a s (isValidHostname m.sc t) .host)
  else if field = .address ∨ field = .allowedIPs then
    (isValidNetwork m.sc t).bind fun ok =>
    if ¬ ok then .ok (append m a s .error)
    else
      let slash := (t.s.takeWhile (· ≠ c!"/")).length
      if slash = s.len then .ok (append m a s .ip)
      else .ok (append m (append m (append m a ⟨s.start, slash⟩ .ip) ⟨s.start + slash, 1⟩ .delimiter) ⟨s.start + slash + 1, s.len - slash - 1⟩ .cidr)
  else .ok (append m a s .error)

/-- hl:492-506: the loop of `highlight_multivalue`; `i`: an offset in the configuration; the array, `current_span` and `len_at_last_space` at its end. -/
def multiLoop (m : Mach) (cfg : CStr) (field : Field) : List UInt8 → Nat → Arr → Span → Nat → Res (Arr × Span × Nat)
  | [], _, a, cur, last => .ok (a, cur, last)
  | c :: t, i, a, cur, last =>
    if c = c!"," then
      (multivalueValue m cfg a ⟨cur.start, last⟩ field).bind fun a =>
      multiLoop m cfg field t (i + 1) (append m a ⟨i, 1⟩ .delimiter) ⟨i + 1, 0⟩ 0
    else if c = c!" " ∨ c = 9 then
      if i = cur.start ∧ cur.len = 0 then multiLoop m cfg field t (i + 1) a ⟨cur.start + 1, cur.len⟩ last
      else multiLoop m cfg field t (i + 1) a ⟨cur.start, cur.len + 1⟩ last
    else multiLoop m cfg field t (i + 1) a ⟨cur.start, cur.len + 1⟩ (cur.len + 1)

/-- hl:487-512 `highlight_multivalue`. Line 510 reads the last element of the array, which must not be empty. -/
def multivalue (m : Mach) (cfg : CStr) (a : Arr) (s : Span) (field : Field) : Res Arr :=
  (text cfg s).bind fun t =>
  (multiLoop m cfg field t.s s.start a ⟨s.start, 0⟩ 0).bind fun r =>
  if r.2.2 ≠ 0 then multivalueValue m cfg r.1 ⟨r.2.1.start, r.2.2⟩ field
  else match r.1.spans.getLast? with
    | none => .ub
    | some h => .ok (if h.type = .delimiter then { r.1 with spans := r.1.spans.dropLast ++ [{ h with type := .error }] } else r.1)

/-- hl:514-577 `highlight_value`. -/
def value (m : Mach) (cfg : CStr) (a : Arr) (s : Span) (field : Field) : Res Arr :=
  (text cfg s).bind fun t =>
  match field with
  | .privateKey => .ok (one m a s (isValidKey m.sc t) .privateKey)
  | .publicKey => .ok (one m a s (isValidKey m.sc t) .publicKey)
  | .presharedKey => .ok (one m a s (isValidKey m.sc t) .presharedKey)
  | .mtu => .ok (one m a s (isValidMtu m.sc t) .mtu)
  | .saveConfig => .ok (one m a s (isValidSaveconfig t) .saveConfig)
  | .fwMark => .ok (one m a s (isValidFwmark m.sc t) .fwMark)
  | .table => .ok (one m a s (isValidTable m.sc t) .table)
  | .preUp | .postUp | .preDown | .postDown => .ok (one m a s (isValidCmd t) .cmd)
  | .listenPort => .ok (one m a s (isValidPort m.sc t) .port)
  | .persistentKeepalive => .ok (one m a s (isValidKeepalive m.sc t) .keepalive)
  | .endpoint =>
    (isValidEndpoint m.sc t).bind fun ok =>
    if ¬ ok then .ok (append m a s .error)
    else
      -- hl:559-562: the last colon; a valid endpoint has one
      let port := (t.s.reverse.takeWhile (· ≠ c!":")).length
      if port = s.len then .ub
      else
        let colon := s.len - 1 - port
        .ok (append m (append m (append m a ⟨s.start, colon⟩ .host) ⟨s.start + colon, 1⟩ .delimiter) ⟨s.start + colon + 1, s.len - colon - 1⟩ .port)
  | .address | .dns | .allowedIPs => multivalue m cfg a s field
  | .interfaceSection | .peerSection | .invalid => .ok (append m a s .error)

/-- hl:585: the states. -/
inductive On where
  | none | key | value | comment | section_
deriving DecidableEq

/-- hl:581-586: the variables of `highlight_config`. -/
structure St where
  arr : Arr := {}
  cur : Span := ⟨0, 0⟩
  section_ : Field := .invalid
  field : Field := .invalid
  on : On := .none
  last : Nat := 0
  eq : Nat := 0
deriving DecidableEq

/-- hl:590-608: what happens at the end of a line or the start of a comment. -/
def flush (m : Mach) (cfg : CStr) (st : St) : Res St :=
  match st.on with
  | .key => .ok { st with arr := append m st.arr ⟨st.cur.start, st.last⟩ .error, cur := ⟨st.cur.start, st.last⟩ }
  | .value =>
    if st.cur.len ≠ 0 then
      (value m cfg (append m st.arr ⟨st.eq, 1⟩ .delimiter) ⟨st.cur.start, st.last⟩ st.field).bind fun a => .ok { st with arr := a, cur := ⟨st.cur.start, st.last⟩ }
    else .ok { st with arr := append m st.arr ⟨st.eq, 1⟩ .error }
  | .section_ =>
    (text cfg ⟨st.cur.start, st.last⟩).bind fun t =>
    let sec := getSectiontype m.sc t
    .ok { st with section_ := sec, arr := append m st.arr ⟨st.cur.start, st.last⟩ (if sec = .invalid then .error else .section_), cur := ⟨st.cur.start, st.last⟩ }
  | .comment => .ok { st with arr := append m st.arr st.cur .comment }
  | .none => .ok st

/-- hl:588-643: one round of the loop, at the byte `c` at `i`. -/
def step (m : Mach) (cfg : CStr) (i : Nat) (c : UInt8) (st : St) : Res St :=
  if c = 10 ∨ (st.on ≠ .comment ∧ c = c!"#") then
    (flush m cfg st).bind fun st =>
    if c = c!"#" then .ok { st with last := 0, field := .invalid, cur := ⟨i, 1⟩, on := .comment }
    else .ok { st with last := 0, field := .invalid, cur := ⟨i + 1, 0⟩, on := .none }
  else if st.on = .comment then .ok { st with cur := ⟨st.cur.start, st.cur.len + 1⟩ }
  else if c = c!" " ∨ c = 9 then
    if i = st.cur.start ∧ st.cur.len = 0 then .ok { st with cur := ⟨st.cur.start + 1, st.cur.len⟩ }
    else .ok { st with cur := ⟨st.cur.start, st.cur.len + 1⟩ }
  else if c = c!"=" ∧ st.on = .key then
    (text cfg ⟨st.cur.start, st.last⟩).bind fun t =>
    let field := getField m.sc t
    let sec := sectionForField field
    .ok { st with field := field, arr := append m st.arr ⟨st.cur.start, st.last⟩ (if sec = .invalid ∨ field = .invalid ∨ sec ≠ st.section_ then .error else .field),
                  eq := i, cur := ⟨i + 1, 0⟩, on := .value }
  else .ok { st with on := if st.on = .none then (if c = c!"[" then .section_ else .key) else st.on, last := st.cur.len + 1, cur := ⟨st.cur.start, st.cur.len + 1⟩ }

/-- hl:588-643: the loop. -/
def loop (m : Mach) (cfg : CStr) : List UInt8 → Nat → St → Res St
  | [], _, st => flush m cfg st
  | c :: t, i, st => (step m cfg i c st).bind fun st => loop m cfg t (i + 1) st

/-- hl:579-648 `highlight_config`: the array returned (NULL when empty). -/
def highlightConfig (m : Mach) (cfg : CStr) : Res (List HSpan) :=
  (loop m cfg cfg 0 {}).bind fun st => .ok (append m st.arr ⟨0, 2 ^ 64 - 1⟩ .end_).spans

/-- highlight.c:38-61 `colormap`. -/
def color : HType → CStr
  | .section_ => b!"\x1b[30m\x1b[1m"
  | .field => b!"\x1b[34m\x1b[1m"
  | .privateKey | .publicKey | .presharedKey => b!"\x1b[33m\x1b[1m"
  | .ip => b!"\x1b[32m"
  | .cidr => b!"\x1b[33m"
  | .host => b!"\x1b[32m\x1b[1m"
  | .port => b!"\x1b[35m"
  | .mtu | .keepalive | .table | .fwMark | .saveConfig => b!"\x1b[34m"
  | .comment | .delimiter => b!"\x1b[36m"
  | .cmd => b!"\x1b[37m"
  | .error => b!"\x1b[31m\x1b[4m"
  | .end_ => []

/-- `fwrite(input + from, 1, n, stdout)`: the bytes must be in the array (1 MiB), of which `input` is the part read. `size_t` has 64 bits. -/
def slice (input : List UInt8) (frm : Nat) (n : Int) : Res (List UInt8) :=
  if 0 ≤ n ∧ frm + n.toNat ≤ input.length then .ok ((input.drop frm).take n.toNat) else .ub

/-- highlight.c:74-82: the loop that prints; NULL or a missing end is undefined. -/
def paint (input : List UInt8) : List HSpan → Nat → Res (List UInt8)
  | [], _ => .ub
  | h :: t, last =>
    if h.type = .end_ then slice input last ((input.length : Int) - last)
    else
      (slice input last ((h.start : Int) - last)).bind fun a =>
      (slice input h.start h.len).bind fun b =>
      (paint input t (h.start + h.len)).bind fun r => .ok (a ++ color h.type ++ b ++ b!"\x1b[0m" ++ r)

/-- highlight.c:64-85 `main`, for the bytes read (at most 1048575): what is printed. -/
def main (m : Mach) (input : List UInt8) : Res (List UInt8) :=
  (highlightConfig m (cstr input)).bind fun spans => (paint input spans 0).bind fun r => .ok (b!"\x1b[0m" ++ r)

end WG.Hl
