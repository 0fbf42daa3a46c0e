import Verif.Spec.ConfigFile
import Verif.Spec.Terminal
/-! What `wg show` should print, independent of the model: texts without colours, as lines of words. -/
namespace WG.Spec

/-- ASCII bytes of characters. -/
def ascii (l : List Char) : List UInt8 := l.map fun c => UInt8.ofNat c.toNat

/-- The decimal and lowercase hexadecimal numerals of a number. -/
def decimal (n : Nat) : List UInt8 := ascii (Nat.toDigits 10 n)
def hexadecimal (n : Nat) : List UInt8 := ascii (Nat.toDigits 16 n)

/-- Texts separated by `sep`. -/
def joinWith (sep : List UInt8) : List (List UInt8) → List UInt8
  | [] => []
  | [x] => x
  | x :: l => x ++ sep ++ joinWith sep l

/-- Lines, each followed by a line feed. -/
def unlines (ls : List (List UInt8)) : List UInt8 := ls.flatMap (· ++ [10])

/-! ### Durations -/

/-- A duration in years of 365 days, days, hours, minutes and seconds. -/
structure Duration where
  years : Nat
  days : Nat
  hours : Nat
  minutes : Nat
  seconds : Nat

/-- Its length in seconds. -/
def Duration.total (d : Duration) : Nat := (((d.years * 365 + d.days) * 24 + d.hours) * 60 + d.minutes) * 60 + d.seconds

/-- Every part except years is below one of the next larger unit. -/
def Duration.Proper (d : Duration) : Prop := d.days < 365 ∧ d.hours < 24 ∧ d.minutes < 60 ∧ d.seconds < 60

/-- `1 day`, `2 days`. -/
def quantity (n : Nat) (unit : List UInt8) : List UInt8 := decimal n ++ b!" " ++ unit ++ (if n = 1 then [] else b!"s")

/-- The parts that are not zero, largest unit first, separated by commas. -/
def Duration.text (d : Duration) : List UInt8 :=
  joinWith b!", " (([(d.years, b!"year"), (d.days, b!"day"), (d.hours, b!"hour"), (d.minutes, b!"minute"), (d.seconds, b!"second")].filter
    (·.1 ≠ 0)).map fun q => quantity q.1 q.2)

/-! ### The human-readable listing -/

/-- The texts the system supplies: addresses, endpoints, and numbers of bytes from 1024 on. `hide`: keys are hidden. -/
structure Texts where
  addr : Addr → List UInt8
  endpoint : Endpoint → List UInt8
  frac : Nat → Nat → List UInt8
  hide : Bool
  now : Int

def secretText (T : Texts) (k : Key) : List UInt8 := if T.hide then b!"(hidden)" else rfc4648 k.toList

/-- An amount of bytes. -/
def amount (T : Texts) (b : Nat) : List UInt8 :=
  if b < 2 ^ 10 then decimal b ++ b!" B"
  else if b < 2 ^ 20 then T.frac b (2 ^ 10) ++ b!" KiB"
  else if b < 2 ^ 30 then T.frac b (2 ^ 20) ++ b!" MiB"
  else if b < 2 ^ 40 then T.frac b (2 ^ 30) ++ b!" GiB"
  else T.frac b (2 ^ 40) ++ b!" TiB"

/-- The time since a handshake. -/
def AgoText (now sec : Int) (t : List UInt8) : Prop :=
  (now = sec ∧ t = b!"Now") ∨ (now < sec ∧ t = b!"(System clock wound backward; connection problems may ensue.)") ∨
  (sec < now ∧ ∃ d : Duration, d.Proper ∧ (d.total : Int) = now - sec ∧ t = d.text ++ b!" ago")

/-- The keepalive interval. -/
def EveryText (n : Nat) (t : List UInt8) : Prop := ∃ d : Duration, d.Proper ∧ d.total = n ∧ t = b!"every " ++ d.text

/-- The lines about the device. -/
def deviceLines (T : Texts) (d : Device) : List (List UInt8) :=
  [b!"interface: " ++ d.name] ++
  (if d.flags.hasPublicKey then [b!"  public key: " ++ rfc4648 d.publicKey.toList] else []) ++
  (if d.flags.hasPrivateKey then [b!"  private key: " ++ secretText T d.privateKey] else []) ++
  (if d.listenPort ≠ 0 then [b!"  listening port: " ++ decimal d.listenPort.toNat] else []) ++
  (if d.fwmark ≠ 0 then [b!"  fwmark: 0x" ++ hexadecimal d.fwmark.toNat] else [])

/-- The lines about a peer: `PeerLines T p ls`. -/
def PeerLines (T : Texts) (p : Peer) (ls : List (List UInt8)) : Prop :=
  ∃ hs ka, (p.handshakeSec ≠ 0 → AgoText T.now p.handshakeSec hs) ∧ (p.keepalive ≠ 0 → EveryText p.keepalive.toNat ka) ∧
  ls = [b!"peer: " ++ rfc4648 p.publicKey.toList] ++
    (if p.flags.hasPresharedKey then [b!"  preshared key: " ++ secretText T p.presharedKey] else []) ++
    (if p.endpoint ≠ .unset then [b!"  endpoint: " ++ T.endpoint p.endpoint] else []) ++
    [b!"  allowed ips: " ++ (if p.allowedIPs = [] then b!"(none)"
      else joinWith b!", " (p.allowedIPs.map fun a => T.addr a.addr ++ b!"/" ++ decimal a.cidr.toNat))] ++
    (if p.handshakeSec ≠ 0 then [b!"  latest handshake: " ++ hs] else []) ++
    (if p.rx ≠ 0 ∨ p.tx ≠ 0 then [b!"  transfer: " ++ amount T p.rx ++ b!" received, " ++ amount T p.tx ++ b!" sent"] else []) ++
    (if p.keepalive ≠ 0 then [b!"  persistent keepalive: " ++ ka] else [])

/-- The whole listing for the peers in the order `ps`: a blank line before each peer. -/
def Listing (T : Texts) (d : Device) (ps : List Peer) (out : List UInt8) : Prop :=
  ∃ blocks, List.Forall₂ (PeerLines T) ps blocks ∧ out = unlines (deviceLines T d ++ blocks.flatMap ([] :: ·))

/-- `a` should be listed no later than `b`: newest handshake first, peers without handshake (time zero) last. -/
def NewerOrSame (a b : Peer) : Prop :=
  (b.handshakeSec = 0 ∧ b.handshakeNsec = 0) ∨
  (¬ (a.handshakeSec = 0 ∧ a.handshakeNsec = 0) ∧
    (b.handshakeSec < a.handshakeSec ∨ (b.handshakeSec = a.handshakeSec ∧ b.handshakeNsec ≤ a.handshakeNsec)))

/-- The device with its secrets blanked. -/
def withoutSecrets (d : Device) : Device :=
  { d with privateKey := zeroKey, peers := d.peers.map fun p => { p with presharedKey := zeroKey } }

/-- `qsort` of libc: for a consistent comparison (a total preorder), the result is the elements in order. -/
def IsQsort (qsort : (n : Nat) → (Nat → Nat → Int) → List Nat) : Prop :=
  ∀ n cmp, (∀ i j, cmp i j = - cmp j i) → (∀ i j k, cmp i j ≤ 0 → cmp j k ≤ 0 → cmp i k ≤ 0) →
    (qsort n cmp).Perm (List.range n) ∧ (qsort n cmp).Pairwise fun i j => cmp i j ≤ 0

/-! ### The scripting listing -/

/-- A table: rows of columns, columns separated by tabs. -/
def table (rows : List (List (List UInt8))) : List UInt8 := unlines (rows.map (joinWith [9]))

def optKey (k : Key) (present : Bool) : List UInt8 := if present then rfc4648 k.toList else b!"(none)"

/-- The columns about the device: private key, public key, port, fwmark. -/
def deviceColumns (d : Device) : List (List UInt8) :=
  [optKey d.privateKey d.flags.hasPrivateKey, optKey d.publicKey d.flags.hasPublicKey, decimal d.listenPort.toNat,
   if d.fwmark = 0 then b!"off" else b!"0x" ++ hexadecimal d.fwmark.toNat]

/-- The columns about a peer: public key, preshared key, endpoint, allowed IPs, latest handshake, received, sent, keepalive. -/
def peerColumns (T : Texts) (p : Peer) : List (List UInt8) :=
  [rfc4648 p.publicKey.toList, optKey p.presharedKey p.flags.hasPresharedKey,
   if p.endpoint = .unset then b!"(none)" else T.endpoint p.endpoint,
   if p.allowedIPs = [] then b!"(none)" else joinWith b!"," (p.allowedIPs.map fun a => T.addr a.addr ++ b!"/" ++ decimal a.cidr.toNat),
   decimal (p.handshakeSec % 2 ^ 64).toNat, decimal p.rx, decimal p.tx,
   if p.keepalive = 0 then b!"off" else decimal p.keepalive.toNat]

/-- The rows of a dump; with `all` each row starts with the interface name. -/
def dumpRows (T : Texts) (d : Device) (withName : Bool) : List (List (List UInt8)) :=
  (deviceColumns d :: d.peers.map (peerColumns T)).map fun r => if withName then d.name :: r else r

/-- Reading a table back: lines without their line feeds, split at tabs. -/
def splitOn (sep : UInt8) : List UInt8 → List (List UInt8)
  | [] => [[]]
  | c :: t => if c = sep then [] :: splitOn sep t
              else match splitOn sep t with
                   | p :: ps => (c :: p) :: ps
                   | [] => [[c]]

def readTable (out : List UInt8) : List (List (List UInt8)) := (fileLines out).map fun l => splitOn 9 l.dropLast

/-- The columns of the dump that `wg show IFACE param` lists, for a parameter about the device. -/
def devListing : List (List UInt8 × List Nat) :=
  [(b!"private-key", [0]), (b!"public-key", [1]), (b!"listen-port", [2]), (b!"fwmark", [3])]

/-- The same for a parameter about the peers. -/
def peerListing : List (List UInt8 × List Nat) :=
  [(b!"peers", [0]), (b!"preshared-keys", [0, 1]), (b!"endpoints", [0, 2]), (b!"allowed-ips", [0, 3]),
   (b!"latest-handshakes", [0, 4]), (b!"transfer", [0, 5, 6]), (b!"persistent-keepalive", [0, 7])]

/-- The chosen columns of a row. -/
def pick (cols : List Nat) (row : List (List UInt8)) : List (List UInt8) := cols.map (row.getD · [])

/-- `allowed-ips` separates entries by spaces where the dump has commas. -/
def commasToSpaces (param : List UInt8) (col : List UInt8) : List UInt8 :=
  if param = b!"allowed-ips" then col.map fun c => if c = c!"," then c!" " else c else col

def named (d : Device) (withName : Bool) (r : List (List UInt8)) : List (List UInt8) := if withName then d.name :: r else r

/-- The rows of a single-parameter listing, in terms of the columns of the dump. -/
def listingRows (T : Texts) (d : Device) (withName : Bool) (param : List UInt8) : Option (List (List (List UInt8))) :=
  match devListing.lookup param, peerListing.lookup param with
  | some cols, _ => some [named d withName (pick cols (deviceColumns d))]
  | none, some cols => some (d.peers.map fun p => named d withName ((pick cols (peerColumns T p)).map (commasToSpaces param)))
  | none, none => none

/-- What a script can learn from a dump: optional keys, numbers, endpoints and allowed IPs. -/
structure PeerFacts where
  publicKey : Key
  presharedKey : Option Key
  endpoint : Endpoint
  allowedIPs : List AllowedIP
  handshakeSec : Int
  rx : Nat
  tx : Nat
  keepalive : UInt16

structure DeviceFacts where
  privateKey : Option Key
  publicKey : Option Key
  listenPort : UInt16
  fwmark : UInt32
  peers : List PeerFacts

def Peer.facts (p : Peer) : PeerFacts where
  publicKey := p.publicKey
  presharedKey := if p.flags.hasPresharedKey then some p.presharedKey else none
  endpoint := p.endpoint
  allowedIPs := p.allowedIPs
  handshakeSec := p.handshakeSec
  rx := p.rx
  tx := p.tx
  keepalive := p.keepalive

def Device.facts (d : Device) : DeviceFacts where
  privateKey := if d.flags.hasPrivateKey then some d.privateKey else none
  publicKey := if d.flags.hasPublicKey then some d.publicKey else none
  listenPort := d.listenPort
  fwmark := d.fwmark
  peers := d.peers.map Peer.facts

/-- A text fits in one column. -/
def OneColumn (s : List UInt8) : Prop := (9 : UInt8) ∉ s ∧ (10 : UInt8) ∉ s

/-- The system's texts keep columns apart and can be told apart: addresses contain no comma or slash and are distinct, and
endpoints (of those in `E`) are distinct and none is `(none)`. -/
structure Readable (T : Texts) (E : Endpoint → Prop) : Prop where
  addr : ∀ a, OneColumn (T.addr a) ∧ c!"," ∉ T.addr a ∧ c!"/" ∉ T.addr a
  addr_inj : ∀ a b, T.addr a = T.addr b → a = b
  endpoint : ∀ e, E e → OneColumn (T.endpoint e) ∧ T.endpoint e ≠ b!"(none)"
  endpoint_inj : ∀ e f, E e → E f → T.endpoint e = T.endpoint f → e = f

end WG.Spec
