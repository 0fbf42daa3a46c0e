import Verif.Model.AndroidParse
import Verif.Model.PunchServer
/-!
Model of contrib/nat-hole-punching/nat-punch-client.c: it asks the server (Model/PunchServer) for the addresses of the peers of an interface and
gives them to WireGuard. Line numbers are those of the file. What is printed is not modelled, and `errno` is kept by `putchar` and `perror`.
The host is little endian with a 64-bit `long`. `argv[2]` is read before `argc` is checked (143): not modelled. `b64_pton` is a parameter.
-/
namespace WG.PunchClient
open WG.Punch (PubKey Place)

/-- The instructions of classic BPF that are used. -/
inductive Insn where
  /-- `BPF_LD + BPF_W + BPF_ABS` -/
  | ldWord (k : Nat)
  /-- `BPF_LD + BPF_H + BPF_ABS` -/
  | ldHalf (k : Nat)
  /-- `BPF_JMP + BPF_JEQ + BPF_K` -/
  | jeq (k jt jf : Nat)
  /-- `BPF_RET + BPF_K` -/
  | ret (k : Nat)
deriving DecidableEq

inductive Call where
  /-- 155 `gethostbyname2`: the four bytes of the address -/
  | lookup (name : CStr)
  /-- `popen`, reading, `pclose` -/
  | run (command : CStr)
  /-- 167 -/
  | socket
  /-- 112 -/
  | filter (program : List Insn)
  /-- 181: the packet, starting with the UDP header, and the address of the server -/
  | send (packet dest : List UInt8)
  /-- 186: a packet, starting with the IP header -/
  | recv
  /-- 202 -/
  | sleep
deriving DecidableEq

structure Reply where
  /-- Failure, with this `errno` (or `h_errno`). -/
  failed : Option Nat := none
  out : List UInt8 := []
deriving DecidableEq

abbrev Ev := Call × Reply

structure Env where
  reply : List Ev → Call → Reply
  uid : Nat := 0
  /-- `b64_pton` with room for 33 bytes; `none`: -1. -/
  pton : CStr → Option (List UInt8)

inductive End where
  | exit (status : Nat)
  /-- A null pointer is read, or memory beyond `peers` is written. -/
  | crash
  /-- Still asking. -/
  | running
deriving DecidableEq

/-- The string in a buffer. -/
def cstr (l : List UInt8) : CStr := l.takeWhile (· ≠ 0)

/-- `fgets(…, n + 1, f)`: the bytes that are read, and the rest. -/
def fgets (n : Nat) (text : List UInt8) : List UInt8 × List UInt8 :=
  match (text.take n).findIdx? (· = 10) with
  | some i => (text.take (i + 1), text.drop (i + 1))
  | none => (text.take n, text.drop n)

/-- 57-58, 79-80 -/
def chomp (s : CStr) : CStr := if s.getLast? = some 10 then s.dropLast else s

/-- 42, 67 -/
def limited (text : CStr) : CStr := text.take 2046

/-- 49-59: the first line of the output, or NULL. -/
def firstLine (out : List UInt8) : Option CStr :=
  if out = [] then none
  else
    let buf := cstr (fgets 2047 out).1
    if buf = [] then none else some (chomp buf)

/-- 26 -/
def maxPeers : Nat := 65536

/-- 73-82: the keys; `none`: a write beyond the end of `peers`. Every call of `fgets` reads a byte: the length is fuel enough. -/
def readPeers : Nat → Nat → List UInt8 → Option (List CStr)
  | 0, _, _ => some []
  | fuel + 1, total, text =>
    if text = [] then some []
    else if total ≥ maxPeers then none
    else
      let (line, rest) := fgets 44 text
      let s := cstr line
      if s.length ≠ 44 ∧ s.length ≠ 45 then readPeers fuel total rest
      else (readPeers fuel (total + 1) rest).map (chomp s :: ·)

/-- 86-94 -/
def unbase64 (env : Env) (key : CStr) : Option PubKey :=
  match env.pton key with
  | some b => if b.length = 32 then some b else none
  | none => none

/-- 98-107: -1 is 2 ^ 32 - 1. -/
def program (port ip : Nat) : List Insn :=
  [.ldWord 12, .jeq ip 0 5, .ldHalf 20, .jeq 49918 0 3, .ldHalf 22, .jeq port 0 1, .ret (2 ^ 32 - 1), .ret 0]

/-- Network order. -/
def be16 (n : Nat) : List UInt8 := [UInt8.ofNat (n / 256), UInt8.ofNat n]
def be16val (l : List UInt8) : Nat := l.foldl (fun n b => n * 256 + b.toNat) 0

/-- 123-132, 163-164, 180: header (source, destination, length, no checksum) and the keys. -/
def packet (port : Nat) (own their : PubKey) : List UInt8 := be16 port ++ be16 49918 ++ be16 72 ++ [0, 0] ++ own ++ their

/-- `inet_ntoa` -/
def inetNtoa (ip : List UInt8) : CStr := (ip.map fun b => showDec b.toNat).intersperse b!"." |>.flatten

/-- 198 -/
def setCommand (iface key : CStr) (reply : List UInt8) : CStr :=
  limited (b!"wg set " ++ iface ++ b!" peer " ++ key ++ b!" persistent-keepalive 25 endpoint " ++
    inetNtoa ((reply.drop 28).take 4) ++ b!":" ++ showDec (be16val ((reply.drop 32).take 2)))

structure Peer where
  key : CStr
  seen : Bool := false
deriving DecidableEq

/-- What the loop works with. -/
structure Session where
  iface : CStr
  server : List UInt8
  port : Nat
  own : PubKey

/-- 175-200: one round. The peers after it and `repeat`, or the end. -/
def round (env : Env) (s : Session) (h : List Ev) : List Peer → List Ev × Except End (List Peer × Bool)
  | [] => (h, .ok ([], false))
  | p :: ps =>
    if p.seen then
      match round env s h ps with
      | (h, .ok (ps, rep)) => (h, .ok (p :: ps, rep))
      | (h, .error e) => (h, .error e)
    else
      match unbase64 env p.key with
      | none => (h, .error (.exit 22))
      | some their =>
        let c := Call.send (packet s.port s.own their) s.server
        let r := env.reply h c
        let h := h ++ [(c, r)]
        match r.failed with
        | some e => (h, .error (.exit e))
        | none =>
          let r := env.reply h .recv
          let h := h ++ [(.recv, r)]
          match r.failed with
          | some e => (h, .error (.exit e))
          | none =>
            let got := r.out.take 34
            if got.length ≠ 34 then
              match round env s h ps with
              | (h, .ok (ps, _)) => (h, .ok (p :: ps, true))
              | (h, .error e) => (h, .error e)
            else
              let c := Call.run (setCommand s.iface p.key got)
              let r := env.reply h c
              let h := h ++ [(c, r)]
              match r.failed with
              | some e => (h, .error (.exit e))
              | none =>
                match round env s h ps with
                | (h, .ok (ps, rep)) => (h, .ok ({ p with seen := true } :: ps, rep))
                | (h, .error e) => (h, .error e)

/-- 174-207: at most `n` rounds. -/
def rounds (env : Env) (s : Session) : Nat → List Ev → List Peer → List Ev × End
  | 0, h, _ => (h, .running)
  | n + 1, h, ps =>
    match round env s h ps with
    | (h, .error e) => (h, e)
    | (h, .ok (_, false)) => (h, .exit 0)
    | (h, .ok (ps, true)) => rounds env s n (h ++ [(.sleep, env.reply h .sleep)]) ps

/-- 160, 164-172: from the key of the interface on. -/
def connect (env : Env) (n : Nat) (iface : CStr) (ip : List UInt8) (peers : List CStr) (own : PubKey) (h : List Ev) : List Ev × End :=
  let c := Call.run (limited (b!"wg show " ++ iface ++ b!" listen-port"))
  let r := env.reply h c
  let h := h ++ [(c, r)]
  match r.failed with
  | some e => (h, .exit e)
  | none =>
    match firstLine r.out with
    | none => (h, .crash)
    | some text =>
      let port := (WG.Android.atoi text % 65536).toNat
      let r := env.reply h .socket
      let h := h ++ [(.socket, r)]
      match r.failed with
      | some e => (h, .exit e)
      | none =>
        let c := Call.filter (program port (be16val ip))
        let r := env.reply h c
        let h := h ++ [(c, r)]
        match r.failed with
        | some e => (h, .exit e)
        | none => rounds env ⟨iface, ip, port, own⟩ n h (peers.map fun k => ⟨k, false⟩)

/-- 162-163: the interface goes up; its public key. -/
def identify (env : Env) (n : Nat) (iface : CStr) (ip : List UInt8) (peers : List CStr) (h : List Ev) : List Ev × End :=
  let c := Call.run (limited (b!"ip link set " ++ iface ++ b!" up"))
  let r := env.reply h c
  let h := h ++ [(c, r)]
  match r.failed with
  | some e => (h, .exit e)
  | none =>
    let c := Call.run (limited (b!"wg show " ++ iface ++ b!" public-key"))
    let r := env.reply h c
    let h := h ++ [(c, r)]
    match r.failed with
    | some e => (h, .exit e)
    | none =>
      match firstLine r.out with
      | none => (h, .crash)
      | some text =>
        match unbase64 env text with
        | none => (h, .exit 22)
        | some own => connect env n iface ip peers own h

/-- 118-208 `main`; `args`: the arguments. -/
def main (env : Env) (n : Nat) (args : List CStr) : List Ev × End :=
  match args with
  | server :: iface :: _ =>
    if env.uid ≠ 0 then ([], .exit 1)
    else
      let c := Call.lookup server
      let r := env.reply [] c
      let h := [(c, r)]
      match r.failed with
      | some e => (h, .exit e)
      | none =>
        let ip := r.out
        let c := Call.run (limited (b!"wg show " ++ iface ++ b!" peers"))
        let r := env.reply h c
        let h := h ++ [(c, r)]
        match r.failed with
        | some e => (h, .exit e)
        | none =>
          match readPeers r.out.length 0 r.out with
          | none => (h, .crash)
          | some peers => identify env n iface ip peers h
  | _ => ([], .exit 22)

end WG.PunchClient
