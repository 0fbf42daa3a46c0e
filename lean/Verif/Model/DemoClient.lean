import Verif.Model.QuickRun
/-!
Model of contrib/ncat-client-server/client-quick.sh: a client of the demo server that writes a configuration for wg-quick. Line numbers are those of the file. `set -e` is in effect (6): a command that fails ends the script.
The prompts of sudo, and what is in the file before or after a failed line 23, are not modelled.
-/
namespace WG.DemoClient
open WG.Quick (chomp)

structure Env where
  /-- `wg genkey`: whether it succeeds, and its output. -/
  genkey : Bool × List UInt8
  /-- 14: the connection to demo.wireguard.com:42912 is made. -/
  connected : Bool
  /-- `wg pubkey`, given its input. -/
  pubkey : List UInt8 → Bool × List UInt8
  /-- All the server sends until it closes the connection, given all it was sent. -/
  reply : List UInt8 → List UInt8
  /-- 23: `mkdir` and `cat`, by sudo if necessary, succeed. -/
  install : Bool

structure Result where
  /-- What was sent to the server. -/
  sent : List UInt8 := []
  /-- /etc/wireguard/demo.conf, if it was written. -/
  file : Option (List UInt8) := none
  out : List UInt8
  exit : Nat

/-- 18: up to the next colon, and what is after it. -/
def field (l : CStr) : CStr × CStr := (l.takeWhile (· ≠ 58), (l.dropWhile (· ≠ 58)).drop 1)

/-- 18: `IFS=: read -r status server_pubkey server_port internal_ip`. Without a line feed it fails. The last variable is given all that is left, without a colon at its end if that is the only one. -/
def readFields (input : List UInt8) : Option (CStr × CStr × CStr × CStr) :=
  if (10 : UInt8) ∈ input then
    let r0 := (input.takeWhile (· ≠ 10)).filter (· ≠ 0)
    let (status, r1) := field r0
    let (pub, r2) := field r1
    let (port, ip) := field r2
    some (status, pub, port, if ip.getLast? = some 58 ∧ (58 : UInt8) ∉ ip.dropLast then ip.dropLast else ip)
  else none

/-- 23-33: the here-document. -/
def confText (privatekey pub port ip : CStr) : List UInt8 :=
  b!"[Interface]\nPrivateKey = " ++ privatekey ++ b!"\nAddress = " ++ ip ++ b!"/24\nDNS = 8.8.8.8, 8.8.4.4, 1.1.1.1, 1.0.0.1\n\n[Peer]\nPublicKey = " ++ pub ++
    b!"\nEndpoint = demo.wireguard.com:" ++ port ++ b!"\nAllowedIPs = 0.0.0.0/0\n"

/-- 8, 10 -/
def text1 : List UInt8 := b!"[!] Warning: This server is for testing purposes only. You may not use this server for abusive or illegal purposes.\n[+] Generating private key.\n"
/-- 13 -/
def text2 : List UInt8 := b!"[+] Sending public key to server.\n"
/-- 17 -/
def text3 : List UInt8 := b!"[+] Parsing server response.\n"
/-- 21 -/
def text4 : List UInt8 := b!"[+] Writing config file.\n"
/-- 35 -/
def text5 : List UInt8 := b!"[+] Success. Run `wg-quick up demo` to turn on the tunnel to the demo server and `wg-quick down demo` to turn it off.\n"

/-- 8-35 -/
def run (env : Env) : Result :=
  if env.genkey.1 then
    let privatekey := chomp env.genkey.2
    if env.connected then
      let pub := env.pubkey (privatekey ++ b!"\n")
      if pub.1 then
        match readFields (env.reply pub.2) with
        | none => { sent := pub.2, out := text1 ++ text2 ++ text3, exit := 1 }
        | some (status, server_pubkey, server_port, internal_ip) =>
          if status = b!"OK" then
            if env.install then
              { sent := pub.2, file := some (confText privatekey server_pubkey server_port internal_ip), out := text1 ++ text2 ++ text3 ++ text4 ++ text5, exit := 0 }
            else { sent := pub.2, out := text1 ++ text2 ++ text3 ++ text4, exit := 1 }
          else { sent := pub.2, out := text1 ++ text2 ++ text3, exit := 1 }
      else { sent := pub.2, out := text1 ++ text2, exit := 1 }
    else { out := text1 ++ text2, exit := 1 }
  else { out := text1, exit := 1 }

end WG.DemoClient
