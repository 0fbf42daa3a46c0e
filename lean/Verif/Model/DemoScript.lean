import Verif.Model.DemoClient
/-!
Model of contrib/ncat-client-server/client.sh: a client of the demo server that sets the interface up itself. Line numbers are those of the file. `set -e` is in effect (6).
Simplified: the words line 20 adds as a route (output of `ip route get` for the endpoint, cut by sed and head) are a parameter; a failing assignment or test ends the script with status 1.
-/
namespace WG.DemoScript
open WG.Quick (chomp)

/-- A command that changes the system, and the text behind /dev/fd/63 while it runs. -/
structure Cmd where
  argv : List CStr
  fd : List UInt8 := []
  deriving DecidableEq

structure Env where
  root : Bool
  connected : Bool
  genkey : Bool × List UInt8
  pubkey : List UInt8 → Bool × List UInt8
  /-- All the server sends until it closes the connection, given all it was sent. -/
  reply : List UInt8 → List UInt8
  /-- The exit status of a command, given those before it. -/
  status : List Cmd → Cmd → Nat
  /-- 19-20: the words of the route, given the commands before. -/
  route : List Cmd → List CStr
  /-- `$1` -/
  arg : CStr

structure Result where
  sent : List UInt8 := []
  cmds : List Cmd
  exit : Nat

/-- Run the commands in order. One of which failure does not matter is marked `false`. -/
def steps (env : Env) (done : List Cmd) : List (Bool × (List Cmd → Cmd)) → List Cmd × Nat
  | [] => (done, 0)
  | (must, c) :: l =>
    let x := c done
    let n := env.status done x
    if must ∧ n ≠ 0 then (done ++ [x], n) else steps env (done ++ [x]) l

/-- 13-23 -/
def setup (env : Env) (privatekey pub port ip : CStr) : List (Bool × (List Cmd → Cmd)) :=
  [(false, fun _ => { argv := [b!"ip", b!"link", b!"del", b!"dev", b!"wg0"] }),
   (true, fun _ => { argv := [b!"ip", b!"link", b!"add", b!"dev", b!"wg0", b!"type", b!"wireguard"] }),
   (true, fun _ => { argv := [b!"wg", b!"set", b!"wg0", b!"private-key", b!"/dev/fd/63", b!"peer", pub, b!"allowed-ips", b!"0.0.0.0/0", b!"endpoint", b!"demo.wireguard.com:" ++ port,
      b!"persistent-keepalive", b!"25"], fd := privatekey ++ b!"\n" }),
   (true, fun _ => { argv := [b!"ip", b!"address", b!"add", ip ++ b!"/24", b!"dev", b!"wg0"] }),
   (true, fun _ => { argv := [b!"ip", b!"link", b!"set", b!"up", b!"dev", b!"wg0"] })] ++
  if env.arg = b!"default-route" then
    [(false, fun done => { argv := [b!"ip", b!"route", b!"add"] ++ env.route done }),
     (true, fun _ => { argv := [b!"ip", b!"route", b!"add", b!"0/1", b!"dev", b!"wg0"] }),
     (true, fun _ => { argv := [b!"ip", b!"route", b!"add", b!"128/1", b!"dev", b!"wg0"] })]
  else []

/-- 7-23 -/
def run (env : Env) : Result :=
  if env.root then
    if env.connected then
      if env.genkey.1 then
        let privatekey := chomp env.genkey.2
        let pub := env.pubkey (privatekey ++ b!"\n")
        if pub.1 then
          match DemoClient.readFields (env.reply pub.2) with
          | none => { sent := pub.2, cmds := [], exit := 1 }
          | some (status, server_pubkey, server_port, internal_ip) =>
            if status = b!"OK" then
              let r := steps env [] (setup env privatekey server_pubkey server_port internal_ip)
              { sent := pub.2, cmds := r.1, exit := r.2 }
            else { sent := pub.2, cmds := [], exit := 1 }
        else { sent := pub.2, cmds := [], exit := 1 }
      else { cmds := [], exit := 1 }
    else { cmds := [], exit := 1 }
  else { cmds := [], exit := 1 }

end WG.DemoScript
