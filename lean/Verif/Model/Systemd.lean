import Verif.Model.QuickMain
import Verif.Model.Setconf
/-! Model of src/systemd/wg-quick@.service: what starting, stopping and reloading an instance of the unit runs. -/
namespace WG.Systemd
open WG Quick

/-- The environment of the programs of the unit: wg-quick@.service:21 sets the variable for the retries. -/
def unitEnv (env : Env) : Env := { env with retriesVar := some b!"infinity" }

/-- wg-quick@.service:18 `ExecStart`, for the instance `inst`. -/
def start (h : Host) (w : World) (inst : CStr) : Ran := quickMain h w [b!"up", inst]

/-- wg-quick@.service:19 `ExecStop`. -/
def stop (h : Host) (w : World) (inst : CStr) : Ran := quickMain h w [b!"down", inst]

/-- wg-quick@.service:20, `<(exec /usr/bin/wg-quick strip %i)`: what can be read from the pipe. The status of `wg-quick` is not looked at by anyone. `other` is what the program printed
that the script replaced itself by, if it did (linux.bash:85). -/
def pipe (h : Host) (w : World) (other : List UInt8) (inst : CStr) : List UInt8 :=
  let r := quickMain h w [b!"strip", inst]
  match r.end_ with
  | .exec _ => other
  | _ => r.out

/-- wg-quick@.service:20 `ExecReload`: `wg syncconf %i fd`, where bash gives the pipe the name `fd` (`/dev/fd/63`). Simplification: the name of the instance is one word for systemd
and for bash, as every valid interface name is. -/
def reload (h : Host) (w : World) (other : List UInt8) (env : Env) (fd : CStr) (sort : List PubkeyOrigin → List PubkeyOrigin) (ipc : Ipc) (inst : CStr) : Run :=
  setconfMain { unitEnv env with file := fun p => if p = fd then some { content := pipe h w other inst, seekable := false } else env.file p } sort ipc [b!"syncconf", inst, fd]

end WG.Systemd
