import Verif.Model.Setconf
import Verif.Model.Show
import Verif.Model.Keys
/-! Model of src/wg.c: the command line of `wg`. -/
namespace WG

/-- What the subcommands need from outside. -/
structure MainEnv where
  env : Env
  showEnv : ShowEnv
  out : OutEnv
  sort : List PubkeyOrigin → List PubkeyOrigin
  ipc : Ipc
  showIpc : ShowIpc
  rand : RandEnv
  mode : Option Nat
  junk : Key
  strerr : List UInt8
  generatePublic : Key → Key
  stdin : List UInt8

/-- How the tool ended: a text of `main` itself, or what a subcommand did. -/
inductive MainRun where
  | text (o : Out)
  | config (r : Run)
  | show (r : ShowRun)
  | key (o : Out)

/-- The functions of the table. -/
inductive SubFun where
  | show | showconf | set | setconf | genkey | pubkey
deriving DecidableEq

/-- wg.c:16-30 `subcommands`. -/
def subcommands : List (CStr × SubFun × CStr) :=
  [(b!"show", .show, b!"Shows the current configuration and device information"),
   (b!"showconf", .showconf, b!"Shows the current configuration of a given WireGuard interface, for use with `setconf'"),
   (b!"set", .set, b!"Change the current configuration, add peers, remove peers, or change peers"),
   (b!"setconf", .setconf, b!"Applies a configuration file to a WireGuard interface"),
   (b!"addconf", .setconf, b!"Appends a configuration file to a WireGuard interface"),
   (b!"syncconf", .setconf, b!"Synchronizes a configuration file to a WireGuard interface"),
   (b!"genkey", .genkey, b!"Generates a new private key and writes it to stdout"),
   (b!"genpsk", .genkey, b!"Generates a new preshared key and writes it to stdout"),
   (b!"pubkey", .pubkey, b!"Reads a private key from stdin and writes a public key to stdout")]

/-- wg.c:32-39 `show_usage`. -/
def mainUsage (prog : CStr) : List UInt8 :=
  b!"Usage: " ++ prog ++ b!" <cmd> [<args>]\n\n" ++ b!"Available subcommands:\n" ++
  (subcommands.flatMap fun s => b!"  " ++ s.1 ++ b!": " ++ s.2.2 ++ b!"\n") ++
  b!"You may pass `--help' to any of these subcommands to view usage.\n"

/-- version.h -/
def versionText : List UInt8 := b!"wireguard-tools v1.0.20210914 - https://git.zx2c4.com/wireguard-tools/\n"

/-- Calling a function of the table with its argument vector (the name first). -/
def runSub (m : MainEnv) (prog : CStr) (f : SubFun) (argv : List CStr) : MainRun :=
  match f with
  | .show => .show (showMain m.showEnv m.showIpc argv.tail)
  | .showconf => .show (showconfMain m.out m.showIpc argv.tail)
  | .set => .config (setMain m.env m.ipc argv)
  | .setconf => .config (setconfMain m.env m.sort m.ipc argv)
  | .genkey => .key (genkeyMain m.rand m.mode m.junk m.strerr prog argv)
  | .pubkey => .key (pubkeyMain m.generatePublic m.env.sc prog m.stdin argv)

/-- wg.c:58-61: the loop over the table. -/
def findSub (word : CStr) : List (CStr × SubFun × CStr) → Option SubFun
  | [] => none
  | s :: l => if word = s.1 then some s.2.1 else findSub word l

/-- wg.c:41-66 `main`; `prog` is `argv[0]`, `args` the rest. -/
def wgMain (m : MainEnv) (prog : CStr) (args : List CStr) : MainRun :=
  match args with
  | [] => runSub m prog .show [b!"show"]
  | w :: rest =>
    if rest = [] ∧ (w = b!"-v" ∨ w = b!"--version" ∨ w = b!"version") then .text ⟨versionText, [], 0⟩
    else if rest = [] ∧ (w = b!"-h" ∨ w = b!"--help" ∨ w = b!"help") then .text ⟨mainUsage prog, [], 0⟩
    else match findSub w subcommands with
      | some f => runSub m prog f (w :: rest)
      | none => .text ⟨[], b!"Invalid subcommand: `" ++ w ++ b!"'\n" ++ mainUsage prog, 1⟩

end WG
