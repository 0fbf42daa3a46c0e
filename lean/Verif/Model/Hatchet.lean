import Verif.Model.QuickRun
/-!
Model of contrib/dns-hatchet/hatchet.bash: other definitions of `set_dns` and `unset_dns` for src/wg-quick/linux.bash, which apply.sh puts into that script. Line numbers are those of
hatchet.bash. The rest of the script is Model/QuickRun.
-/
namespace WG.Quick.Hatchet

/-- 4, 37: `[[ $(resolvconf --version 2>/dev/null) == openresolv\ * ]]`; a failure does not end the script. -/
def isOpenresolv : Sh Bool :=
  (call (.query [b!"resolvconf", b!"--version"])).bind fun r => Sh.pure (b!"openresolv ".isPrefixOf (chomp r.out))

/-- 11-17, without the tabs. -/
def header (iface : CStr) : List UInt8 :=
  b!"# This file was generated by wg-quick(8) for use with\n# the WireGuard interface " ++ iface ++ b!". It cannot be\n# removed or altered directly. You may remove this file\n# by running `wg-quick down " ++
  iface ++ b!"', or if that\n# poses problems, run `umount /etc/resolv.conf'.\n\n"

/-- 22-29: the script given to the other bash. -/
def innerScript : CStr :=
  b!"set -e\ncontext=\"$(stat -c %C /etc/resolv.conf 2>/dev/null)\" || unset context\nmount --make-private /dev/shm\nmount -t tmpfs none /dev/shm\ncat > /dev/shm/resolv.conf\n" ++
  b!"[[ -z $context || $context == \"?\" ]] || chcon \"$context\" /dev/shm/resolv.conf 2>/dev/null || true\nmount -o remount,ro /dev/shm\nmount -o bind,ro /dev/shm/resolv.conf /etc/resolv.conf"

def addRecord (c : Cfg) : Call := .act [b!"resolvconf", b!"-a", c.iface, b!"-m", b!"0", b!"-x"] (resolvText c.opts)
def mountOver (c : Cfg) : Call := .act [b!"unshare", b!"-m", b!"--propagation", b!"shared", b!"bash", b!"-c", innerScript] (header c.iface ++ resolvText c.opts)
def touchFile : Call := .act [b!"touch", b!"/etc/resolv.conf"] []
def deleteRecord (c : Cfg) : Call := .act [b!"resolvconf", b!"-d", c.iface] []
def umountFile : Call := .act [b!"umount", b!"/etc/resolv.conf"] []

/-- 1-32 `set_dns`. -/
def setDns (c : Cfg) : Sh Unit :=
  if c.opts.dns = [] then Sh.pure ()
  else isOpenresolv.bind fun o =>
    (if o then run true (addRecord c)
     else
      (call (.query [b!"test", b!"-e", b!"/etc/resolv.conf"])).bind fun t =>
      (if t.status = 0 then Sh.pure () else run true touchFile).bind fun _ =>
      run true (mountOver c)).bind fun _ => setHaveDns

/-- 34-42 `unset_dns`. `e`: `set -e` is in effect (linux.bash:100); it is not at linux.bash:350. -/
def unsetDns (c : Cfg) (e : Bool) : Sh Unit :=
  if c.opts.dns = [] then Sh.pure ()
  else isOpenresolv.bind fun o => run e (if o then deleteRecord c else umountFile)

/-- What the script of 22-29 does to the mounts, line by line; `ok` says which of its commands succeed. -/
inductive Inner where
  /-- A command whose failure ends the script (`set -e`). -/
  | must (name : CStr)
  /-- A command that may fail. -/
  | may (name : CStr)

/-- 22-29 -/
def innerSteps : List Inner :=
  [.may b!"stat", .must b!"make-private", .must b!"tmpfs", .must b!"cat", .may b!"chcon", .must b!"remount", .must b!"bind"]

/-- The commands that were carried out, and whether the script ended with status 0. -/
def runInner (ok : CStr → Bool) : List Inner → List CStr × Bool
  | [] => ([], true)
  | .may n :: l => let r := runInner ok l; (if ok n then n :: r.1 else r.1, r.2)
  | .must n :: l => if ok n then let r := runInner ok l; (n :: r.1, r.2) else ([], false)

end WG.Quick.Hatchet
