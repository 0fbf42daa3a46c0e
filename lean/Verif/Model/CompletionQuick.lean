import Verif.Model.Completion
/-!
Model of src/completion/wg-quick.bash-completion. Line numbers are those of the file.

The names in a directory are a parameter, as are the words `compgen -W` makes of a text (see Model/Completion) and what `compgen -f` and `compgen -d` print for a
beginning. The options of the shell that change what patterns of file names mean (`dotglob`, `nocaseglob`, GLOBIGNORE) are not set. `mapfile` takes a name with a line feed in
it apart: not modelled.
-/
namespace WG.CompletionQuick
open WG.Completion (substituted)

structure Env where
  /-- `$OSTYPE` -/
  ostype : CStr
  /-- The names in a directory, sorted; none if there is no such directory. -/
  names : CStr → List CStr
  /-- `compgen -f`: the names of files that begin with a text. -/
  files : CStr → List CStr
  /-- `compgen -d`: the same for directories. -/
  directories : CStr → List CStr
  /-- Standard output of `wg show interfaces`. -/
  interfaces : CStr
  expand : CStr → List CStr

/-- `[[ $OSTYPE == *$part* ]]` -/
def contains (t part : CStr) : Bool :=
  match t with
  | [] => part = []
  | c :: r => part.isPrefixOf (c :: r) || contains r part

/-- `compgen -W "$text" -- "$cur"` -/
def compgenW (env : Env) (text cur : CStr) : List CStr := (env.expand text).filter fun w => cur.isPrefixOf w

/-- `"$dir"/*$ext` with `nullglob`, and of each the last component (26, 36): a name that begins with a dot is not matched. -/
def glob (env : Env) (dir ext : CStr) : List CStr := (env.names dir).filter fun n => ext.isSuffixOf n && n.head? != some c!"."

/-- 26, 36: `${i%$ext}` -/
def without (ext n : CStr) : CStr := n.take (n.length - ext.length)

/-- 6, 11 -/
def searchPaths (env : Env) : List CStr :=
  b!"/etc/wireguard" :: if contains env.ostype b!"freebsd" ∨ contains env.ostype b!"darwin" then [b!"/usr/local/etc/wireguard"] else []

/-- 13-42: what is put into COMPREPLY. -/
def complete (env : Env) (words : List CStr) (cword : Nat) : List CStr :=
  if cword = 1 then compgenW env b!"up down" (words.getD 1 [])
  else if cword = 2 then
    let cur := words.getD 2 []
    if words.getD 1 [] = b!"up" then
      ((searchPaths env).flatMap fun p => (glob env p b!".conf").flatMap fun n => compgenW env (without b!".conf" n) cur) ++
        (env.files cur).filter (fun f => b!".conf".isSuffixOf f) ++ env.directories cur
    else if words.getD 1 [] = b!"down" then
      if contains env.ostype b!"openbsd" ∨ contains env.ostype b!"darwin" then
        (glob env b!"/var/run/wireguard" b!".name").flatMap fun n => compgenW env (without b!".name" n) cur
      else compgenW env (substituted env.interfaces) cur
    else []
  else []

end WG.CompletionQuick
