import Verif.Model.Types
/-!
Model of src/completion/wg.bash-completion. Line numbers are those of the file.

`COMP_WORDS` is a list (an element that is not there is empty), `COMP_CWORD` an index into it. `compgen -W` expands its text as the shell does and splits it: a
parameter, applied to whatever text is given to it. `compgen -f` is not modelled further. The words it prints are split again and may be taken for patterns
of file names, which changes nothing for words without blanks and `*?[`.
-/
namespace WG.Completion

structure Env where
  /-- Standard output of `wg show interfaces`. -/
  interfaces : CStr
  /-- Standard output of `wg show NAME peers`. -/
  peers : CStr → CStr
  /-- The words of a text after the expansions of the shell, command substitution among them. -/
  expand : CStr → List CStr

inductive Offer where
  | nothing
  | words (l : List CStr)
  /-- File names that begin with this. -/
  | files (start : CStr)
deriving DecidableEq

/-- `compgen -W "$text" -- "$cur"` -/
def compgenW (env : Env) (text cur : CStr) : Offer := .words ((env.expand text).filter fun w => cur.isPrefixOf w)

/-- `$(…)`: without line feeds at the end. -/
def substituted (out : CStr) : CStr := (out.reverse.dropWhile (· = 10)).reverse

/-- `"${words[*]}"` -/
def joined : List CStr → CStr
  | [] => []
  | [w] => w
  | w :: l => w ++ b!" " ++ joined l

/-- 38: the options of the interface before the cursor. -/
structure Seen where
  listenPort : Bool := false
  fwmark : Bool := false
  privateKey : Bool := false
  peer : Nat := 0

/-- 39-44 -/
def devLoop (words : List CStr) (cword i : Nat) (s : Seen) : Seen :=
  if _h : i < cword then
    let w := words.getD i []
    let s := if w = b!"listen-port" then { s with listenPort := true } else s
    let s := if w = b!"fwmark" then { s with fwmark := true } else s
    let s := if w = b!"private-key" then { s with privateKey := true } else s
    if w = b!"peer" then { s with peer := i } else devLoop words cword (i + 2) s
  else s
termination_by cword - i

/-- 38: the options of a peer. -/
structure Given where
  remove : Bool := false
  endpoint : Bool := false
  keepalive : Bool := false
  allowedIPs : Bool := false
  presharedKey : Bool := false

/-- 65-83: the options of the last peer, and where the loop ends; `j=i` makes `j` another name of `i`. -/
def peerLoop (words : List CStr) (cword i : Nat) (g : Given) : Given × Nat :=
  if _h : i < cword then
    let w := words.getD i []
    if w = b!"peer" then
      peerLoop words cword ((if words.getD (i + 2) [] = b!"=" then i + 2 else i + 1) + 1) {}
    else
      let g := if w = b!"remove" then { g with remove := true } else g
      let g := if w = b!"endpoint" then { g with endpoint := true } else g
      let g := if w = b!"persistent-keepalive" then { g with keepalive := true } else g
      let g := if w = b!"allowed-ips" then { g with allowedIPs := true } else g
      let g := if w = b!"preshared-key" then { g with presharedKey := true } else g
      peerLoop words cword ((if w = b!"remove" then i else i + 1) + 1) g
  else (g, i)
termination_by cword - i
decreasing_by all_goals (split <;> omega)

/-- 47-50 -/
def devWords (s : Seen) : List CStr :=
  (if s.listenPort then [] else [b!"listen-port"]) ++ (if s.fwmark then [] else [b!"fwmark"]) ++
    (if s.privateKey then [] else [b!"private-key"]) ++ [b!"peer"]

/-- 87-94 -/
def peerWords (g : Given) : List CStr :=
  (if g.remove then [] else
    (if g.presharedKey then [] else [b!"preshared-key"]) ++ (if g.endpoint then [] else [b!"endpoint"]) ++
    (if g.allowedIPs then [] else [b!"allowed-ips"]) ++ (if g.keepalive then [] else [b!"persistent-keepalive"]) ++ [b!"remove"]) ++ [b!"peer"]

/-- 38-97: `wg set`. -/
def completeSet (env : Env) (words : List CStr) (cword : Nat) : Offer :=
  let cur := words.getD cword []
  let before := words.getD (cword - 1) []
  let s := devLoop words cword 3 {}
  if s.peer = 0 then
    if cword % 2 ≠ 0 then compgenW env (joined (devWords s)) cur
    else if b!"-key".isSuffixOf before then .files cur
    else .nothing
  else if before = b!"peer" then compgenW env (substituted (env.peers (words.getD 2 []))) cur
  else
    let (g, i) := peerLoop words cword s.peer {}
    if i = cword then compgenW env (joined (peerWords g)) cur else .nothing

/-- 4-98 `_wg_completion`. -/
def complete (env : Env) (words : List CStr) (cword : Nat) : Offer :=
  let cur := words.getD cword []
  let sub := words.getD 1 []
  if cword = 1 then compgenW env b!"help show showconf set setconf addconf syncconf genkey genpsk pubkey" cur
  else if sub ∈ [b!"genkey", b!"genpsk", b!"pubkey", b!"help"] then .nothing
  else if sub ∉ [b!"show", b!"showconf", b!"set", b!"setconf", b!"addconf", b!"syncconf"] then .nothing
  else if cword = 2 then
    compgenW env (substituted env.interfaces ++ if sub = b!"show" then b!" all interfaces" else []) cur
  else if cword = 3 ∧ sub = b!"show" ∧ words.getD 2 [] ≠ b!"interfaces" then
    compgenW env b!"public-key private-key listen-port peers preshared-keys endpoints allowed-ips fwmark latest-handshakes persistent-keepalive transfer dump" cur
  else if cword = 3 ∧ (sub = b!"setconf" ∨ sub = b!"addconf" ∨ sub = b!"syncconf") then .files cur
  else if sub ≠ b!"set" then .nothing
  else completeSet env words cword

end WG.Completion
