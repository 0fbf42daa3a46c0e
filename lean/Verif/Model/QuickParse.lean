import Verif.Model.Setconf
/-!
Model of the configuration reader of wg-quick, src/wg-quick/linux.bash:40-82 `parse_options` and `read_bool`, and of
`cmd_strip` (360-362). The script is interpreted as bash 5 does under `set -e -o pipefail; shopt -s extglob; LC_ALL=C`
(linux.bash:7-9) with the default IFS. Bash strings are byte lists without NUL.

Simplifications: the result of pathname expansion (globbing) of unquoted words is not modelled: words of `Address` and `DNS`
are assumed to contain no `*`, `?`, `[` or extended patterns. The warning about world-accessible files (linux.bash:47) has no
effect on the result and is left out; `readlink -f` (46) is a parameter.
-/
namespace WG.Quick

/-- The bytes of `s` without a prefix and a suffix of bytes satisfying `p`. -/
def trim (p : UInt8 → Bool) (s : CStr) : CStr := ((s.dropWhile p).reverse.dropWhile p).reverse

/-- The separators of the default IFS that can occur within a line: space and tab. -/
def isIfs (c : UInt8) : Bool := c == 32 || c == 9

/-- `[[:space:]]` in the C locale. -/
def isBlank (c : UInt8) : Bool := isspaceLibc c

/-- What `read -r line` stores for the text of one line (without its line feed): NUL bytes are dropped, leading and trailing
IFS white space is removed. -/
def readLine (raw : List UInt8) : CStr := trim isIfs (raw.filter (· ≠ 0))

/-- linux.bash:50 `while read -r line || [[ -n $line ]]`: the lines for which the loop body runs. A last line without a line
feed makes `read` fail but still counts when something is left of it after trimming. -/
def bodyLines (content : List UInt8) : List CStr :=
  (getlines content).filterMap fun raw =>
    if raw.getLast? = some 10 then some (readLine raw.dropLast)
    else if readLine raw = [] then none else some (readLine raw)

/-- linux.bash:51 `${line%%\#*}`. -/
def strippedOf (line : CStr) : CStr := line.takeWhile (· ≠ c!"#")

/-- linux.bash:52 `${stripped%%=*}`, white space trimmed. -/
def keyOf (stripped : CStr) : CStr := trim isBlank (stripped.takeWhile (· ≠ c!"="))

/-- linux.bash:53 `${stripped#*=}`, white space trimmed; without a `=` this is all of `stripped`. -/
def valueOf (stripped : CStr) : CStr :=
  trim isBlank (if c!"=" ∈ stripped then (stripped.dropWhile (· ≠ c!"=")).drop 1 else stripped)

/-- Field splitting of an unquoted expansion with the default IFS (pathname expansion not modelled). -/
def wordsAux : CStr → CStr → List CStr
  | cur, [] => if cur = [] then [] else [cur]
  | cur, c :: t =>
    if c = 32 ∨ c = 9 ∨ c = 10 then (if cur = [] then wordsAux [] t else cur :: wordsAux [] t)
    else wordsAux (cur ++ [c]) t

/-- `${value//,/ }` unquoted, as in linux.bash:58 and 60. -/
def commaWords (value : CStr) : List CStr := wordsAux [] (value.map fun c => if c = c!"," then c!" " else c)

/-- linux.bash:61 `[[ $v =~ (^[0-9.]+$)|(^.*:.*$) ]]`. -/
def isNameserver (v : CStr) : Bool :=
  (v ≠ [] && v.all fun c => (48 ≤ c && c ≤ 57) || c == c!".") || c!":" ∈ v

/-- The global variables set by `parse_options` (linux.bash:14-25). -/
structure Opts where
  wgConfig : CStr := []
  addresses : List CStr := []
  mtu : CStr := []
  dns : List CStr := []
  dnsSearch : List CStr := []
  table : CStr := []
  preUp : List CStr := []
  postUp : List CStr := []
  preDown : List CStr := []
  postDown : List CStr := []
  saveConfig : Bool := false
deriving DecidableEq, Repr

/-- linux.bash:76-82 `read_bool` under `nocasematch`; `none` is `die`. -/
def readBool (value : CStr) : Option Bool :=
  if strcaseeq value b!"true" then some true
  else if strcaseeq value b!"false" then some false
  else none

/-- linux.bash:57-69, the `case` under `nocasematch`. The outer option is `die`, the inner one is no match (no `continue`). -/
def ownSetting (o : Opts) (key value : CStr) : Option (Option Opts) :=
  if strcaseeq key b!"Address" then some (some { o with addresses := o.addresses ++ commaWords value })
  else if strcaseeq key b!"MTU" then some (some { o with mtu := value })
  else if strcaseeq key b!"DNS" then
    some (some { o with
      dns := o.dns ++ (commaWords value).filter isNameserver
      dnsSearch := o.dnsSearch ++ (commaWords value).filter fun v => !isNameserver v })
  else if strcaseeq key b!"Table" then some (some { o with table := value })
  else if strcaseeq key b!"PreUp" then some (some { o with preUp := o.preUp ++ [value] })
  else if strcaseeq key b!"PreDown" then some (some { o with preDown := o.preDown ++ [value] })
  else if strcaseeq key b!"PostUp" then some (some { o with postUp := o.postUp ++ [value] })
  else if strcaseeq key b!"PostDown" then some (some { o with postDown := o.postDown ++ [value] })
  else if strcaseeq key b!"SaveConfig" then
    match readBool value with
    | some b => some (some { o with saveConfig := b })
    | none => none
  else some none

/-- linux.bash:54-55: the section flag after a line with key `key`. -/
def sectionAfter (sec : Bool) (key : CStr) : Bool :=
  if strcaseeq key b!"[Interface]" then true
  else if key.head? = some c!"[" then false else sec

/-- linux.bash:71 `WG_CONFIG+="$line"$'\n'`. -/
def keepLine (o : Opts) (line : CStr) : Opts := { o with wgConfig := o.wgConfig ++ line ++ [10] }

/-- linux.bash:51-71, one turn of the loop; `none` is `die`. -/
def parseLine (sec : Bool) (o : Opts) (line : CStr) : Option (Bool × Opts) :=
  let s := strippedOf line
  let sec' := sectionAfter sec (keyOf s)
  if sec' then
    match ownSetting o (keyOf s) (valueOf s) with
    | none => none
    | some (some o') => some (sec', o')
    | some none => some (sec', keepLine o line)
  else some (sec', keepLine o line)

/-- linux.bash:50-72, the loop. -/
def parseLoop : Bool → Opts → List CStr → Option Opts
  | _, o, [] => some o
  | sec, o, l :: ls =>
    match parseLine sec o l with
    | none => none
    | some (sec', o') => parseLoop sec' o' ls

/-- linux.bash:49-73 on the bytes of the configuration file; `none` is `die` (exit status 1, nothing done). -/
def parseConf (content : List UInt8) : Option Opts := parseLoop false {} (bodyLines content)

/-- `echo "$WG_CONFIG"`: the standard output of `wg-quick strip` (linux.bash:360-362), and the file that `wg setconf` reads
(linux.bash:251). -/
def stripText (o : Opts) : List UInt8 := o.wgConfig ++ [10]

/-- A byte of `[a-zA-Z0-9_=+.-]` in the C locale. -/
def isNameByte (c : UInt8) : Bool :=
  (97 ≤ c && c ≤ 122) || (65 ≤ c && c ≤ 90) || (48 ≤ c && c ≤ 57) || c == c!"_" || c == c!"=" || c == c!"+" || c == c!"." || c == c!"-"

/-- `[a-zA-Z0-9_=+.-]{1,15}` matching all of `s`. -/
def isName (s : CStr) : Bool := s.all isNameByte && 1 ≤ s.length && s.length ≤ 15

/-- linux.bash:43 -/
def confPath (arg : CStr) : CStr :=
  if isName arg then b!"/etc/wireguard/" ++ arg ++ b!".conf" else arg

/-- All ways of writing `s` as a prefix and the rest, shortest prefix first. -/
def splits : CStr → List (CStr × CStr)
  | [] => [([], [])]
  | c :: t => ([], c :: t) :: (splits t).map fun p => (c :: p.1, p.2)

/-- linux.bash:45 `[[ $CONFIG_FILE =~ (^|/)([a-zA-Z0-9_=+.-]{1,15})\.conf$ ]]`: the text of the second group for the leftmost
match. `^` only matches at the start; `/` is one byte of the match. The rest of the match must be a name followed by `.conf`
up to the end, so the group is determined by where the match starts. -/
def nameAt (start : Bool) (rest : CStr) : Option CStr :=
  let tryName (r : CStr) : Option CStr :=
    if b!".conf" <:+ r ∧ isName (r.take (r.length - 5)) then some (r.take (r.length - 5)) else none
  match (if start then tryName rest else none) with
  | some n => some n
  | none => match rest with
    | c :: t => if c = c!"/" then tryName t else none
    | [] => none

/-- The leftmost match of the expression in linux.bash:45, giving `INTERFACE` (linux.bash:48); `none` is `die`. -/
def ifaceOf (path : CStr) : Option CStr :=
  (splits path).findSome? fun p => nameAt (p.1 = []) p.2

/-- What `parse_options` needs from the file system. `exists_` is `[[ -e … ]]`, `resolve` is `readlink -f`, `content` is what
reading the resolved path gives (`none`: the redirection fails and the script exits with an error). -/
structure Fs where
  exists_ : CStr → Bool
  resolve : CStr → CStr
  content : CStr → Option (List UInt8)

/-- The result of `parse_options`. -/
structure Parsed where
  iface : CStr
  configFile : CStr
  opts : Opts

/-- linux.bash:40-74 `parse_options`; `none` is an exit with status 1 before anything was changed. -/
def parseOptions (fs : Fs) (arg : CStr) : Option Parsed :=
  let path := confPath arg
  if fs.exists_ path then
    match ifaceOf path with
    | none => none
    | some iface =>
      let file := fs.resolve path
      match fs.content file with
      | none => none
      | some content =>
        match parseConf content with
        | none => none
        | some o => some ⟨iface, file, o⟩
  else none

end WG.Quick
