import Verif.Spec.Android
import Verif.Spec.Values
import Verif.Spec.ConfigFile
import Verif.Spec.QuickText
/-!
What wg-quick for Android is to do.
-/
namespace WG.Spec.Android
open WG.Spec WG.Spec.Quick

/-! ### Applications -/

/-- A line of /data/system/packages.list: the name of the package, its uid, and more. -/
def PackageLine (l name : List UInt8) (uid : Nat) : Prop :=
  (∀ c ∈ name, c ≠ 32 ∧ c ≠ 0) ∧ ∃ digits rest, IsDecimal digits uid ∧ l = name ++ b!" " ++ digits ++ b!" " ++ rest

/-- A package list: the names are distinct and the uids usual ones. -/
def PackageList (content : List UInt8) (apps : List (List UInt8 × Nat)) : Prop :=
  List.Forall₂ (fun l a => PackageLine l a.1 a.2) (fileLines content) apps ∧ (apps.map Prod.fst).Nodup ∧ ∀ a ∈ apps, 0 < a.2 ∧ a.2 < 2 ^ 31

/-- `name` is an entry of a list with commas. -/
def Listed (sel name : List UInt8) : Prop :=
  name ≠ [] ∧ c!"," ∉ name ∧ ∃ pre post, sel = pre ++ name ++ post ∧ (∀ c, pre.getLast? = some c → c = c!",") ∧ ∀ c, post.head? = some c → c = c!","

/-- The uid is that of an application in the list. -/
def UidListed (apps : List (List UInt8 × Nat)) (sel : List UInt8) (uid : Nat) : Prop := ∃ name, Listed sel name ∧ (name, uid) ∈ apps

/-- An argument of `ndc network users add` includes a uid: a number or a range. -/
def InArg (a : List UInt8) (u : Nat) : Prop := a = decimal u ∨ ∃ lo hi, a = decimal lo ++ b!"-" ++ decimal hi ∧ lo ≤ u ∧ u ≤ hi

/-- The command adds these uids and ranges to the network; `ndc` takes no more. -/
def AddsUsers (cmd : List UInt8) (netid : Nat) (args : List (List UInt8)) : Prop :=
  ∃ text, cmd = b!"ndc network users add " ++ decimal netid ++ b!" " ++ text ∧ Words blankSep text args ∧ args.length ≤ 18

/-- Among the commands is one that adds the uid to the network. -/
def UserAdded (cmds : List (List UInt8)) (netid u : Nat) : Prop := ∃ cmd ∈ cmds, ∃ args, AddsUsers cmd netid args ∧ ∃ a ∈ args, InArg a u

/-! ### Taking an interface down -/

/-- Names without bytes that are special in regular expressions. -/
def PlainName (n : List UInt8) : Prop := IsIfaceName n ∧ c!"." ∉ n ∧ c!"+" ∉ n

/-- A line of the output of `iptables-save`: the rule `args`, with the comment of this interface. -/
def OwnRule (iface line args : List UInt8) : Prop :=
  (line = b!"-A " ++ args ∨ line = b!"-A " ++ args ++ b!"\n") ∧ 10 ∉ args ∧ ∃ pre post, args = pre ++ b!" --comment \"wireguard rule " ++ iface ++ b!"\"" ++ post

/-- The rules of this interface in the output, in order. -/
def OwnRules (iface out : List UInt8) (rules : List (List UInt8)) : Prop :=
  Collected (OwnRule iface) ((fileLines out).map beforeNul) rules

/-- A line of the output of `ip rule show`: packets of the network `n` go to this interface. -/
def NetworkRule (iface line : List UInt8) (n : Nat) : Prop :=
  ∃ pre hex post, line = pre ++ b!"0xc" ++ hex ++ b!"/0xcffff lookup " ++ iface ++ post ∧ IsHexNum hex n ∧ (∀ c ∈ hex, lower c = c) ∧
    ∀ c, post.head? = some c → ¬ IsIfaceName [c]

/-- The lines are about no interface whose name begins with this one's. -/
def NoLonger (iface out : List UInt8) : Prop :=
  ∀ l ∈ (fileLines out).map beforeNul, ∀ pre post c, l = pre ++ b!" lookup " ++ iface ++ post → post.head? = some c → ¬ IsIfaceName [c]

/-- The network of this interface, from the first line that has one. -/
def NetworkAmong (iface : List UInt8) (lines : List (List UInt8)) : Option Nat → Prop
  | none => ∀ l ∈ lines, ∀ n, ¬ NetworkRule iface l n
  | some n => ∃ before l after, lines = before ++ l :: after ∧ (∀ b ∈ before, ∀ m, ¬ NetworkRule iface b m) ∧ NetworkRule iface l n

/-- The network of this interface in the output of `ip rule show`. -/
def NetworkShown (iface out : List UInt8) (net : Option Nat) : Prop := NetworkAmong iface ((fileLines out).map beforeNul) net

/-- The commands that remove an interface, the rules `r4` and `r6` and the network. -/
def removal (iface : List UInt8) (r4 r6 : List (List UInt8)) (net : Option Nat) : List (List UInt8) :=
  [b!"ip link del " ++ iface, b!"iptables-save"] ++ r4.map (b!"iptables -D " ++ ·) ++ [b!"ip6tables-save"] ++ r6.map (b!"ip6tables -D " ++ ·) ++ [b!"ip rule show"] ++
  (match net with
    | none => []
    | some n => [b!"ndc network destroy " ++ decimal n])

/-- The separators in the output of `wg show`. -/
def shownSep (c : UInt8) : Bool := c = 32 ∨ c = 10

/-- The name is a word of the first line of the output of `wg show interfaces`. -/
def ShownInterface (name out : List UInt8) : Prop :=
  ∃ l rest ws, fileLines out = l :: rest ∧ Words shownSep (beforeNul l) ws ∧ name ∈ ws

/-- The command that tells the application; it is omitted if the application is the caller. -/
def news (caller : Option (List UInt8)) : List (List UInt8) :=
  if caller = some b!"com.wireguard.android" then [] else [b!"am broadcast -a com.wireguard.android.action.REFRESH_TUNNEL_STATES com.wireguard.android"]

end WG.Spec.Android
