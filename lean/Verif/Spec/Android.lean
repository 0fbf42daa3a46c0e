import Verif.Spec.Quick
import Verif.Spec.Show
/-!
What a configuration file says to wg-quick for Android, and which applications use the tunnel.
-/
namespace WG.Spec.Android
open WG.Spec WG.Spec.Quick

/-- Where the file of an interface is looked for. -/
def confDirs : List (List UInt8) := [b!"/data/misc/wireguard", b!"/data/data/com.wireguard.android/files"]

/-- The file that can be opened for an argument: for the name of an interface, `NAME.conf` in the first directory where it can be
opened; anything else is the file itself. `opens p c`: `p` can be opened and has the content `c`. -/
def FileOf (opens : List UInt8 → List UInt8 → Prop) (arg path content : List UInt8) : Prop :=
  opens path content ∧
  (IsIfaceName arg → ∃ before dir after, confDirs = before ++ dir :: after ∧ path = dir ++ b!"/" ++ arg ++ b!".conf" ∧
    ∀ d ∈ before, ∀ c, ¬ opens (d ++ b!"/" ++ arg ++ b!".conf") c) ∧
  (¬ IsIfaceName arg → path = arg)

/-- The name that is made of a path: up to fifteen name bytes before `.conf`, as many as there are. -/
def NameFrom (path n : List UInt8) : Prop :=
  ∃ pre, path = pre ++ n ++ b!".conf" ∧ IsIfaceName n ∧ (n.length = 15 ∨ ∀ c, pre.getLast? = some c → ¬ IsIfaceName [c])

/-- The text of a line without any white space. -/
def squeeze (l : List UInt8) : List UInt8 := l.filter fun c => !isSpace c

/-- After these lines we are in an [Interface] section. -/
def InInterface (lines : List (List UInt8)) : Prop :=
  ∃ pre header post, lines = pre ++ header :: post ∧ EqNoCase (squeeze header) b!"[interface]" ∧ ∀ l ∈ post, (squeeze l).head? ≠ some c!"["

/-- The keys that are not for `wg`. -/
def ownKeys : List (List UInt8) := [b!"address", b!"dns", b!"excludedapplications", b!"includedapplications", b!"mtu"]

/-- The line `l`, standing after `before`, gives `k` the value `v`: `KEY=VALUE` in an [Interface] section, white space and case of the
key not counting. An empty value counts only for the lists of applications. -/
def OwnLine (before : List (List UInt8)) (l k v : List UInt8) : Prop :=
  InInterface (before ++ [l]) ∧ k ∈ ownKeys ∧ (∃ k', EqNoCase k' k ∧ squeeze l = k' ++ b!"=" ++ v) ∧
  (v ≠ [] ∨ k = b!"excludedapplications" ∨ k = b!"includedapplications")

/-- The lines consist of `kept` and of the settings `sets`, each in order. -/
inductive Says : (lines kept : List (List UInt8)) → (sets : List (List UInt8 × List UInt8)) → Prop
  | nil : Says [] [] []
  | own {lines kept sets l k v} : Says lines kept sets → OwnLine lines l k v → Says (lines ++ [l]) kept (sets ++ [(k, v)])
  | keep {lines kept sets l} : Says lines kept sets → (∀ k v, ¬ OwnLine lines l k v) → Says (lines ++ [l]) (kept ++ [l]) sets

/-- All values of a setting, with commas between them; nothing if there is none. -/
def listOf (k : List UInt8) (sets : List (List UInt8 × List UInt8)) : Option (List UInt8) :=
  if valuesOf k sets = [] then none else some (joinWith b!"," (valuesOf k sets))

end WG.Spec.Android
