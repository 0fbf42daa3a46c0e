import Verif.Spec.BsdUpEnd
/-!
What the arguments of `wg-quick` mean on the BSDs.
-/
namespace WG.Spec.Bsd
open WG.Quick (Call Reply Ev World Opts)
open WG.Bsd (Plat Cfg End)
open WG.Spec.Quick

/-- Where the file of an interface is looked for. -/
def confDirs : Plat → List (List UInt8)
  | .openbsd => [b!"/etc/wireguard"]
  | .freebsd => [b!"/etc/wireguard", b!"/usr/local/etc/wireguard"]
  | .darwin => [b!"/etc/wireguard", b!"/usr/local/etc/wireguard"]

/-- The existing file that an argument stands for: for the name of an interface, `NAME.conf` in the first directory that has it;
anything else is the file itself. -/
def FileOf (plat : Plat) (isThere : List UInt8 → Prop) (arg path : List UInt8) : Prop :=
  isThere path ∧
  (IsIfaceName arg → ∃ before dir after, confDirs plat = before ++ dir :: after ∧ path = dir ++ b!"/" ++ arg ++ b!".conf" ∧ ∀ d ∈ before, ¬ isThere (d ++ b!"/" ++ arg ++ b!".conf")) ∧
  (¬ IsIfaceName arg → path = arg)

/-- The directory part and the last component of a path, as the script takes them: of a path without a slash both are the path. -/
def PathParts (path dir last : List UInt8) : Prop :=
  (path = dir ++ c!"/" :: last ∧ c!"/" ∉ last) ∨ (c!"/" ∉ path ∧ dir = path ∧ last = path)

/-- Which file is read and, by `save`, written: `resolve` is `readlink -f`, `cd` changes the directory and gives its physical path. -/
def ReadAs (plat : Plat) (resolve : List UInt8 → List UInt8) (cd : List UInt8 → Option (List UInt8)) (path file : List UInt8) : Prop :=
  match plat with
  | .darwin => ∃ dir last d, PathParts path dir last ∧ cd dir = some d ∧ file = d ++ b!"/" ++ last
  | _ => file = resolve path

/-- Nothing was done but, on FreeBSD, making and removing the directory for temporary files; `k` is the status. If the directory cannot
be made, the script does not get to its arguments. -/
def OnlyTemp (c : Cfg) (k : Nat) (got : Prop) (e : End) (h : List Ev) : Prop :=
  (got ∧ ∃ dir lt l, h = lt ++ l ∧ TempStep c dir lt ∧ Cleaned c dir k e l) ∨ (¬ got ∧ c.plat = .freebsd ∧ TempNotMade e h)
where
  /-- The directory could not be made, or a signal came before. -/
  TempNotMade (e : End) (h : List Ev) : Prop :=
    (∃ r t, h = [(cmd [b!"mktemp", b!"-d"], r), (.query [b!"test", b!"-d", captured r.out], t)] ∧ ((t.sig = false ∧ t.status ≠ 0 ∧ e = .exit 1) ∨ (t.sig = true ∧ e = .killed))) ∨
    (∃ r, h = [(cmd [b!"mktemp", b!"-d"], r)] ∧ r.sig = true ∧ e = .killed)

end WG.Spec.Bsd
