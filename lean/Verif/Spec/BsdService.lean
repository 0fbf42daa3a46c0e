import Verif.Spec.BsdNets
/-!
The DNS settings of a network service on macOS: what `networksetup` does to them and says about them.
-/
namespace WG.Spec.Bsd
open WG.Quick (Call Reply Ev World Opts)
open WG.Bsd (Cfg)
open WG.Spec.Quick

/-- The settings of a service; empty lists if they come from the network (DHCP). -/
structure Setting where
  servers : List (List UInt8)
  domains : List (List UInt8)
deriving DecidableEq

/-- The word `Empty` stands for none. -/
def given (vs : List (List UInt8)) : List (List UInt8) := if vs = [b!"Empty"] then [] else vs

/-- The settings after a command: only successful commands for this service, with at least one value, change them. -/
def settingStep (k : List UInt8) (t : Setting) (e : Ev) : Setting :=
  if e.2.status ≠ 0 then t
  else match e.1 with
    | .act (p :: op :: x :: v :: vs) [] =>
      if p = b!"networksetup" ∧ op = b!"-setdnsservers" ∧ x = k then { t with servers := given (v :: vs) }
      else if p = b!"networksetup" ∧ op = b!"-setsearchdomains" ∧ x = k then { t with domains := given (v :: vs) }
      else t
    | _ => t

/-- The settings after a history, if they were `t` before (and nobody else changes them). -/
def settingAfter (k : List UInt8) (t : Setting) (h : List Ev) : Setting := h.foldl (settingStep k) t

/-- The answer about a list of values: a sentence (with a space in it) if there are none, else a line each. -/
def Tells (out : List UInt8) (vs : List (List UInt8)) : Prop :=
  (vs = [] ∧ (32 : UInt8) ∈ captured out) ∨ (vs ≠ [] ∧ captured out = List.intercalate [10] vs)

/-- Values that are words, and not the word `Empty` alone. -/
def PlainValues (vs : List (List UInt8)) : Prop := vs ≠ [b!"Empty"] ∧ ∀ v ∈ vs, v ≠ [] ∧ ∀ c ∈ v, c ≠ 0 ∧ blankSep c = false

/-- The service is in the listing. -/
def Listed (k : List UInt8) (out : List UInt8) : Prop := ∃ found, ServicesShown out found ∧ k ∈ found

/-- The service was in a listing. -/
def SeenListed (k : List UInt8) (h : List Ev) : Prop := ∃ r, (listServices, r) ∈ h ∧ Listed k r.out

/-- The system keeps the settings of the service as it is told, beginning with `t`, and answers accordingly; once the service has been
listed, it stays in the list. -/
structure KeepsSetting (k : List UInt8) (t : Setting) (w : World) : Prop where
  servers : ∀ h, PlainValues (settingAfter k t h).servers → (w h (dnsQuery k)).status = 0 ∧ Tells (w h (dnsQuery k)).out (settingAfter k t h).servers
  domains : ∀ h, PlainValues (settingAfter k t h).domains → (w h (searchQuery k)).status = 0 ∧ Tells (w h (searchQuery k)).out (settingAfter k t h).domains
  obeysDns : ∀ h v vs, (w h (setDnsCmd k (v :: vs))).status = 0
  obeysSearch : ∀ h v vs, (w h (setSearchCmd k (v :: vs))).status = 0
  stays : ∀ h, SeenListed k h → Listed k (w h listServices).out

/-- The settings that the configuration asks for. -/
def wantedSetting (o : Opts) : Setting := ⟨given o.dns, given o.dnsSearch⟩

/-- A service has the configured settings if it was in the last listing, after which no routing message came. -/
def ServiceRight (c : Cfg) (k : List UInt8) (t : Setting) (h : List Ev) : Prop :=
  ∃ a r b, h = a ++ (listServices, r) :: b ∧ (∀ e ∈ b, ¬ MessageCame e) ∧ (Listed k r.out → settingAfter k t h = wantedSetting c.opts)

end WG.Spec.Bsd
