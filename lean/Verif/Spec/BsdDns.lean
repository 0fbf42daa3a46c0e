import Verif.Spec.BsdRoutes
/-!
DNS settings of the network services on macOS: what is asked, remembered, changed and restored.
-/
namespace WG.Spec.Bsd
open WG.Quick (Call Reply Ev World Opts)
open WG.Bsd (Plat Cfg)
open WG.Spec.Quick

/-- What is remembered for every service: its name servers and search domains; nothing is remembered if the former is empty. -/
structure Memory where
  dns : List UInt8 → List UInt8
  search : List UInt8 → List UInt8

/-- The answer about the settings of a service: a sentence means that there are none. -/
def SvcAnswer (out a : List UInt8) : Prop :=
  ((32 : UInt8) ∈ captured out ∧ a = b!"Empty") ∨ ((32 : UInt8) ∉ captured out ∧ a = captured out)

/-- The services in the listing: a line each after the first; those that are disabled have an asterisk in front. -/
def ServicesShown (out : List UInt8) (found : List (List UInt8)) : Prop :=
  ∃ lines, EndedLines out lines ∧ List.Forall₂ (fun l s => l = c!"*" :: s ∨ ((∀ t, l ≠ c!"*" :: t) ∧ s = l)) (lines.drop 1) found

def dnsQuery (service : List UInt8) : Call := .query [b!"networksetup", b!"-getdnsservers", service]
def searchQuery (service : List UInt8) : Call := .query [b!"networksetup", b!"-getsearchdomains", service]
def listServices : Call := .query [b!"networksetup", b!"-listallnetworkservices"]
def setDnsCmd (service : List UInt8) (servers : List (List UInt8)) : Call := cmd ([b!"networksetup", b!"-setdnsservers", service] ++ servers)
def setSearchCmd (service : List UInt8) (domains : List (List UInt8)) : Call := cmd ([b!"networksetup", b!"-setsearchdomains", service] ++ domains)

/-- A value for one service, if it is not empty. -/
def remember (m : List UInt8 → List UInt8) (k v : List UInt8) : List UInt8 → List UInt8 := fun x => if x = k ∧ v ≠ [] then v else m x

/-- The services, whose names are not empty, are gone through; those of which nothing is remembered are asked for their settings. -/
inductive Asked : Memory → List (List UInt8) → Memory → List Ev → Prop
  | nil {m} : Asked m [] m []
  | known {m k ks m' l} : k ≠ [] → m.dns k ≠ [] → Asked m ks m' l → Asked m (k :: ks) m' l
  | ask {m k ks m' l r1 r2 a1 a2} : k ≠ [] → m.dns k = [] → r1.status = 0 → r2.status = 0 → SvcAnswer r1.out a1 → SvcAnswer r2.out a2 →
      Asked ⟨remember m.dns k a1, remember m.search k a2⟩ ks m' l → Asked m (k :: ks) m' ((dnsQuery k, r1) :: (searchQuery k, r2) :: l)

/-- Services that are gone are forgotten. -/
def Memory.only (m : Memory) (found : List (List UInt8)) : Memory where
  dns := fun k => if k ∈ found then m.dns k else []
  search := fun k => if m.dns k ≠ [] ∧ k ∉ found then [] else m.search k

/-- Every remembered service once. -/
def Services (m : Memory) (ks : List (List UInt8)) : Prop := ks.Nodup ∧ ∀ k, k ∈ ks ↔ m.dns k ≠ []

/-- One service gets the configured name servers and, if that worked, search domains. -/
def ServiceSet (o : Opts) (k : List UInt8) (l : List Ev) : Prop :=
  ∃ r, (r.status ≠ 0 ∧ l = [(setDnsCmd k o.dns, r)]) ∨
    (r.status = 0 ∧ ∃ r', l = [(setDnsCmd k o.dns, r), (setSearchCmd k (if o.dnsSearch = [] then [b!"Empty"] else o.dnsSearch), r')])

/-- The settings of all services are changed: first those that are new are asked for what they have. -/
def DnsChanged (c : Cfg) (m m' : Memory) (l : List Ev) : Prop :=
  ∃ r found asked lq ks ls, l = (listServices, r) :: (lq ++ ls.flatten) ∧ ServicesShown r.out found ∧ Asked m found asked lq ∧ m' = asked.only found ∧
    Services m' ks ∧ List.Forall₂ (ServiceSet c.opts) ks ls

/-- One service gets back what is remembered. -/
def ServiceRestored (m : Memory) (k : List UInt8) (l : List Ev) : Prop :=
  ∃ ns ds r r', Words blankSep (m.dns k) ns ∧ Words blankSep (m.search k) ds ∧ l = [(setDnsCmd k ns, r), (setSearchCmd k ds, r')]

/-- All services get back what is remembered. -/
def DnsRestored (m : Memory) (l : List Ev) : Prop :=
  ∃ ks ls, Services m ks ∧ List.Forall₂ (ServiceRestored m) ks ls ∧ l = ls.flatten

end WG.Spec.Bsd
