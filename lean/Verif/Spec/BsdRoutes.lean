import Verif.Spec.QuickRun
import Verif.Model.Bsd
/-!
Routes on the BSDs: what `route add` and `route delete` do, what the listings of `netstat` and `wg` say, and which route an endpoint is
to have.
-/
namespace WG.Spec.Bsd
open WG.Quick (Call Reply Ev World)
open WG.Bsd (Plat Cfg)
open WG.Spec.Quick (cmd EndedLines Remainders Collected EndpointHost Words blankSep Remainder RoutesShown addrByte)

/-- How a route goes: the rest of the command that made it. -/
abbrev Via := List (List UInt8)

def addCmd (fam dest : List UInt8) (via : Via) : Call := cmd ([b!"route", b!"-q", b!"-n", b!"add", fam, dest] ++ via)
def deleteCmd (fam dest : List UInt8) : Call := cmd [b!"route", b!"-q", b!"-n", b!"delete", fam, dest]

/-- The route to one destination after a command: it changes only through successful commands for this destination. -/
def routeStep (fam dest : List UInt8) (v : Option Via) (e : Ev) : Option Via :=
  if e.2.status ≠ 0 then v
  else if e.1 = deleteCmd fam dest then none
  else match e.1 with
    | .act argv [] => if argv.take 6 = [b!"route", b!"-q", b!"-n", b!"add", fam, dest] then some (argv.drop 6) else v
    | _ => v

/-- The route after a history, if it was `v` before (and nobody else changes it). -/
def routeAfter (fam dest : List UInt8) (v : Option Via) (h : List Ev) : Option Via := h.foldl (routeStep fam dest) v

/-- The system has exactly the routes it was told: adding succeeds if there is no route to the destination yet, deleting if there is
one. -/
def KeepsRoute (fam dest : List UInt8) (v : Option Via) (w : World) : Prop :=
  ∀ h, ((w h (deleteCmd fam dest)).status = 0 ↔ routeAfter fam dest v h ≠ none) ∧
    ∀ via, (w h (addCmd fam dest via)).status = 0 ↔ routeAfter fam dest v h = none

/-- The two families, and the addresses that belong to them. -/
inductive Family where
  | v4
  | v6
deriving DecidableEq

def Family.flag : Family → List UInt8
  | .v4 => b!"-inet"
  | .v6 => b!"-inet6"

def Family.Has (f : Family) (host : List UInt8) : Prop := f = .v6 ↔ c!":" ∈ host

/-- The listing shows the gateway `g` in its first line for the destination `default`, or there is none such and `g` is empty; on
Darwin lines whose gateway is a link do not count. -/
def GatewayShown (p : Plat) (out g : List UInt8) : Prop :=
  ∃ lines, EndedLines out lines ∧
    let IsDefault := fun (l g : List UInt8) => ∃ ws, Words blankSep l ws ∧ ws.head? = some b!"default" ∧ g = (ws.drop 1).head?.getD [] ∧
      ¬ (p = .darwin ∧ b!"link#" <+: g)
    ((∃ a l b, lines = a ++ l :: b ∧ (∀ x ∈ a, ∀ g, ¬ IsDefault x g) ∧ IsDefault l g) ∨ ((∀ x ∈ lines, ∀ g, ¬ IsDefault x g) ∧ g = []))

/-- The hosts in the output of `wg show INTERFACE endpoints`. -/
def HostsShown (out : List UInt8) (hosts : List (List UInt8)) : Prop :=
  ∃ xs, Remainders out xs ∧ Collected EndpointHost xs hosts

/-- The route that an endpoint is to have: through the gateway, or, to prevent a loop, nowhere. -/
def directRoute (f : Family) (gateway : List UInt8) : Via :=
  if gateway = [] then [if f = .v6 then b!"::1" else b!"127.0.0.1", b!"-blackhole"] else [b!"-gateway", gateway]

def netstatOf (f : Family) : Call := .query [b!"netstat", b!"-nr", b!"-f", if f = .v6 then b!"inet6" else b!"inet"]
def endpointsOf (real : List UInt8) : Call := .query [b!"wg", b!"show", real, b!"endpoints"]

/-- `r4`, `r6` and `re` are what the script last learnt about the gateways and the endpoints. -/
def LastLearnt (real : List UInt8) (h : List Ev) (r4 r6 re : Reply) : Prop :=
  ∃ a b, h = a ++ [(netstatOf .v4, r4), (netstatOf .v6, r6), (endpointsOf real, re)] ++ b ∧ ∀ e ∈ b, e.1 ≠ endpointsOf real

/-- Text that can be a host: lower-case letters, digits, `:` and `.`. -/
def Host (d : List UInt8) : Prop := d ≠ [] ∧ ∀ c ∈ d, addrByte c = true

def allowedOf (real : List UInt8) : Call := .query [b!"wg", b!"show", real, b!"allowed-ips"]

/-- A default route is to be made: `Table` is not given or `auto`, and among the allowed IPs is one of length 0 of this family. -/
def DefaultWanted (c : Cfg) (f : Family) (allowed : List UInt8) : Prop :=
  (c.opts.table = [] ∨ c.opts.table = b!"auto") ∧ ∃ rs, RoutesShown allowed rs ∧ ∃ r ∈ rs, b!"/0" <:+ r ∧ f.Has r

/-- The listing that the gateway of a family is in. -/
def ofFamily (f : Family) (r4 r6 : Reply) : Reply := if f = .v6 then r6 else r4

/-- The route to a host is as it should be after the history: if there is a default route of its family, then an endpoint has the
route through the gateway as last seen (or nowhere), and every other host has the route `v` it had before; without a default route all
have. -/
def RouteRight (c : Cfg) (real : List UInt8) (f : Family) (d : List UInt8) (v : Option Via) (h : List Ev) : Prop :=
  ∃ q, (allowedOf real, q) ∈ h ∧
    ((DefaultWanted c f q.out ∧ ∃ r4 r6 re gw hosts, LastLearnt real h r4 r6 re ∧ GatewayShown c.plat (ofFamily f r4 r6).out gw ∧ HostsShown re.out hosts ∧
      routeAfter f.flag d v h = if d ∈ hosts then some (directRoute f gw) else v) ∨
    (¬ DefaultWanted c f q.out ∧ routeAfter f.flag d v h = v))

/-- A host that already had a route never is an endpoint. -/
def NoClash (d : List UInt8) (v : Option Via) (w : World) : Prop := v = none ∨ ∀ h real hosts, HostsShown (w h (endpointsOf real)).out hosts → d ∉ hosts

/-- A line of the listing is about a route through the interface: the sixth word, with IPv6 what follows the third word, is its name;
with IPv6 also if that is a loopback interface and the second word is the name. -/
def OnInterface (f : Family) (real line : List UInt8) : Prop :=
  match f with
  | .v4 => ∃ ws, Words blankSep line ws ∧ (ws[5]?).getD [] = real
  | .v6 => ∃ x y z ws, Remainder line x ∧ Remainder x y ∧ Remainder y z ∧ Words blankSep line ws ∧ (z = real ∨ (b!"lo" <+: z ∧ (ws[1]?).getD [] = real))

/-- The listing shows a route to `d` through the interface. -/
def ListsOwn (f : Family) (real out d : List UInt8) : Prop :=
  ∃ lines l ws, EndedLines out lines ∧ l ∈ lines ∧ Words blankSep l ws ∧ ws.head? = some d ∧ OnInterface f real l

/-- No signal comes while the endpoints are listed or a route is deleted. -/
def NotInterrupted (w : World) : Prop := ∀ h, (∀ real, (w h (endpointsOf real)).sig = false) ∧ ∀ fam x, (w h (deleteCmd fam x)).sig = false

end WG.Spec.Bsd
