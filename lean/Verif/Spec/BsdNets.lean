import Verif.Spec.BsdUp
/-!
The routes to the allowed IPs after `wg-quick up` on the BSDs.
-/
namespace WG.Spec.Bsd
open WG.Quick (Call Reply Ev World Opts)
open WG.Bsd (Plat Cfg)
open WG.Spec.Quick

def AutoTable (c : Cfg) : Prop := c.opts.table = [] ∨ c.opts.table = b!"auto"

/-- The routes go to the usual table: `Table` is not given or `auto`; on macOS also `main`. -/
def UsualTable (c : Cfg) : Prop := AutoTable c ∨ (c.plat = .darwin ∧ c.opts.table = b!"main")

instance (c : Cfg) : Decidable (UsualTable c) := by unfold UsualTable AutoTable; infer_instance

/-- The destinations that are to have a route for an allowed IP: itself; with automatic tables the two halves of a default route. -/
def Target (c : Cfg) (r dest : List UInt8) : Prop :=
  (AutoTable c ∧ b!"/0" <:+ r ∧ if c!":" ∈ r then dest = b!"::/1" ∨ dest = b!"8000::/1" else dest = b!"0.0.0.0/1" ∨ dest = b!"128.0.0.0/1") ∨
  (¬ (AutoTable c ∧ b!"/0" <:+ r) ∧ dest = r)

/-- The system was asked and said that the route goes through the interface. -/
def GoesAlready (real dest : List UInt8) (h : List Ev) : Prop :=
  ∃ q, (.query [b!"route", b!"-n", b!"get", famFlag dest, dest], q) ∈ h ∧ Occurs (b!"interface: " ++ real ++ b!"\n") (captured q.out)

/-- A network has its route: through the interface if it is a destination for one of the allowed IPs (unless it goes there anyway), else
as before (`v`). -/
def NetRight (c : Cfg) (real : List UInt8) (routes : List (List UInt8)) (f : Family) (dest : List UInt8) (v : Option Via) (h : List Ev) : Prop :=
  if UsualTable c then
    ((∃ r ∈ routes, Target c r dest) → (∃ via, ViaIf c real dest via ∧ routeAfter f.flag dest v h = some via) ∨
      (dest ∈ routes ∧ GoesAlready real dest h ∧ routeAfter f.flag dest v h = v)) ∧
    ((∀ r ∈ routes, ¬ Target c r dest) → routeAfter f.flag dest v h = v)
  else routeAfter f.flag dest v h = v

/-- Another table: the command that adds the route to it has succeeded for every allowed IP. -/
def OtherTable (c : Cfg) (real : List UInt8) (routes : List (List UInt8)) (h : List Ev) : Prop :=
  ¬ UsualTable c → c.opts.table ≠ b!"off" → ∀ r ∈ routes, ∃ via, ViaIf c real r via ∧ ∃ e ∈ h,
    match c.plat with
    | .freebsd => Did (cmd ([b!"route", b!"-q", b!"-n", b!"add", famFlag r, b!"-fib", c.opts.table, r] ++ via)) e
    | .openbsd => Did (cmd ([b!"route", b!"-q", b!"-n", b!"-T", c.opts.table, b!"add", famFlag r, r] ++ via)) e
    | .darwin => False

/-! ### The MTU -/

def SetsMtu (real : List UInt8) (e : Ev) : Prop := ∃ m, e.1 = cmd [b!"ifconfig", real, b!"mtu", m]

/-- A routing message came. -/
def MessageCame (e : Ev) : Prop := e.1 = .query [b!"read", b!"-u", b!"19"] ∧ e.2.status = 0 ∧ b!"RTM_" <+: e.2.out

/-- The MTU was set as it is to be and has not been changed since. -/
def MtuKept (c : Cfg) (real : List UInt8) (h : List Ev) : Prop := ∃ a l b, h = a ++ (l ++ b) ∧ MtuSet c real l ∧ ∀ e ∈ b, ¬ SetsMtu real e

/-- The same, and there was no routing message since. -/
def MtuFresh (c : Cfg) (real : List UInt8) (h : List Ev) : Prop := ∃ a l b, h = a ++ (l ++ b) ∧ MtuSet c real l ∧ ∀ e ∈ b, ¬ SetsMtu real e ∧ ¬ MessageCame e

end WG.Spec.Bsd
