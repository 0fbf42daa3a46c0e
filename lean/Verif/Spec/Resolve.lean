import Verif.Spec.Address
import Verif.Model.Libc
/-! Specification of the name-resolution retry loop. -/
namespace WG.Spec

/-- One run that started when `tick` resolver calls had been made, allowed `retries` retries (`none`: unlimited), with
the `i`-th wait next, observed for at most `fuel` calls; it ended with outcome `r`, after `k` calls in total, having waited
`w` (microseconds). -/
structure ResolveSpec (env : Env) (host port : CStr) (fuel tick : Nat) (retries : Option Nat) (i : Nat)
    (r : Res Endpoint) (k : Nat) (w : List Nat) : Prop where
  mono : tick ≤ k
  earlier : ∀ n, tick ≤ n → n + 1 < k → env.gai n host port = .transient
  outcome : match r with
    | .ok e => tick < k ∧ env.gai (k - 1) host port = .found e
    | .fail => tick < k ∧ (env.gai (k - 1) host port = .permanent ∨
        (env.gai (k - 1) host port = .transient ∧ retries = some (k - 1 - tick)))
    | .running => k = tick + fuel ∧ ∀ n, tick ≤ n → n < k → env.gai n host port = .transient
    | _ => False
  bound : ∀ N, retries = some N → k - tick ≤ N + 1
  waits : w = (List.range w.length).map (fun j => wait (i + j))
  nwaits : match r with
    | .running => w.length = k - tick
    | _ => w.length + 1 = k - tick

end WG.Spec
