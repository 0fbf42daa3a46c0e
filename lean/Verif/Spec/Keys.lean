import Verif.Spec.Encoding
import Verif.Spec.X25519
import Verif.Model.Keys
/-! What a source of random bytes delivered, and the fixed bits of a private key. -/
namespace WG.Spec

/-- `Reads env len i j l`: from the `j`-th read on, with `i` bytes there already, the reads of /dev/urandom each delivered at least
one byte, and together exactly `l`, which completes `len` bytes. -/
inductive Reads (env : RandEnv) (len : Nat) : Nat → Nat → List UInt8 → Prop
  | done (j) : Reads env len len j []
  | more {i j d l} : i < len → env.read j (len - i) = some d → d ≠ [] → d.length ≤ len - i →
      Reads env len (i + d.length) (j + 1) l → Reads env len i j (d ++ l)

/-- The system delivered the `len` bytes `l`: through getentropy; else through one complete getrandom; else through reads of
/dev/urandom. -/
def Delivered (env : RandEnv) (len : Nat) (l : List UInt8) : Prop :=
  match env.entropy len with
  | some v => l = v.toList
  | none =>
    match env.getrandom len with
    | some d => if d.length = len then l = d else env.openOk = true ∧ Reads env len 0 0 l
    | none => env.openOk = true ∧ Reads env len 0 0 l

/-- The system calls never deliver more than was asked for. -/
def SaneRand (env : RandEnv) : Prop :=
  (∀ n d, env.getrandom n = some d → d.length ≤ n) ∧ ∀ j n d, env.read j n = some d → d.length ≤ n

/-- The bits an X25519 private key has fixed, RFC 7748: bits 0, 1, 2 clear, bit 255 clear, bit 254 set. -/
def Clamped (k : Key) : Prop :=
  let n := X25519.decodeLE k.toList
  n.testBit 0 = false ∧ n.testBit 1 = false ∧ n.testBit 2 = false ∧ n.testBit 255 = false ∧ n.testBit 254 = true

/-- The two keys agree in all bits but 0, 1, 2, 254 and 255. -/
def SameFreeBits (k k' : Key) : Prop :=
  ∀ i, 3 ≤ i → i < 254 → (X25519.decodeLE k.toList).testBit i = (X25519.decodeLE k'.toList).testBit i

end WG.Spec
