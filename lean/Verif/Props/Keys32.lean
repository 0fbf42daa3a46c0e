import Verif.Proof.Curve32Format
import Verif.Props.Keys
/-! C42: the 32-bit X25519 code. -/
namespace WG.Props
open Spec Spec.X25519

/-- C42. For every secret and every point, the 32-bit code computes the function of RFC 7748. -/
theorem c42_is_rfc7748 (secret point : Key) : C32.curve25519 secret point = x25519 secret point := C32.curve25519_eq secret point

/-- C42: the public key is X25519(secret, 9). -/
theorem c42_public_key (secret : Key) : C32.generatePublic secret = x25519 secret basePoint := C32.curve25519_eq secret _

/-- C42: the two builds agree. -/
theorem c42_builds_agree (secret point : Key) :
    C32.curve25519 secret point = C64.curve25519 secret point ∧ C32.generatePublic secret = C64.generatePublic secret := by
  rw [c42_is_rfc7748, c41_is_rfc7748, c42_public_key, c41_public_key]
  exact ⟨rfl, rfl⟩

/-- C42: `pubkey` behaves the same in both builds. -/
theorem c42_pubkey (sc : Bool) (prog : CStr) (stdin : List UInt8) (argv : List CStr) :
    pubkeyMain C32.generatePublic sc prog stdin argv = pubkeyMain C64.generatePublic sc prog stdin argv := by
  rw [show C32.generatePublic = C64.generatePublic from funext fun k => (c42_builds_agree k k).2]

-- a secret and a point whose limbs are all ones: every carry occurs
example : C32.curve25519 (Vector.replicate 32 255) (Vector.replicate 32 255) = C64.curve25519 (Vector.replicate 32 255) (Vector.replicate 32 255) := by
  decide +kernel

-- RFC 7748, section 6.1, Bob's keys
example : keyToBase64 (C32.generatePublic ((keyFromHex b!"5dab087e624a8a4b79e17f8b83800ee66f3bb1292618b6fd1c2f8b27ff88e0eb").getD zeroKey)) =
    b!"3p7bfXt9wbTTW2HC7OQ1Nz+DQ8hbeGdNrfx+FG+IK08=" := by
  decide +kernel

end WG.Props
