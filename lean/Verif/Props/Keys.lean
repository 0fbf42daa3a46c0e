import Verif.Proof.Keys
/-!
C39, C40, C41, C43: key generation, public keys and the 64-bit X25519 code.
-/
namespace WG.Props
open Spec Spec.X25519

/-- C41. For every secret and every point, the 64-bit code computes the function of RFC 7748. The model reduces every sum, difference
and product to 64 or 128 bits as C does, so no wrapped value can have changed a result. -/
theorem c41_is_rfc7748 (secret point : Key) : C64.curve25519 secret point = x25519 secret point := C64.curve25519_eq secret point

/-- C41: the public key is X25519(secret, 9). -/
theorem c41_public_key (secret : Key) : C64.generatePublic secret = x25519 secret basePoint := C64.curve25519_eq secret _

/-- A key from 64 hexadecimal digits. -/
private def hx (s : CStr) : Key := (keyFromHex s).getD zeroKey

-- the first two test vectors of RFC 7748, section 5.2: the specification has the right values
example : x25519 (hx b!"a546e36bf0527c9d3b16154b82465edd62144c0ac1fc5a18506a2244ba449ac4")
    (hx b!"e6db6867583030db3594c1a424b15f7c726624ec26b3353b10a903a6d0ab1c4c") =
    hx b!"c3da55379de9c6908e94ea4df28d084f32eccf03491c71f754b4075577a28552" := by
  rw [← c41_is_rfc7748]; decide +kernel

example : x25519 (hx b!"4b66e9d4d1b4673c5ad22691957d6af5c11b6421e0ea01d42ca4169e7918ba0d")
    (hx b!"e5210f12786811d3f4b7959d0538ae2c31dbe7106fc03c3efc4cd549c715a493") =
    hx b!"95cbde9476e8907d7aade45cb4b873f88b595a68799fa152e6f8f7647aac7957" := by
  rw [← c41_is_rfc7748]; decide +kernel

/-- C39. Whatever the random source does, `get_random_bytes` returns exactly the bytes it delivered, and fails exactly when it did not
deliver all of them. -/
theorem c39_random_bytes_exact (env : RandEnv) (hs : SaneRand env) (junk : List UInt8) (len : Nat) (h : len ≤ 256) (hj : junk.length = len)
    (l : List UInt8) : getRandomBytes env junk len = some l ↔ Delivered env len l := getRandomBytes_spec env hs junk len h hj l

/-- C39. `genkey` prints the base64 text of the random bytes with exactly the five fixed bits of a private key set; when the random
source fails it prints nothing and exits with 1. -/
theorem c39_genkey (env : RandEnv) (hs : SaneRand env) (mode : Option Nat) (junk : Key) (strerr prog : List UInt8) :
    let out := genkeyMain env mode junk strerr prog [b!"genkey"]
    (∀ l, Delivered env 32 l → ∃ k, Clamped k ∧ SameFreeBits k (keyOf l) ∧ out.stdout = rfc4648 k.toList ++ b!"\n" ∧ out.code = 0) ∧
    ((∀ l, ¬ Delivered env 32 l) → out.stdout = [] ∧ out.code = 1) := by
  have h := getRandomBytes_spec env hs junk.toList 32 (by omega) (by simp)
  refine ⟨?_, ?_⟩
  · intro l hl
    refine ⟨C64.clamp (keyOf l), (clamp_clamped _).1, (clamp_clamped _).2, ?_⟩
    simp only [genkeyMain, (h l).2 hl]
    simp [keyToBase64_rfc]
  · intro hno
    have hn : getRandomBytes env junk.toList 32 = none := by
      cases hg : getRandomBytes env junk.toList 32 with
      | none => rfl
      | some l => exact absurd ((h l).1 hg) (hno l)
    simp only [genkeyMain, hn]
    simp

/-- C39: the fixed bits and the others determine the key printed. -/
theorem c39_clamped_key_unique (raw a b : Key) (ha : Clamped a) (hb : Clamped b) (sa : SameFreeBits a raw) (sb : SameFreeBits b raw) : a = b :=
  clamped_unique raw a b ha hb sa sb

/-- C39. `genpsk` prints the base64 text of the random bytes; when the random source fails it prints nothing and exits with 1. -/
theorem c39_genpsk (env : RandEnv) (hs : SaneRand env) (mode : Option Nat) (junk : Key) (strerr prog : List UInt8) :
    let out := genkeyMain env mode junk strerr prog [b!"genpsk"]
    (∀ l, Delivered env 32 l → out.stdout = rfc4648 l ++ b!"\n" ∧ out.code = 0) ∧
    ((∀ l, ¬ Delivered env 32 l) → out.stdout = [] ∧ out.code = 1) := by
  have h := getRandomBytes_spec env hs junk.toList 32 (by omega) (by simp)
  refine ⟨?_, ?_⟩
  · intro l hl
    simp only [genkeyMain, (h l).2 hl]
    simp [keyToBase64_rfc, keyOf_toList (delivered_length hl)]
  · intro hno
    have hn : getRandomBytes env junk.toList 32 = none := by
      cases hg : getRandomBytes env junk.toList 32 with
      | none => rfl
      | some l => exact absurd ((h l).1 hg) (hno l)
    simp only [genkeyMain, hn]
    simp

/-- C39: with any argument nothing is generated. -/
theorem c39_arguments_refused (env : RandEnv) (mode : Option Nat) (junk : Key) (strerr prog : List UInt8) (argv : List CStr)
    (h : argv.length ≠ 1) :
    (genkeyMain env mode junk strerr prog argv).stdout = [] ∧ (genkeyMain env mode junk strerr prog argv).code = 1 := by
  simp [genkeyMain, h]

/-- C39: the warning about a world accessible file is printed exactly for a regular file with a permission bit for others. -/
theorem c39_warning (env : RandEnv) (mode : Option Nat) (junk : Key) (strerr prog : List UInt8) (cmd : CStr)
    (h : (genkeyMain env mode junk strerr prog [cmd]).code = 0) :
    (genkeyMain env mode junk strerr prog [cmd]).stderr =
      if ∃ m, mode = some m ∧ m / 2 ^ 12 % 16 = 8 ∧ m % 8 ≠ 0 then worldWarning else [] := by
  have key : ∀ m : Nat, (m &&& 0o170000 = 0o100000 ↔ m / 2 ^ 12 % 16 = 8) ∧ (m &&& 0o7 ≠ 0 ↔ m % 8 ≠ 0) := by
    intro m
    have e1 : m &&& 0o170000 = 2 ^ 12 * (m / 2 ^ 12 % 16) := by
      apply Nat.eq_of_testBit_eq
      intro i
      rw [Nat.testBit_and, Nat.testBit_two_pow_mul, show (16 : Nat) = 2 ^ 4 from rfl, Nat.testBit_mod_two_pow, Nat.testBit_div_two_pow,
        show (0o170000 : Nat) = 2 ^ 12 * (2 ^ 4 - 1) from rfl, Nat.testBit_two_pow_mul, Nat.testBit_two_pow_sub_one]
      by_cases h : 12 ≤ i
      · simp [h, Bool.and_comm]
      · simp [h]
    have e2 : m &&& 0o7 = m % 8 := Nat.and_two_pow_sub_one_eq_mod m 3
    rw [e1, e2]
    omega
  unfold genkeyMain at h ⊢
  simp only [List.length_cons, List.length_nil, Nat.zero_add, ne_eq, not_true_eq_false, if_false] at h ⊢
  cases hg : getRandomBytes env junk.toList 32 with
  | none => simp [hg] at h
  | some l =>
    simp only
    cases mode with
    | none => simp
    | some m =>
      have := key m
      simp only [Option.some.injEq, exists_eq_left']
      apply if_congr _ rfl rfl
      rw [Bool.and_eq_true, decide_eq_true_eq, bne_iff_ne, this.1, this.2]

/-- A source that fails twice, then delivers 5, 20 and 7 bytes. -/
private def env1 : RandEnv where
  entropy := fun _ => none
  getrandom := fun n => if 3 ≤ n then some [1, 2, 3] else none
  openOk := true
  read := fun j n => if j = 0 then some (List.replicate (min 5 n) 7) else if j = 1 then some (List.replicate (min 20 n) 255)
    else some (List.replicate (min 7 n) 9)

example : SaneRand env1 ∧ Delivered env1 32 (List.replicate 5 7 ++ List.replicate 20 255 ++ List.replicate 7 9) := by
  refine ⟨⟨?_, ?_⟩, ?_⟩
  · intro n d h
    simp only [env1] at h
    split at h
    · cases h; assumption
    · cases h
  · intro j n d h
    simp only [env1] at h
    split at h
    · cases h; simp
    · split at h <;> cases h <;> simp
  · refine ⟨rfl, ?_⟩
    exact .more (d := List.replicate 5 7) (by decide) rfl (by decide) (by decide)
      (.more (d := List.replicate 20 255) (by decide) rfl (by decide) (by decide)
        (.more (d := List.replicate 7 9) (by decide) rfl (by decide) (by decide) (.done _)))

/-- C40. `pubkey` accepts exactly the 44-character text of a key followed by white space or NULs, and prints the text of
X25519(key, 9); on any other input it prints nothing and exits with 1. -/
theorem c40_pubkey (sc : Bool) (prog cmd : CStr) (stdin : List UInt8) :
    let out := pubkeyMain C64.generatePublic sc prog stdin [cmd]
    (∀ (k : Key) t, stdin = rfc4648 k.toList ++ t → (∀ c ∈ t, c = 0 ∨ isSpace c = true) →
      out.stdout = rfc4648 (x25519 k basePoint).toList ++ b!"\n" ∧ out.stderr = [] ∧ out.code = 0) ∧
    ((¬ ∃ (k : Key) (t : List UInt8), stdin = rfc4648 k.toList ++ t ∧ ∀ c ∈ t, c = 0 ∨ isSpace c = true) → out.stdout = [] ∧ out.code = 1) := by
  have h := pubkeyMain_spec C64.generatePublic sc prog cmd stdin
  simp only [keyToBase64_rfc] at h
  refine ⟨?_, h.2⟩
  intro k t h1 h2
  rw [h.1 k t h1 h2, c41_public_key]
  exact ⟨rfl, rfl, rfl⟩

/-- C40: with any argument nothing is read or printed. -/
theorem c40_arguments_refused (pub : Key → Key) (sc : Bool) (prog : CStr) (stdin : List UInt8) (argv : List CStr) (h : argv.length ≠ 1) :
    (pubkeyMain pub sc prog stdin argv).stdout = [] ∧ (pubkeyMain pub sc prog stdin argv).code = 1 := by
  simp [pubkeyMain, h]

-- a key with white space after it
example : pubkeyMain C64.generatePublic true b!"wg"
    (rfc4648 (hx b!"77076d0a7318a57d3c16c17251b26645df4c2f92ebc0992ac177fba51db92c2a").toList ++ b!" \n") [b!"pubkey"] =
    ⟨b!"+KlTWi0v9gXo4UTVT071xiMTogVduyH93T/ZwpnrAV0=\n", [], 0⟩ := by decide +kernel

/-- C43. Secrets that differ only in the five bits X25519 fixes give the same result for every point; in particular the same public
key. -/
theorem c43_fixed_bits_irrelevant (k k' point : Key) (h : SameFreeBits k k') :
    C64.curve25519 k point = C64.curve25519 k' point ∧ C64.generatePublic k = C64.generatePublic k' := by
  rw [c41_is_rfc7748, c41_is_rfc7748, c41_public_key, c41_public_key]
  unfold x25519
  rw [decodeScalar_same k k' h]
  exact ⟨rfl, rfl⟩

/-- C43: `genkey | pubkey` prints the public key of the raw random bytes. -/
theorem c43_genkey_pubkey (env : RandEnv) (hs : SaneRand env) (mode : Option Nat) (junk : Key) (strerr prog : List UInt8) (sc : Bool)
    (l : List UInt8) (hl : Delivered env 32 l) :
    (pubkeyMain C64.generatePublic sc prog (genkeyMain env mode junk strerr prog [b!"genkey"]).stdout [b!"pubkey"]).stdout =
      rfc4648 (x25519 (keyOf l) basePoint).toList ++ b!"\n" := by
  obtain ⟨k, -, hk, ho, -⟩ := (c39_genkey env hs mode junk strerr prog).1 l hl
  rw [ho]
  have := ((c40_pubkey sc prog b!"pubkey" (rfc4648 k.toList ++ b!"\n")).1 k b!"\n" rfl (by decide)).1
  rw [this]
  unfold x25519
  rw [decodeScalar_same k _ hk]

end WG.Props
