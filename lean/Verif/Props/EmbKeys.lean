import Verif.Proof.EmbLadder
import Verif.Model.EmbKeys
import Verif.Spec.Keys
import Verif.Proof.Keys
import Verif.Props.Encoding
/-! C67: the key functions of the embeddable library. -/
namespace WG.Props
open WG WG.Spec Spec.X25519

/-- C67. `wg_generate_public_key` writes X25519(key, 9), for every private key and whatever was in the output and in its uninitialized
arrays; no signed overflow and no access outside an array happens on the way (either would be `none`). -/
theorem c67_public_key (junk : Emb.Mem) (out : Nat → UInt8) (k : Key) :
    Emb.generatePublicKey junk out k = some (x25519 k basePoint) := Emb.generatePublicKey_eq junk out k

/-- C67: the same key as `wg pubkey` computes. -/
theorem c67_same_as_wg (junk : Emb.Mem) (out : Nat → UInt8) (k : Key) :
    Emb.generatePublicKey junk out k = some (C64.generatePublic k) := by
  rw [c67_public_key]; exact congrArg some (C64.curve25519_eq k _).symm

-- RFC 7748, section 6.1: Alice's keys
example : Emb.generatePublicKey (fun _ _ => 12345) (fun _ => 7)
    (keyOf [0x77, 0x07, 0x6d, 0x0a, 0x73, 0x18, 0xa5, 0x7d, 0x3c, 0x16, 0xc1, 0x72, 0x51, 0xb2, 0x66, 0x45,
      0xdf, 0x4c, 0x2f, 0x87, 0xeb, 0xc0, 0x99, 0x2a, 0xb1, 0x77, 0xfb, 0xa5, 0x1d, 0xb9, 0x2c, 0x2a]) =
    some (keyOf [0x85, 0x20, 0xf0, 0x09, 0x89, 0x30, 0xa7, 0x54, 0x74, 0x8b, 0x7d, 0xdc, 0xb4, 0x3e, 0xf7, 0x5a,
      0x0d, 0xbf, 0x3a, 0x0d, 0x26, 0x38, 0x1a, 0xf4, 0xeb, 0xa4, 0xa9, 0x8e, 0xaa, 0x9b, 0x4e, 0x6a]) := by
  rw [c67_same_as_wg]; decide +kernel

theorem emb_fromBase64 (sc : Bool) (s : CStr) (before : Key) :
    match keyFromBase64 sc s with
    | some k => Emb.keyFromBase64 sc s before = (0, k)
    | none => (Emb.keyFromBase64 sc s before).1 = -22 := by
  have key : ∀ ret : UInt8, if (1 &&& asr (u8ToInt ret - 1) 8) ≠ 0 then (-(22#32 &&& ~~~ (asr (u8ToInt ret - 1) 8))).toInt = 0
      else (-(22#32 &&& ~~~ (asr (u8ToInt ret - 1) 8))).toInt = -22 := by
    apply forall_u8; decide +kernel
  unfold keyFromBase64 Emb.keyFromBase64
  by_cases h : (decide (s.length ≠ 44) || decide (s.getD 43 0 ≠ 61)) = true
  · simp only [h, if_true]
  · simp only [h, if_false, Bool.false_eq_true]
    generalize (_ ||| toU8 (_ ||| _) : UInt8) = ret
    have := key ret
    by_cases hr : (1 &&& asr (u8ToInt ret - 1) 8) ≠ 0
    · rw [if_pos hr] at this ⊢
      simp only [this]
    · rw [if_neg hr] at this ⊢
      exact this

/-- C67. `wg_key_from_base64` returns 0 and fills in the key exactly for the 44-character text of a key, and -EINVAL (-22) for every
other string. -/
theorem c67_from_base64 (sc : Bool) (s : CStr) (before : Key) :
    (∀ k : Key, s = rfc4648 k.toList → Emb.keyFromBase64 sc s before = (0, k)) ∧
    ((∀ k : Key, s ≠ rfc4648 k.toList) → (Emb.keyFromBase64 sc s before).1 = -22) := by
  have h := emb_fromBase64 sc s before
  constructor
  · intro k hk
    rw [← c02_is_rfc4648, ← c01_base64_inverse sc] at hk
    rw [hk] at h; exact h
  · intro hn
    cases he : keyFromBase64 sc s with
    | none => rw [he] at h; exact h
    | some k => exact absurd (by rw [← c02_is_rfc4648]; exact (c01_base64_inverse sc s k).1 he) (hn k)

/-- C67, round trip: what `wg_key_to_base64` prints is read back. -/
theorem c67_roundtrip (sc : Bool) (k before : Key) : Emb.keyFromBase64 sc (keyToBase64 k) before = (0, k) :=
  (c67_from_base64 sc _ before).1 k (c02_is_rfc4648 k)

example : Emb.keyFromBase64 true b!"AQIDBAUGBwgJCgsMDQ4PEBESExQVFhcYGRobHB0eHyA=" zeroKey = (0, sampleKey) := by decide +kernel

/-- C67, finding: a refused text can nevertheless overwrite the caller's key: here 44 characters, one outside the alphabet. -/
theorem c67_counterexample_key_overwritten : ∃ (s : CStr) (before : Key),
    (Emb.keyFromBase64 true s before).1 = -22 ∧ (Emb.keyFromBase64 true s before).2 ≠ before := by
  exact ⟨b!"AQIDBAUGBwgJCgsMDQ4PEBESExQVFhcYGRobHB0eH!A=", zeroKey, by decide +kernel, by decide +kernel⟩

/-- C67. `wg_generate_preshared_key` returns exactly when the system delivered 32 random bytes, with these bytes; otherwise the process is
aborted, and no key with fewer random bytes is ever returned. -/
theorem c67_preshared_key (env : RandEnv) (hs : SaneRand env) (before : Key) (l : List UInt8) :
    Emb.generatePresharedKey env before.toList = some l ↔ Delivered env 32 l := by
  have e : Emb.generatePresharedKey env before.toList = getRandomBytes env before.toList 32 := by
    unfold Emb.generatePresharedKey getRandomBytes
    rw [if_neg (show ¬ 32 > 256 by norm_num)]
    cases env.entropy 32 with
    | some v => rfl
    | none => cases env.getrandom 32 <;> rfl
  rw [e]
  exact getRandomBytes_spec env hs _ 32 (by norm_num) (by simp) l

theorem emb_clamp (l : List UInt8) (h : l.length = 32) : ∃ z, Emb.clampKey (fun i => l.getD i 0) = some z ∧ Emb.toKey z = C64.clamp (keyOf l) := by
  have e : (fun i => l.getD i 0) = Emb.keyArr (keyOf l) := by
    funext i; unfold Emb.keyArr; rw [keyOf_toList h]
  rw [e]
  obtain ⟨z, ez, hz⟩ := Emb.clampKey_spec (keyOf l)
  refine ⟨z, ez, ?_⟩
  unfold Emb.toKey
  ext i hi
  simp only [Vector.getElem_ofFn]
  rw [hz i hi]
  simp [List.getD, hi]

/-- C67. `wg_generate_private_key` returns the delivered random bytes with exactly the five fixed bits of a private key set, or the process
is aborted. -/
theorem c67_private_key (env : RandEnv) (hs : SaneRand env) (before : Key) :
    (∀ l, Delivered env 32 l → ∃ k, Emb.generatePrivateKey env before.toList = some k ∧ Clamped k ∧ SameFreeBits k (keyOf l)) ∧
    ((∀ l, ¬ Delivered env 32 l) → Emb.generatePrivateKey env before.toList = none) := by
  constructor
  · intro l hl
    obtain ⟨z, ez, hz⟩ := emb_clamp l (delivered_length hl)
    refine ⟨_, ?_, clamp_clamped (keyOf l)⟩
    unfold Emb.generatePrivateKey
    rw [(c67_preshared_key env hs before l).2 hl, Emb.sb, ez, Emb.sb, hz]
  · intro hn
    unfold Emb.generatePrivateKey
    cases hg : Emb.generatePresharedKey env before.toList with
    | none => rfl
    | some l => exact absurd ((c67_preshared_key env hs before l).1 hg) (hn l)

/-- A source whose first two ways fail and whose device delivers 30 and 2 bytes. -/
private def envE : RandEnv where
  entropy := fun _ => none
  getrandom := fun n => if 16 ≤ n then some (List.replicate 16 1) else none
  openOk := true
  read := fun j n => if j = 0 then some (List.replicate (min 30 n) 255) else some (List.replicate (min 2 n) 9)

example : SaneRand envE ∧ Delivered envE 32 (List.replicate 30 255 ++ List.replicate 2 9) := by
  refine ⟨⟨?_, ?_⟩, ?_⟩
  · intro n d h
    simp only [envE] at h
    split at h
    · cases h; simpa
    · cases h
  · intro j n d h
    simp only [envE] at h
    split at h <;> cases h <;> simp
  · refine ⟨rfl, ?_⟩
    exact .more (d := List.replicate 30 255) (by decide) rfl (by decide) (by decide)
      (.more (d := List.replicate 2 9) (by decide) rfl (by decide) (by decide) (.done _))

-- the key made from it, and a source that cannot even be opened
example : (Emb.generatePrivateKey envE zeroKey.toList).map (·.toList) = some (248 :: (List.replicate 29 255 ++ [9, 73])) ∧
    Emb.generatePrivateKey { envE with openOk := false } zeroKey.toList = none := by decide +kernel

/-- C67. `wg_key_is_zero` tells exactly the all-zero key. -/
theorem c67_is_zero (k : Key) : keyIsZero k = true ↔ k = zeroKey := c04_zero_test k

end WG.Props
