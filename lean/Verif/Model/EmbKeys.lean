import Verif.Model.Keys
import Verif.Model.EmbCurve
/-!
Model of the other key functions of contrib/embeddable-wg-library/wireguard.c ("emb"). The text of `encode_base64` and `decode_base64`
(emb:1493-1505, 1518-1532) is that of src/encoding.c, so `encodeBase64` and `decodeBase64` are used for them; so is the text of
`wg_key_to_base64` (emb:1507-1516, `keyToBase64`) and of `wg_key_is_zero` (emb:1248-1258, `keyIsZero`).
-/
namespace WG.Emb

/-- emb:1534-1559 `wg_key_from_base64`: the return value, and the contents of `key` after the call (`before`: before it). `EINVAL` is 22;
the `errno` of a success is 0, as written by line 1556. -/
def keyFromBase64 (sc : Bool) (s : CStr) (before : Key) : Int × Key :=
  let g (i : Nat) : UInt8 := s.getD i 0
  if s.length ≠ 44 || g 43 ≠ 61 then (-22, before)
  else
    let val (i : Nat) : BitVec 32 :=
      if i < 10 then decodeBase64 sc (g (i * 4)) (g (i * 4 + 1)) (g (i * 4 + 2)) (g (i * 4 + 3))
      else decodeBase64 sc (g (i * 4)) (g (i * 4 + 1)) (g (i * 4 + 2)) 65
    let ret : UInt8 := (List.range 10).foldl (fun r i => r ||| toU8 (val i >>> 31)) 0
    let ret : UInt8 := ret ||| toU8 ((val 10 >>> 31) ||| (val 10 &&& 0xff))
    let key : Key := Vector.ofFn fun j : Fin 32 => toU8 ((asr (val (j / 3)) (16 - 8 * (j % 3))) &&& 0xff)
    let errno : BitVec 32 := 22#32 &&& ~~~ (asr (u8ToInt ret - 1) 8)
    ((-errno).toInt, key)

/-- emb:1735-1755 `wg_generate_preshared_key`: the contents of the buffer (`out` before the call); `none` is the abort of a failed `assert`
(compiled without `NDEBUG`). -/
def generatePresharedKey (env : RandEnv) (out : List UInt8) : Option (List UInt8) :=
  match env.entropy 32 with
  | some v => some v.toList
  | none =>
    let d := (env.getrandom 32).map (·.take 32)
    let out := match d with | some d => writeAt out 0 d | none => out
    if d.map (·.length) = some 32 then some out
    else if !env.openOk then none
    else
      let r := urandomLoop env 32 32 0 0 out
      if r.2 = 32 then some r.1 else none

/-- emb:1729-1733 `wg_generate_private_key`. -/
def generatePrivateKey (env : RandEnv) (out : List UInt8) : Option Key := do
  let l ← generatePresharedKey env out
  let z ← clampKey fun i => l.getD i 0
  some (toKey z)

end WG.Emb
