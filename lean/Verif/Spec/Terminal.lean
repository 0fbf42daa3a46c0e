import Verif.Spec.Encoding
/-! What removing terminal escape sequences means. -/
namespace WG.Spec

/-- `Stripped t out`: `out` is `t` without its control sequences. A sequence is ESC `[`, characters that are not letters, and a
letter (or the end of the text); ESC `[` with nothing after it is not a sequence. -/
inductive Stripped : List UInt8 → List UInt8 → Prop
  | nil : Stripped [] []
  | seq {params l rest out} : (∀ c ∈ params, isAlpha c = false) → isAlpha l = true → Stripped rest out →
      Stripped (27 :: c!"[" :: (params ++ l :: rest)) out
  | cut {params} : params ≠ [] → (∀ c ∈ params, isAlpha c = false) → Stripped (27 :: c!"[" :: params) []
  | char {c rest out} : (¬ ∃ x xs, c :: rest = 27 :: c!"[" :: x :: xs) → Stripped rest out → Stripped (c :: rest) (c :: out)

end WG.Spec
