import Mathlib.Algebra.Field.Basic
import Mathlib.Data.Int.Basic

/-!
# Vocabulary of C137
-/

namespace Danse
section
variable {K : Type} [Field K]

/-- The signal, zero outside its recording. -/
def sigExt (sig : List K) (z : Int) : K := if 0 ≤ z then sig.getD z.toNat 0 else 0

/-- Fade-in over the first `H` samples, fade-out from sample `(I + 1) * H` on, both with the halves of the
window `w` of `2 * H` samples. -/
def fade (w : Nat → K) (H I n : Nat) : K :=
  if n < H then w n else if n < (I + 1) * H then 1 else w (n - I * H)

end
end Danse
