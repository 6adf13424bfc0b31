import Verif.Model.BlockCost
import Mathlib.Algebra.BigOperators.Intervals

/-!
# Specification: mean squared error of a block
-/

namespace Danse

/-- Mean squared difference of two signals over the `bl` samples from sample `a`. -/
def meanSqErr (d w : List ℚ) (a bl : ℕ) : ℚ := (∑ i ∈ Finset.range bl, (d.getD (a + i) 0 - w.getD (a + i) 0) ^ 2) / bl

end Danse
