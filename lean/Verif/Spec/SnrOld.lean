import Mathlib.Algebra.BigOperators.Intervals
import Mathlib.Data.Real.Basic

/-!
# Specification: power where the voice is active, or is not
-/

namespace Danse

/-- Mean power of the samples with the flag `b`. -/
noncomputable def powerWhere (x : List ℝ) (v : List Bool) (b : Bool) : ℝ :=
  (∑ t ∈ (Finset.range x.length).filter (fun t => v[t]? = some b), (x.getD t 0) ^ 2) /
    ((Finset.range x.length).filter (fun t => v[t]? = some b)).card

end Danse
