import Verif.Spec.Online

/-! # Specification: the updates of a node in a schedule -/

namespace Danse

/-- The update of node `k` with index `i` (the first one has index 0) in a schedule takes place at time `t`. -/
def UpdateAt (evs : List (ℚ × Nat × EvType)) (k i : Nat) (t : ℚ) : Prop :=
  ∃ pre post, evs = pre ++ (t, k, .up) :: post ∧ evUps pre k = i

end Danse
