import Verif.Spec.Given
import Verif.Model.Events

/-!
# Specification: recordings of the same shape; schedules that start with a tree
-/

namespace Danse

/-- As many channels, and corresponding channels are equally long. -/
def SameShape {K : Type} (x y : List (List K)) : Prop := x.map List.length = y.map List.length

/-- The first event of a schedule is a tree formation. -/
def StartsWithTree (out : List (Instant ℚ)) : Prop :=
  ∃ t e es rest, out = ⟨t, e :: es⟩ :: rest ∧ e.ty = .tr

end Danse
