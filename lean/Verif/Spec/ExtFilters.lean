import Verif.Model.ExtFilters

/-! # Specification vocabulary for the broadcast filters -/

namespace Danse
variable {W K T : Type} [Field K] [AddCommGroup W] [Module K W]

/-- Relaxation is in force: the broadcast filter is neither overridden nor tied to the internal
filter. -/
def ExtCfg.Relaxed (c : ExtCfg W K T) : Prop :=
  c.onlyRef = false ∧ (c.oneMic = false ∨ c.noFusion = false) ∧ c.noRelax = false ∧ c.seq = false

/-- The events at which an interval of at least `every` has passed since the last chosen one (or
since `last`), chosen greedily. -/
def greedyEvery [Sub T] [LE T] [DecidableLE T] (every : T) : T → List (W × T) → List (W × T)
  | _, [] => []
  | last, e :: l =>
    if every ≤ e.2 - last then e :: greedyEvery every e.2 l else greedyEvery every last l

end Danse
