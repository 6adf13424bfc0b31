import Verif.Model.TIRun
import Verif.Spec.Given

/-!
# Specification: TI-DANSE re-runs with given filters
-/

namespace Danse
section
variable {n : Nat} {K : Type}

/-- A run with given filters (`update_using_pregiven_filters`, d_classes.py 1338-1353, called in
2953-2954): update number `i` of node `k` copies the row `F k i` (counting from 1). The flags
`startUpdates`, which `check_covariance_matrices` would set, stay `False`. -/
def TIStrategy.given (F : Fin n → Nat → Rows K) : TIStrategy n K :=
  { rows := fun k hist => F k hist.length
    started := fun _ _ => false }

/-- The filters that a run which ended in the state `s` wrote: row `i` of node `k` is the one that
update number `i` computed from the first `i` observations. -/
def recorded (U : TIStrategy n K) (s : TISt n K) (k : Fin n) (i : Nat) : Rows K :=
  U.rows k ((s.node k).hist.take i)

end
end Danse
