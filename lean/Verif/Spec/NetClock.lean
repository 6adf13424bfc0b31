import Verif.Model.NetClock
import Verif.Spec.Sro

/-!
# Specification: clock offset that a node has accumulated
-/

namespace Danse

/-- Samples by which a node with offset `e` (ppm) runs ahead of the roots of its updates, `Ns` samples per update. -/
noncomputable def aheadSamples (Ns : ℕ) (e : ℝ) (roots : List ℝ) : ℝ := (roots.map fun r => Ns * (e - r) / 1000000).sum

/-- The offsets of the roots at the updates of node `k`. -/
noncomputable def rootsOf (ppm : List ℝ) (k : ℕ) (ups : List (ℕ × ℕ)) : List ℝ :=
  (ups.filter fun u => u.2 = k).map fun u => ppm.getD u.1 0

end Danse
