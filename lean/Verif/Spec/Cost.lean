import Verif.Spec.TIDanse
import Mathlib.Analysis.Complex.Basic

/-!
# Specification: how good a filter is on the frames that a node heard

The powers are running averages, as the user sets them up with `t_expAvg50p` (forgetting factor) and
`use1stFrameAsBasis`.
-/

namespace Danse
section
variable {B m : Nat}

/-- Running average of the power of the output `wᴴ y` in bin `κ` over the frames `l`, oldest first, starting from `p`. -/
noncomputable def avgFrom (b : ℝ) (κ : Fin B) (w : Fin m → ℂ) (p : ℝ) (l : List (Frame (Fin B) (Fin m) ℂ)) : ℝ :=
  l.foldl (fun p y => b * p + (1 - b) * ‖star w ⬝ᵥ y κ‖ ^ 2) p

/-- The filter `v` for the first channels, nothing for the other ones. -/
noncomputable def padded {M d : Nat} (v : Fin M → ℂ) : Fin (M + d) → ℂ := Fin.append v 0

end

/-- Average power of the output of `w` in the active (`b = true`) or inactive frames among the events `l`. It starts with the
first of these frames, or, without `use1stFrameAsBasis`, with the power that the initial covariance matrix stands for (the
covariance matrices are divided by the number of channels). -/
noncomputable def DanseCfg.power (D : DanseCfg ℂ) (k : Nat) {m : Nat} (b : Bool) (l : List (UpEv (Fin D.nb) (Fin m) ℂ ℚ))
    (κ : Fin D.nb) (w : Fin m → ℂ) : ℝ :=
  match D.use1st, framesWith b l with
  | true, y :: r => avgFrom (D.beta k).re κ w (‖star w ⬝ᵥ y κ‖ ^ 2) r
  | _, r => avgFrom (D.beta k).re κ w (m * (star w ⬝ᵥ (D.R0 k m κ).mulVec w).re) r

/-- Estimated error of the filter `w`: the power of the speech that is missing from its output (power of the difference
between reference sensor and output, in active frames less that in inactive frames) plus the power of the noise in it. -/
noncomputable def DanseCfg.estErr (D : DanseCfg ℂ) (k : Nat) {m : Nat} (l : List (UpEv (Fin D.nb) (Fin m) ℂ ℚ))
    (κ : Fin D.nb) (w : Fin m → ℂ) : ℝ :=
  let e : Fin m → ℂ := fun c => if c.val = D.g.refSensor then 1 else 0
  (D.power k true l κ (e - w) - D.power k false l κ (e - w)) + D.power k false l κ w

end Danse
