import Verif.Model.Scm
import Mathlib.Algebra.BigOperators.Group.List.Basic

/-! # Specification vocabulary for covariance estimation -/

namespace Danse
section
variable {F n K T : Type} [Fintype n] [Field K] [StarRing K]

/-- The normalised rank-one covariance of one frame, `y yᴴ / M`. -/
def rankOne (y : Frame F n K) (f : F) : Matrix n n K :=
  (1 / (Fintype.card n : K)) • Matrix.vecMulVec (y f) (star (y f))

/-- Exponentially weighted sum of the rank-one covariances of the frames `l` (oldest first) with
initial value `R0`: `β^m R0 + Σ_i (1-β) β^(m-1-i) y_i y_iᴴ / M`. -/
def expWeighted (β : K) (R0 : F → Matrix n n K) (l : List (Frame F n K)) (f : F) : Matrix n n K :=
  β ^ l.length • R0 f +
    (l.zipIdx.map fun p => ((1 - β) * β ^ (l.length - 1 - p.2)) • rankOne p.1 f).sum

/-- The frames of a history whose VAD flag is `b`. -/
def framesWith (b : Bool) (l : List (UpEv F n K T)) : List (Frame F n K) :=
  (l.filter fun e => e.vad == b).map (·.y)

end
end Danse
