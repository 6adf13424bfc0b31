import Verif.Model.Mwf
import Mathlib.Analysis.Complex.Norm

/-! # Specification vocabulary for the filters -/

namespace Danse
open Matrix

section
variable {n ι : Type} [Fintype n] [Fintype ι]

/-- Weighted sum of the outer products `y_i z_iᴴ` of a family of vectors. -/
noncomputable def wcov (p : ι → ℝ) (y z : ι → n → ℂ) : Matrix n n ℂ :=
  ∑ i, (p i : ℂ) • vecMulVec (y i) (star (z i))

/-- Weighted squared error of the estimates `wᴴ y_i` of the scalars `d_i`. -/
noncomputable def sqErr (p : ι → ℝ) (d : ι → ℂ) (y : ι → n → ℂ) (w : n → ℂ) : ℝ :=
  ∑ i, p i * ‖d i - star w ⬝ᵥ y i‖ ^ 2

end

/-- Contract of the library routines: for a Hermitian `A` and a Hermitian positive definite `B` (as
guaranteed by the checks before an update) `eigh` returns real generalised eigenvalues with
eigenvectors normalised to `Xᴴ B X = 1`; `argsort` returns a permutation sorting its argument. -/
structure LinAlg.Ok {m : Nat} (lib : LinAlg m) (A B : Matrix (Fin m) (Fin m) ℂ)
    (sigma : Fin m → ℝ) (X : Matrix (Fin m) (Fin m) ℂ) : Prop where
  eigh : lib.eigh A B = .ok (sigma, X)
  eq1 : Xᴴ * A * X = diagonal fun r => (sigma r : ℂ)
  eq2 : Xᴴ * B * X = 1
  inj : Function.Injective (lib.argsort sigma)
  sorted : Monotone fun r => sigma (lib.argsort sigma r)

end Danse
