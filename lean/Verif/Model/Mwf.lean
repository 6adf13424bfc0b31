import Verif.Model.Scm
import Mathlib.LinearAlgebra.Matrix.NonsingularInverse
import Mathlib.Data.Complex.Basic
import Mathlib.Order.Fin.Basic
import Mathlib.Logic.Equiv.Defs

/-!
# Filter computation

Both functions treat the frequency bins independently; one bin is modelled. Exact arithmetic;
LAPACK routines enter through their contracts (`LinAlg`).
-/

namespace Danse
section
variable {n K : Type} [Fintype n] [DecidableEq n] [Field K] [DecidableEq K]

/-- `np.linalg.inv`: `LinAlgError` for a singular matrix. -/
noncomputable def npInv (A : Matrix n n K) : Except PyErr (Matrix n n K) :=
  if A.det = 0 then .error .linAlgError else .ok A⁻¹

/-- `update_w` (d_classes.py 3320-3340). `refSensorIdx` is assumed to be a channel index. -/
noncomputable def updateW (Ryy Rnn : Matrix n n K) (ref : n) : Except PyErr (n → K) := do
  let e : n → K := fun i => if i = ref then 1 else 0
  let ryd := (Ryy - Rnn).mulVec e
  let Ryyinv ← npInv Ryy
  return Ryyinv.mulVec ryd

end

/-- The library routines used by `update_w_gevd`: `scipy.linalg.eigh(A, B)` and `np.argsort`. -/
structure LinAlg (m : Nat) where
  eigh : Matrix (Fin m) (Fin m) ℂ → Matrix (Fin m) (Fin m) ℂ →
    Except PyErr ((Fin m → ℝ) × Matrix (Fin m) (Fin m) ℂ)
  argsort : (Fin m → ℝ) → Fin m → Fin m

noncomputable section
open Classical

/-- `update_w_gevd` (d_classes.py 3343-3387), one bin; `idx = np.flip(np.argsort(sigma))`
(3393-3399). -/
def updateWGevd {m : Nat} (lib : LinAlg m) (Ryy Rnn : Matrix (Fin m) (Fin m) ℂ) (ref : Fin m)
    (rank : Nat) : Except PyErr (Fin m → ℂ) := do
  let (sigma0, X0) ← lib.eigh Ryy Rnn
  let idx : Fin m → Fin m := fun r => lib.argsort sigma0 (Fin.rev r)
  let sigma : Fin m → ℝ := fun r => sigma0 (idx r)
  let X : Matrix (Fin m) (Fin m) ℂ := Matrix.of fun i r => X0 i (idx r)
  let Q ← npInv X.conjTranspose
  if m < rank then .error .indexError  -- `Dmat[:, r, r]` with `r = m`
  else do
    let D : Matrix (Fin m) (Fin m) ℂ := Matrix.of fun i j =>
      if i = j ∧ i.val < rank then (((1 - 1 / sigma i : ℝ)) : ℂ) else 0
    let full := X * D * Q.conjTranspose
    return fun i => full i ref

end
end Danse
