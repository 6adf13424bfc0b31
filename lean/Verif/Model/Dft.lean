import Mathlib.Algebra.Star.Basic
import Mathlib.Algebra.Field.Basic
import Mathlib.Algebra.BigOperators.Group.Finset.Basic
import Verif.Model.Py

/-!
# Model of the transforms between time and frequency domain

Models `back_to_time_domain` (`danse_toolbox/d_base.py` 1482-1535) and the calls of
`np.fft.fft` / `np.fft.ifft`. Numbers are elements of a field with a conjugation `star` (for
NumPy: complex numbers); `ζ` stands for `exp(2πi/n)`. Arithmetic is exact.

Only one column is modelled (`axis = 0`): a 2-D input is processed column by column. Not modelled:
`axis = 1` (which transposes), the rejection of other axes and dimensions, and the side effect on
the caller's array (the first and last bins of the *input* array are overwritten too).
-/

namespace Danse
section
variable {K : Type} [Field K] [StarRing K]

/-- `x[i]`, zero outside the array: `np.fft.fft(x, n)` pads with zeros. -/
def at0 (x : List K) (i : Nat) : K := x.getD i 0

/-- `np.fft.fft(x, n)` (used in d_base.py 1809, 1823, d_classes.py 1927). -/
def dft (ζ : K) (n : Nat) (x : List K) : List K :=
  (List.range n).map fun k => ∑ t ∈ Finset.range n, at0 x t * (ζ⁻¹) ^ (k * t)

/-- `np.fft.ifft(X, n)` (d_base.py 1530). -/
def idft (ζ : K) (n : Nat) (X : List K) : List K :=
  (List.range n).map fun t => (∑ k ∈ Finset.range n, at0 X k * ζ ^ (k * t)) / n

/-- `x.real`. -/
def rePart (z : K) : K := (z + star z) / 2

/-- First and last bins made real, then the mirrored conjugate appended (d_base.py 1520-1522). -/
def hermExt (x : List K) : List K :=
  let x1 := x.modify 0 rePart
  let x2 := x1.modify (x1.length - 1) rePart
  x2 ++ ((x2.dropLast.map star).reverse).dropLast

/-- `back_to_time_domain` (d_base.py 1482-1535) for one column. The size test
`x.shape[0] != n/2 + 1` uses real division. `np.fft.ifft` rejects `n = 0`. -/
def backToTD (ζ : K) (n : Nat) (x : List K) : Except PyErr (List K) :=
  if 2 * x.length ≠ n + 2 then .error .valueError
  else if n = 0 then .error .valueError
  else .ok (idft ζ n (hermExt x))

end
end Danse
