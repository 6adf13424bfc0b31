import Mathlib.Data.Int.Basic

/-!
# Recorded condition numbers

`ConditionNumbers` and `compute_condition_numbers` (danse_toolbox/d_classes.py 19-131) as used in
`spatial_covariance_matrix_update` (2127-2137, 2151-2161, 2178-2188). The condition number of a matrix
(`np.linalg.cond`) is a parameter.
-/

namespace Danse

variable {M V : Type}

/-- What is recorded for one kind of matrices of one node: `cn_Ryy...[k]` by columns, `iter_cn_Ryy...[k]`,
and `lastCondNumberSaveRyy...[k]`. -/
structure CnRec (V : Type) where
  cols : List (List V)
  iters : List Nat
  last : Int

/-- Initial values (d_classes.py 967-983). -/
def CnRec.init : CnRec V := ⟨[], [], -1⟩

/-- Recording in iteration `i` (d_classes.py 2127-2137 and `get_new_cond_number` 50-77); `R` are the matrices
of all bins after the update in that iteration. `save` is `saveConditionNumber`, `every` is
`saveConditionNumberEvery`. -/
def cnStep (cond : M → V) (save : Bool) (every : Int) (s : CnRec V) (i : Nat) (R : List M) : CnRec V :=
  if save && decide ((i : Int) - s.last ≥ every) then ⟨s.cols ++ [R.map cond], s.iters ++ [i], i⟩ else s

/-- The iterations `0, ..., n - 1` of a run in which iteration `i` ends with the matrices `R i`. -/
def cnRun (cond : M → V) (save : Bool) (every : Int) (R : Nat → List M) : Nat → CnRec V
  | 0 => CnRec.init
  | n + 1 => cnStep cond save every (cnRun cond save every R n) n (R n)

end Danse
