import Verif.Model.Py
import Mathlib.Data.Rat.Floor

/-!
# Model of the block-wise costs of a battery

`compute_mmse` of `tests/battery20231013_pp2_mmse.py` (84-119), for one of the three kinds of estimates. Arrays of two dimensions are
lists of rows; exact numbers. `fs` is not negative.
-/

namespace Danse

/-- `a - b` for arrays of one dimension: equal lengths, or one of them 1. -/
def npDiffB (a b : List ℚ) : Except PyErr (List ℚ) :=
  if a.length = b.length then .ok (List.zipWith (· - ·) a b)
  else if a.length = 1 then .ok (b.map fun y => a.getD 0 0 - y)
  else if b.length = 1 then .ok (a.map fun x => x - b.getD 0 0)
  else .error .valueError

/-- `m[:, k] = v` (91-100) for an array with `T` rows: the column that is written. -/
def colWrite (T : ℕ) (v : List ℚ) : Except PyErr (List ℚ) :=
  if v.length = T then .ok v
  else if v.length = 1 then .ok (List.replicate T (v.getD 0 0))
  else .error .valueError

/-- The columns of squared errors (91-100). -/
def sqErrCols (T : ℕ) (nodes : List (List ℚ × List ℚ)) : Except PyErr (List (List ℚ)) :=
  nodes.mapM fun nd => do
    let e ← npDiffB nd.1 nd.2
    colWrite T (e.map fun x => x ^ 2)

/-- The elements of the first `r` rows, in the order of the memory (row by row). -/
def memRows (cols : List (List ℚ)) (r : ℕ) : List ℚ :=
  (List.range r).flatMap fun t => cols.map fun c => c.getD t 0

/-- `np.mean(x.reshape(nB, bl, K), axis=1)` (106-108), `x` given by its elements in the order of the memory. -/
def meanBlocks (x : List ℚ) (nB bl K : ℕ) : List (List ℚ) :=
  (List.range nB).map fun b => (List.range K).map fun k =>
    ((List.range bl).map fun i => x.getD ((b * bl + i) * K + k) 0).sum / bl

/-- `compute_mmse` (84-119): per node the clean signal at the reference sensor and the estimate; `fs` of the first node. -/
def computeMmse (fs : ℚ) (nodes : List (List ℚ × List ℚ)) : Except PyErr (List (List ℚ)) :=
  match nodes with
  | [] => .error .indexError
  | n0 :: _ => do
    let cols ← sqErrCols n0.1.length nodes
    let bl := ⌊1 / 2 * fs⌋.toNat
    if bl = 0 then .error .zeroDivisionError
    else
      let nB := n0.1.length / bl
      .ok (meanBlocks (memRows cols (nB * bl)) nB bl nodes.length)

end Danse
