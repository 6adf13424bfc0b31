import Verif.Model.Params
import Mathlib.Analysis.SpecialFunctions.Sqrt

/-!
# Network topology and sensor bookkeeping (`siggen`)

Coordinates and matrix entries are exact reals. An array of NaNs (mean of an empty selection) is
`none`.
-/

namespace Danse

/-- `np.where(a == v)[0]`. -/
def npWhereEq (a : List Nat) (v : Nat) : List Nat :=
  a.zipIdx.filterMap fun (x, i) => if x = v then some i else none

/-- (`refNodeIdx`, `refMicIdxLocal`) for `snrBasis = 'mic<m>'` (siggen/utils.py 196-204). -/
def refMicOf (nSensors : List Nat) (m : Nat) : Except PyErr (Nat × Int) := do
  let refNode ← pyGet (npWhereEq (sensorToNode nSensors) m) 0
  return (refNode, (m : Int) - ((nSensors.take refNode).sum : Nat))

/-- `(k, mLocal)` for a sensor to be replaced by noise (siggen/utils.py 1366-1368). -/
def sensorOwner (nSensors : List Nat) (m : Nat) : Except PyErr (Nat × Nat) := do
  let k ← pyGet (sensorToNode nSensors) m
  match (npWhereEq (sensorToNode nSensors) k).findIdx? (· == m) with
  | some j => return (k, j)
  | none => throw .valueError

/-- A point in space. -/
abbrev Pt := Fin 3 → ℝ

/-- `np.linalg.norm(a - b)`. -/
noncomputable def ptDist (a b : Pt) : ℝ := Real.sqrt (∑ i, (a i - b i) ^ 2)

/-- `np.mean(sensorCoords[:, sensorToNodeIndices == k], axis=1)` (siggen/utils.py 1515-1518); the
coordinates of sensor `m` are the `m`-th entry. Extra coordinates or a missing coordinate (a boolean
mask of the wrong size, `IndexError` in the code) are not modelled. -/
noncomputable def nodeCentre (s2n : List Nat) (coords : List Pt) (k : Nat) : Option Pt :=
  let sel := (npWhereEq s2n k).map fun j => coords.getD j 0
  if sel = [] then none else some fun i => (sel.map (· i)).sum / sel.length

/-- A 2-D array. -/
structure NpMat where
  rows : Nat
  cols : Nat
  at' : Nat → Nat → ℝ

/-- The fields of `TopologyParameters` that `get_topo` reads, without plotting. -/
structure TopoCfg where
  topologyType : String
  commDistance : ℝ
  userDefinedTopo : NpMat

/-- `np.allclose(M, M.T)` on a square matrix. -/
def npAllcloseT (M : NpMat) : Prop :=
  ∀ i < M.rows, ∀ j < M.cols, |M.at' i j - M.at' j i| ≤ 1e-8 + 1e-5 * |M.at' j i|

open Classical in
/-- The connectivity matrix of `get_topo` (siggen/utils.py 1509-1560); `rnd` are the values drawn by
`np.random.randint(0, 2)`. Booleans are 0 and 1. -/
noncomputable def topoMatrix (c : TopoCfg) (s2n : List Nat) (coords : Option (List Pt))
    (rnd : Nat → Nat → Nat) (n : Nat) : Except PyErr (Nat → Nat → ℝ) :=
  if c.topologyType = "fully-connected" then .ok fun _ _ => 1
  else if c.topologyType = "ad-hoc" then
    match coords with
    | none =>
      -- np.triu(topo) + np.triu(topo, 1).T, then astype(bool)
      .ok fun i j =>
        if (if i ≤ j then rnd i j else 0) + (if j < i then rnd j i else 0) ≠ 0 then 1 else 0
    | some cs =>
      .ok fun k j =>
        match nodeCentre s2n cs k, nodeCentre s2n cs j with
        | some a, some b => if ptDist b a < c.commDistance then 1 else 0
        | _, _ => 0   -- comparison with NaN
  else if c.topologyType = "user-defined" then
    let M := c.userDefinedTopo
    if (M.rows, M.cols) ≠ (n, n) then .error .valueError
    else if ¬ ∀ i < M.rows, ∀ j < M.cols, M.at' i j = 0 ∨ M.at' i j = 1 then .error .valueError
    else if ¬ npAllcloseT M then .error .valueError
    else .ok M.at'
  else .error .valueError

open Classical in
/-- `get_topo` (siggen/utils.py 1474-1576). `np.amax` of an empty array raises `ValueError`. -/
noncomputable def getTopo (c : TopoCfg) (s2n : List Nat) (coords : Option (List Pt))
    (rnd : Nat → Nat → Nat) : Except PyErr ((Nat → Nat → ℝ) × List (List Nat)) := do
  let mx ← (match s2n with
    | [] => .error .valueError
    | x :: r => .ok (r.foldl max x) : Except PyErr Nat)
  let topo ← topoMatrix c s2n coords rnd (mx + 1)
  return (topo, (List.range (mx + 1)).map fun k =>
    (List.range (mx + 1)).filter fun q => decide (0 < topo q k) && q != k)

end Danse
