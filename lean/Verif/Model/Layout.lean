import Verif.Model.Topo
import Mathlib.Analysis.SpecialFunctions.Trigonometric.Basic
import Mathlib.LinearAlgebra.Matrix.Notation

/-!
# Positions of sensors and sources in the room (`siggen/utils.py`)

Coordinates are exact reals. Random draws are parameters. A rotation drawn at random
(`scipy.spatial.transform.Rotation`) is a matrix, of which the specification says that it is orthogonal.
-/

namespace Danse
open Matrix

/-- `np.linspace(a, b, num)`. -/
def linspace {K : Type} [Field K] (a b : K) (num : Nat) : List K :=
  if num = 1 then [a] else (List.range num).map fun (i : Nat) => a + i * ((b - a) / (num - 1))

/-- `np.mean(pts, axis=0)` for a non-empty array. -/
noncomputable def meanPt (pts : List Pt) : Pt := fun i => (pts.map (· i)).sum / pts.length

/-- `arrayGeom == 'linear'` in `generate_array_pos` (siggen/utils.py 990-1006); `R` is the rotation. -/
noncomputable def linearArray (R : Matrix (Fin 3) (Fin 3) ℝ) (node : Pt) (Mk : Nat) (micSep : ℝ) : List Pt :=
  let x := linspace 0 (Mk * micSep) Mk
  let m := x.sum / x.length
  x.map fun v => R *ᵥ ![v - m, 0, 0] + node

open Classical in
/-- The `while not flag` loop (siggen/utils.py 1011-1016): first draw `r` within the radius, and the draws
that are left; `none` if the loop goes on after the given draws. -/
noncomputable def radiusDraw (radius : ℝ) : List Pt → Option (Pt × List Pt)
  | [] => none
  | r :: draws =>
    if Real.sqrt (r 0 ^ 2 + r 1 ^ 2 + r 2 ^ 2) ≤ radius then some (r, draws) else radiusDraw radius draws

/-- `arrayGeom == 'radius'` (siggen/utils.py 1007-1016), with the draws of `np.random.uniform`. -/
noncomputable def radiusArray (node : Pt) (radius : ℝ) : Nat → List Pt → Option (List Pt)
  | 0, _ => some []
  | Mk + 1, draws => do
    let (r, draws) ← radiusDraw radius draws
    let rest ← radiusArray node radius Mk draws
    return (fun i => r i + node i - radius / 2) :: rest

/-- `coordFlat` (siggen/utils.py 1020-1037): `np.meshgrid` with its default indexing has the first axis
along `y` and the second one along `x`. -/
noncomputable def gridFlat (node : Pt) (d : ℝ) : List Pt :=
  (List.range 3).flatMap fun ii => (List.range 3).flatMap fun jj => (List.range 3).map fun kk =>
    ![(linspace (node 0 - d) (node 0 + d) 3).getD jj 0, (linspace (node 1 - d) (node 1 + d) 3).getD ii 0,
      (linspace (node 2 - d) (node 2 + d) 3).getD kk 0]

/-- `idx` (siggen/utils.py 1039). -/
def atomicIdx : List Nat := [13, 4, 22, 10, 16, 14, 12]

/-- `idxValid` (siggen/utils.py 1043-1044). -/
def restIdx : List Nat := (List.range 27).filter fun i => i ∉ atomicIdx

/-- `arrayGeom == 'grid3d'` (siggen/utils.py 1017-1047). -/
noncomputable def gridArray (node : Pt) (Mk : Nat) (micSep : ℝ) : Except PyErr (List Pt) := do
  let flat := gridFlat node micSep
  let first ← (atomicIdx.take (min 7 Mk)).mapM fun (i : Nat) => pyGet flat i
  let rest ← (List.range (Mk - 7)).mapM fun (ii : Nat) => do
    let i ← pyGet restIdx ii
    pyGet flat i
  .ok (first ++ rest)

/-- `applyRandomRot` in `generate_array_pos` (siggen/utils.py 1052-1065): rotation around the centre. -/
noncomputable def rotateAround (R : Matrix (Fin 3) (Fin 3) ℝ) (pts : List Pt) : List Pt :=
  pts.map fun p => R *ᵥ (p - meanPt pts) + meanPt pts

/-- The random draws of one call of `generate_array_pos`. -/
structure ArrayDraws where
  /-- rotation of a linear array -/
  lin : Matrix (Fin 3) (Fin 3) ℝ
  /-- draws for the geometry 'radius' -/
  rad : List Pt
  /-- rotation with `applyRandomRot` -/
  fin : Matrix (Fin 3) (Fin 3) ℝ

/-- The choice of the geometry (siggen/utils.py 990-1050). -/
noncomputable def arrayPos (dr : ArrayDraws) (node : Pt) (Mk : Nat) (geom : String) (micSep : ℝ) :
    Except PyErr (Option (List Pt)) :=
  if geom = "linear" then .ok (some (linearArray dr.lin node Mk micSep))
  else if geom = "radius" then .ok (radiusArray node micSep Mk dr.rad)
  else if geom = "grid3d" then (gridArray node Mk micSep).map some
  else .error .valueError

/-- `generate_array_pos` (siggen/utils.py 962-1067), without `force2D`, which no caller sets; `none` if the
loop of the geometry 'radius' goes on after the given draws. -/
noncomputable def generateArrayPos (dr : ArrayDraws) (node : Pt) (Mk : Nat) (geom : String) (micSep : ℝ)
    (randRot : Bool) : Except PyErr (Option (List Pt)) :=
  (arrayPos dr node Mk geom micSep).map fun o => if randRot then o.map (rotateAround dr.fin) else o

/-- `np.cross`. -/
def cross3 (a b : Pt) : Pt := ![a 1 * b 2 - a 2 * b 1, a 2 * b 0 - a 0 * b 2, a 0 * b 1 - a 1 * b 0]

/-- `np.linalg.norm`. -/
noncomputable def norm3 (a : Pt) : ℝ := Real.sqrt (∑ i, a i ^ 2)

/-- `rotMat` in `rotate_array_yx` (siggen/utils.py 1709-1722) for a vector that is not zero. -/
noncomputable def yxMatrix (target : Pt) : Matrix (Fin 3) (Fin 3) ℝ :=
  let a : Pt := ![0, 0, 1]
  let b : Pt := fun i => target i / norm3 target
  let v := cross3 a b
  let s := norm3 v
  let c := ∑ i, a i * b i
  let vx : Matrix (Fin 3) (Fin 3) ℝ := !![0, -v 2, v 1; v 2, 0, -v 0; -v 1, v 0, 0]
  1 + vx + ((1 - c) / s ^ 2) • (vx * vx)

open Classical in
/-- `rotate_array_yx` (siggen/utils.py 1685-1730). A division of zero by zero (target on the vertical axis)
fills the result with NaN. -/
noncomputable def rotateArrayYx (pts : List Pt) (target : Option Pt) : Except PyErr (List Pt) :=
  let t := target.getD (meanPt pts)
  if t 0 = 0 ∧ t 1 = 0 then .error .nan
  else .ok (pts.map fun p => yxMatrix t *ᵥ (p - t) + t)

/-- `get_rand_point` in `random_points_on_line` (siggen/utils.py 1772-1782), for the draw `r`. -/
noncomputable def linePoint (az el xOffset yOffset r : ℝ) : Pt :=
  ![r * Real.cos az * Real.sin el + xOffset, r * Real.sin az * Real.sin el + yOffset, r * Real.cos el]

/-- `cond1 or cond2 or cond3` (siggen/utils.py 1797-1799). -/
def nearWall (rd : Pt) (minDist : ℝ) (p : Pt) : Prop := ∃ i, p i > rd i - minDist ∨ p i < minDist

open Classical in
/-- A loop that draws points until one is as asked (siggen/utils.py 1794-1802, 1804-1813): `P j` is the point
of draw `j`, `left` the number of iterations after which `None` is returned. Result: the point, the number
of the next draw and the iterations left. -/
noncomputable def drawUntil (P : Nat → Pt) (stop : Pt → Prop) : Nat → Nat → Option (Pt × Nat × Nat)
  | 0, _ => none
  | left + 1, pos => if stop (P pos) then some (P pos, pos + 1, left) else drawUntil P stop left (pos + 1)

open Classical in
/-- The body of the `for` loop (siggen/utils.py 1787-1815): the next point, given those before; `none` if
`None` is returned. `minSpacing = none` is Python's `None`, which cannot be compared with 0. -/
noncomputable def nextPoint (P : Nat → Pt) (rd : Pt) (minDist : ℝ) (minSpacing : Option ℝ) (maxIter : Nat)
    (before : List Pt) (pos : Nat) : Except PyErr (Option (Pt × Nat)) :=
  match drawUntil P (fun p => ¬ nearWall rd minDist p) maxIter pos with
  | none => .ok none
  | some (p, pos, left) =>
    if before = [] then .ok (some (p, pos)) else
    match minSpacing with
    | none => .error .typeError
    | some sp =>
      let close := fun p => ∃ b ∈ before, ptDist b p < sp
      if sp > 0 ∧ close p then
        match drawUntil P (fun p => ¬ close p) left pos with
        | none => .ok none
        | some (p, pos, _) => .ok (some (p, pos))
      else .ok (some (p, pos))

/-- The `for` loop. -/
noncomputable def linePoints (P : Nat → Pt) (rd : Pt) (minDist : ℝ) (minSpacing : Option ℝ) (maxIter : Nat) :
    (n : Nat) → List Pt → Nat → Except PyErr (Option (List Pt))
  | 0, before, _ => .ok (some before)
  | n + 1, before, pos => do
    match ← nextPoint P rd minDist minSpacing maxIter before pos with
    | none => .ok none
    | some (p, pos) => linePoints P rd minDist minSpacing maxIter n (before ++ [p]) pos

/-- `random_points_on_line` (siggen/utils.py 1732-1817); `draws j` is the value of `np.random.uniform` at its
call number `j`. -/
noncomputable def randomPointsOnLine (draws : Nat → ℝ) (az el minDist : ℝ) (rd : Pt) (xOffset yOffset : ℝ) (n : Nat)
    (minSpacing : Option ℝ) : Except PyErr (Option (List Pt)) :=
  linePoints (fun j => linePoint az el xOffset yOffset (draws j)) rd minDist minSpacing 1000 n [] 0

open Classical in
/-- `np.any(coords > p.rd - p.minDistToWalls)` for coordinates of shape `[3 x n]` (siggen/utils.py 573, 575):
NumPy lines up the last axis of `coords` with the three room dimensions. -/
noncomputable def anyBeyond (rd : Pt) (minDist : ℝ) (pts : List Pt) : Except PyErr Bool :=
  if pts.length = 1 then .ok (decide (∃ p ∈ pts, ∃ i j, p i > rd j - minDist))
  else if pts.length = 3 then .ok (decide (∃ i : Fin 3, ∃ j : Fin 3, pts.getD j 0 i > rd j - minDist))
  else .error .valueError

open Classical in
/-- `np.any(coords < p.minDistToWalls)`. -/
noncomputable def anyBelow (minDist : ℝ) (pts : List Pt) : Bool := decide (∃ p ∈ pts, ∃ i, p i < minDist)

open Classical in
/-- The check of a spinning-top layout (siggen/utils.py 570-580): `True` when the layout is rejected.
The operands of `or` are evaluated one after the other. -/
noncomputable def layoutRejected (rd : Pt) (minDist : ℝ) (sensors desired noise : List Pt) : Except PyErr Bool := do
  if decide (∃ p ∈ sensors, ∃ i, p i > rd i - minDist) || anyBelow minDist sensors then .ok true
  else if ← anyBeyond rd minDist desired then .ok true
  else if anyBelow minDist desired then .ok true
  else if ← anyBeyond rd minDist noise then .ok true
  else .ok (anyBelow minDist noise)

/-- The parameters of a spinning-top layout. -/
structure SpinCfg where
  /-- 'random' (or else 'vert') in `layoutType` -/
  random : Bool
  rd : Pt
  minDist : ℝ
  minSpacing : Option ℝ
  minInterNode : Option ℝ
  nDesired : Nat
  nNoise : Nat
  nSensors : List Nat
  geom : String
  micSep : ℝ
  wiggle : ℝ

/-- The draws of one attempt. -/
structure SpinDraws where
  xOffset : ℝ
  yOffset : ℝ
  az : ℝ
  el : ℝ
  rDesired : Nat → ℝ
  rNoise : Nat → ℝ
  rCentre : Nat → ℝ
  /-- the fraction of the way from the least to the greatest radius -/
  u : ℝ
  /-- displacement of each array centre -/
  wig : Nat → Pt
  arr : Nat → ArrayDraws

/-- `circRmin` (siggen/utils.py 437-441). -/
noncomputable def SpinCfg.rMin (c : SpinCfg) : ℝ :=
  match c.minInterNode with
  | some d => d
  | none => 2 * c.micSep * (c.nSensors.foldl max 0 : Nat)

/-- `maxR` (siggen/utils.py 428-435). -/
noncomputable def SpinCfg.maxR (c : SpinCfg) : ℝ := if c.random then norm3 c.rd else c.rd 0

/-- Centre of the array of node `k` (siggen/utils.py 531-537). -/
noncomputable def circlePoint (centre : Pt) (r : ℝ) (nNodes k : Nat) : Pt :=
  ![centre 0 + r * Real.cos (k * (2 * Real.pi / nNodes)), centre 1 + r * Real.sin (k * (2 * Real.pi / nNodes)),
    centre 2]

open Classical in
/-- One attempt of the `while` loop (siggen/utils.py 445-583). The arguments of `random_points_on_line` are
passed by position: the offsets end up as `minDistToWalls` and `maxR` (the latter is only used for the
draws). `np.squeeze(None)` is an array, which is not `None`: squaring it fails with `TypeError`, writing its
entry 2 with `IndexError`. A loop of the geometry 'radius' that goes on after the given draws is not an
exception in the code: here it ends the attempt with `notImplementedError`, which the code never raises. -/
noncomputable def SpinCfg.attempt (c : SpinCfg) (dr : SpinDraws) :
    Except PyErr (Option (List Pt × List Pt × List Pt)) := do
  match ← randomPointsOnLine dr.rDesired dr.az dr.el dr.xOffset c.rd 0 0 c.nDesired c.minSpacing with
  | none => .ok none
  | some desired =>
    match ← randomPointsOnLine dr.rNoise dr.az dr.el dr.xOffset c.rd 0 0 c.nNoise c.minSpacing with
    | none => .ok none
    | some noise =>
      match ← randomPointsOnLine dr.rCentre dr.az dr.el dr.xOffset c.rd 0 0 1 (some 0) with
      | none => .error (if c.random then .typeError else .indexError)
      | some centres =>
        let p := centres.getD 0 0
        let centre : Pt := if c.random then p else ![p 0, p 1, 0]
        let ref := norm3 centre
        let rMax := if ref < c.maxR / 2 then (ref - c.minDist) / 3 else (c.maxR - ref - c.minDist) / 3
        let r := if rMax < c.rMin then c.rMin else c.rMin + dr.u * (rMax - c.rMin)
        let arrays ← c.nSensors.zipIdx.mapM fun (Mk, k) => do
          let q : Pt := circlePoint centre r c.nSensors.length k
          let q := if c.wiggle ≠ 0 then q + dr.wig k else q
          match ← generateArrayPos (dr.arr k) q Mk c.geom c.micSep true with
          | none => .error .notImplementedError
          | some pts => .ok pts
        let sensors ← if c.random then rotateArrayYx arrays.flatten (some centre) else .ok arrays.flatten
        if ← layoutRejected c.rd c.minDist sensors desired noise then .ok none
        else .ok (some (sensors, desired, noise))

/-- The `while` loop (siggen/utils.py 443-583): at most 1000 attempts, `n` of which are left. -/
noncomputable def SpinCfg.search (c : SpinCfg) (dr : Nat → SpinDraws) :
    (n : Nat) → (attempt : Nat) → Except PyErr (List Pt × List Pt × List Pt)
  | 0, _ => .error .valueError
  | n + 1, i => do
    match ← c.attempt (dr i) with
    | none => c.search dr n (i + 1)
    | some l => .ok l

/-- A spinning-top layout (siggen/utils.py 422-585): sensors, desired sources and noise sources. -/
noncomputable def SpinCfg.layout (c : SpinCfg) (dr : Nat → SpinDraws) : Except PyErr (List Pt × List Pt × List Pt) :=
  c.search dr 1000 0

/-- A point of a random layout (siggen/utils.py 373-379, 388-389) from three draws in [0, 1). -/
def uniformPoint (rd : Pt) (minDist : ℝ) (u : Pt) : Pt := fun i => u i * (rd i - 2 * minDist) + minDist

/-- The sensors of the layouts 'random' and 'all_nodes_in_center' (siggen/utils.py 381-398); `u k` are the
draws for the centre of node `k`. -/
noncomputable def randomSensors (inCentre : Bool) (rd : Pt) (minDist : ℝ) (nSensors : List Nat) (geom : String) (micSep : ℝ)
    (u : Nat → Pt) (dr : Nat → ArrayDraws) : Except PyErr (Option (List (List Pt))) := do
  let l ← nSensors.zipIdx.mapM fun (Mk, k) =>
    let r : Pt := if inCentre then fun i => rd i / 2 else uniformPoint rd minDist (u k)
    generateArrayPos (dr k) r Mk geom micSep false
  .ok (l.mapM id)

/-- `rirsDesiredSources` and `rirsNoiseSources` (siggen/utils.py 602-614); `rir` has one row per sensor and
one entry per source, desired sources first. -/
def rirsPerNode {α : Type} (rir : List (List α)) (s2n : List Nat) (nNodes nDesired nNoise : Nat) :
    Except PyErr (List (List (List α)) × List (List (List α))) := do
  let owners ← rir.zipIdx.mapM fun (row, ii) => do
    let o ← pyGet s2n ii
    .ok (o, row)
  let rows := (List.range nNodes).map fun k => (owners.filter fun x => decide (x.1 = k)).map (·.2)
  .ok (rows.map fun l => l.map fun row => row.take nDesired,
    rows.map fun l => l.map fun row => pySlice row (-(nNoise : Int)) row.length)

end Danse
