import Verif.Model.Topo
import Verif.Model.Tree
import Mathlib.Analysis.SpecialFunctions.Log.Base
import Mathlib.Combinatorics.SimpleGraph.Basic
import Mathlib.Data.List.FinRange

/-!
# Pruning a network to a tree and choosing its root

`prune_wasn_to_tree` (`danse_toolbox/d_base.py` 2103-2181), `update_wasn_object_from_nxgraph`
(2184-2219), `WASN.all_nodes_at_same_position` and `WASN.set_tree_root` (`siggen/classes.py` 448-487).

Coordinates, signals and weights are exact reals. `nx.minimum_spanning_tree` is library code: a
parameter, a function of the graph and the link weights. Plots are left out.
-/

namespace Danse

/-- The graph `nx.from_numpy_array(adjacencyMatrix)` (d_base.py 2133) without its self-loops, which no
spanning tree contains. -/
def linksOf {n : Nat} (A : Fin n → Fin n → ℝ) : SimpleGraph (Fin n) where
  Adj u v := u ≠ v ∧ (A u v ≠ 0 ∨ A v u ≠ 0)
  symm := ⟨fun _ _ h => ⟨h.1.symm, h.2.symm⟩⟩
  loopless := ⟨fun _ h => h.1 rfl⟩

open Classical in
/-- `WASN.all_nodes_at_same_position` (siggen/classes.py 448-454): `np.allclose` of the first node's
position (`None` is not a number: `TypeError`). -/
noncomputable def allAtSamePosition {n : Nat} (pos : Fin n → Option Pt) : Except PyErr Bool :=
  if ∃ k, pos k = none then .error .typeError
  else .ok (decide (∀ k0 k, k0.val = 0 → ∀ i, |(pos k0).getD 0 i - (pos k).getD 0 i| ≤
    1e-8 + 1e-5 * |(pos k).getD 0 i|))

open Classical in
/-- The weight of a link (d_base.py 2139-2152); `same` is the result of `all_nodes_at_same_position`. -/
noncomputable def linkWeight {n : Nat} (pos : Fin n → Option Pt) (same : Bool) (u v : Fin n) : ℝ :=
  if same then 1
  else if ∀ k0, k0.val = 0 → pos k0 ≠ none then ptDist ((pos u).getD 0) ((pos v).getD 0)
  else 1

/-- `nodeType`. -/
inductive NodeType where
  | default
  | leaf
  | root
  deriving DecidableEq, Repr

open Classical in
/-- `nx.adjacency_matrix(Gnx).toarray()` of a weighted graph (d_base.py 2210). -/
noncomputable def weightMatrix {n : Nat} (T : SimpleGraph (Fin n)) (w : Fin n → Fin n → ℝ) :
    Fin n → Fin n → ℝ :=
  fun u v => if T.Adj u v then w u v else 0

open Classical in
/-- `neighborsIdx` of node `k` (d_base.py 2213-2216): `allNodeIndices[adjMat[:, k] > 0]`. -/
noncomputable def nbrFromMatrix {n : Nat} (M : Fin n → Fin n → ℝ) (k : Fin n) : List (Fin n) :=
  (List.finRange n).filter fun q => decide (0 < M q k)

/-- The value of an SNR estimate: a number, infinite, or not a number. -/
inductive SnrVal where
  | fin (x : ℝ)
  | inf
  | nan

/-- The order in which `np.argmax` sees the values: a NaN is above everything. -/
noncomputable def SnrVal.key : SnrVal → WithTop (WithTop ℝ)
  | .fin x => ((x : WithTop ℝ) : WithTop (WithTop ℝ))
  | .inf => ((⊤ : WithTop ℝ) : WithTop (WithTop ℝ))
  | .nan => ⊤

/-- `np.mean` of a nonempty array. -/
noncomputable def meanOf (l : List ℝ) : ℝ := l.sum / l.length

/-- The samples at which the VAD equals 1 (`data[vad == 1]`, siggen/classes.py 466). -/
def activeOf (x : List ℝ) (vad : List Bool) : List ℝ :=
  (x.zip vad).filterMap fun (a, b) => if b then some a else none

open Classical in
/-- `_get_snr` (siggen/classes.py 463-467) for the reference sensor of one node and the first VAD
column; the recording has at least one sample. -/
noncomputable def snrEstimate (x : List ℝ) (vad : List Bool) : SnrVal :=
  let all := meanOf (x.map fun a => |a| ^ 2)
  let act := (activeOf x vad).map fun a => |a| ^ 2
  if act = [] then .nan
  else if meanOf act = 0 then (if all = 0 then .nan else .inf)
  else .fin (10 * Real.logb 10 (all / meanOf act))

open Classical in
/-- `np.argmax`: the first position of the largest value. -/
noncomputable def npArgmax {α : Type} [LinearOrder α] (y : List α) : Nat :=
  y.findIdx fun v => decide (∀ u ∈ y, u ≤ v)

/-- What `set_tree_root` reads of a network, besides the adjacency matrix. -/
structure RootCfg (n : Nat) where
  measure : String
  userRoot : Option (Fin n)
  data : Fin n → List ℝ
  vad : Fin n → List Bool

open Classical in
/-- `WASN.set_tree_root` (siggen/classes.py 456-487): the index of the new root, `none` when it returns
early. -/
noncomputable def setTreeRoot {n : Nat} (A : Fin n → Fin n → ℝ) (c : RootCfg n) :
    Except PyErr (Option Nat) :=
  if ∀ u v, A u v = 1 then .ok none
  else if c.measure = "snr" then
    .ok (some (npArgmax ((List.finRange n).map fun k => (snrEstimate (c.data k) (c.vad k)).key)))
  else if c.measure = "user-defined" then
    match c.userRoot with
    | some r => .ok (some r)
    | none => .error .valueError
  else .error .valueError

/-- The pruned network. -/
structure PrunedWasn (n : Nat) where
  adj : Fin n → Fin n → ℝ
  nbr : Fin n → List (Fin n)
  nodeType : Fin n → NodeType
  root : Fin n
  orient : Orient (Fin n)
  order : List (TreeLevel (Fin n))

/-- The part of `prune_wasn_to_tree` after the minimum spanning tree, for the root `r`
(d_base.py 2161-2173): neighbours, node types, root, orientation. The `while` loop of `orientate` ends
within `n * n + 2` turns (`C21_terminates`). The nodes of the given network have the type `'default'`. -/
noncomputable def finishPrune {n : Nat} (M : Fin n → Fin n → ℝ) (r : Fin n) :
    Option (PrunedWasn n) :=
  let nbr := nbrFromMatrix M
  (orientate nbr r (n * n + 2)).map fun o =>
    { adj := M, nbr := nbr
      nodeType := fun k => if k = r then .root else if (nbr k).length = 1 then .leaf else .default
      root := r, orient := o.1, order := o.2 }

/-- `prune_wasn_to_tree` (d_base.py 2103-2181). `none` would mean that it does not terminate. -/
noncomputable def pruneToTree {n : Nat}
    (mst : SimpleGraph (Fin n) → (Fin n → Fin n → ℝ) → SimpleGraph (Fin n))
    (A : Fin n → Fin n → ℝ) (pos : Fin n → Option Pt) (c : RootCfg n) (forcedRoot : Option (Fin n)) :
    Except PyErr (Option (PrunedWasn n)) := do
  let same ← allAtSamePosition pos
  let w := linkWeight pos same
  let M := weightMatrix (mst (linksOf A) w) w
  match forcedRoot with
  | some r => .ok (finishPrune M r)
  | none => do
    let r ← setTreeRoot M c
    match r with
    | none => .error .valueError   -- `orientate` finds no root (siggen/classes.py 549-550)
    | some i => if h : i < n then .ok (finishPrune M ⟨i, h⟩) else .error .indexError

end Danse
