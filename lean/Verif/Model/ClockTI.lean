import Verif.Model.Clock
import Verif.Model.Instants
import Verif.Model.TIRun

/-!
# Model of `initialize_events` for TI-DANSE

`prep_evmat_build`, branch `'topo-indep' in p.nodeUpdating` (`danse_toolbox/d_base.py` 683-803), and
`initialize_events` (513-571).

Simplified: `prune_wasn_to_tree(wasnObj, forcedRoot=k)` is a parameter, a function of the root that gives
the leaf-to-root ordering and the tree.
-/

namespace Danse

/-- Update and exchange instants of all nodes (d_base.py 676-681, 704-778): with whole-chunk broadcasts
the updates start at twice the frame length. The fusion, broadcast and relay instants are the same. -/
def tiInstants (bc : BcType) (N Ns : Nat) (nodes : List ClockNode) (fsInf ttot : List ℚ) :
    Except PyErr (List (List ℚ) × List (List ℚ)) := do
  let total := fun (k sep : Nat) => ⌊ttot.getD k 0 * fsInf.getD k 0 / sep⌋
  match bc with
  | .whole => do
    let up ← nodes.zipIdx.mapM fun (n, k) =>
      generateAligned (⌈((2 * N : Nat) : ℚ) / Ns⌉ : ℚ) (total k Ns) Ns n.fs n.stamps
    let b ← nodes.zipIdx.mapM fun (n, k) =>
      generateAligned ((N : ℚ) / Ns) (total k Ns) Ns n.fs n.stamps
    .ok (up, b)
  | .few L eff => do
    let up ← nodes.zipIdx.mapM fun (n, k) =>
      generateAligned (⌈(N : ℚ) / Ns⌉ : ℚ) (total k Ns) Ns n.fs n.stamps
    let b ← if eff then nodes.mapM fun n => efficientBc n.stamps L up n.nb
      else nodes.zipIdx.mapM fun (n, k) => generateAligned 1 (total k L) L n.fs n.stamps
    .ok (up, b)

/-- Tree formation instants per node and the orderings (d_base.py 780-803): one tree at time 0, or a new
one at every update of the sequence. -/
def tiTrees (ups : List (List ℚ)) (seq keep : Bool) (start : Nat) (ordOf : Nat → List Level) :
    Except PyErr (List (List ℚ) × List (List Level)) :=
  if seq ∧ keep = false then prepTree ups 0 start ordOf
  else .ok ((List.range ups.length).map fun k => if k = start then [0] else [],
    [ordOf (start % ups.length)])

/-- `initialize_events` (d_base.py 513-571) for TI-DANSE: the schedule, the inferred sampling frequencies
and `wasnObjList`. -/
def initEventsTI {β : Type} (bc : BcType) (N Ns : Nat) (seq keep sim : Bool) (refSensor start : Nat)
    (minFrames : Int) (nodes : List ClockNode) (ordOf : Nat → List Level) (treeOf : Nat → β) :
    Except PyErr (List (Instant ℚ) × List ℚ × List β) := do
  let fsInf ← baseChecks (nodes.map (·.stamps)) sim refSensor
  let ttot ← nodes.mapM fun n => pyGet n.stamps (-1)
  let ub ← tiInstants bc N Ns nodes fsInf ttot
  let tr ← tiTrees ub.1 seq keep start ordOf
  let out ← buildEvents
    { up_t := ub.1, bc_t := ub.2, seq := seq, fuse_t := ub.2, re_t := ub.2, tr_t := tr.1,
      orderings := tr.2, firstUpdatingNode := start, minFrames := minFrames }
  .ok (out, fsInf, (List.range tr.2.length).map fun j => treeOf ((start + j) % nodes.length))

end Danse
