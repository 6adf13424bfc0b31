import Mathlib.Data.Nat.Log
import Mathlib.Data.Rat.Floor
import Mathlib.Algebra.Order.Field.Rat
import Verif.Model.Dxcp
import Verif.Model.GivenRun
import Verif.Model.Instants

/-!
# Model of the sampling clocks and of the schedule of a fully connected run

Models `check_clock_jitter`, `base_event_checks` and `initialize_events`
(`danse_toolbox/d_base.py` 454-571) for the node-updating strategies without
`'topo-indep'` (`prep_evmat_build`, d_base.py 672-681, 805-872).

Times and frequencies are exact rationals. `timeInstants` is given as one list of time stamps per
node; it is taken to have at least as many samples as nodes (`ensure_shortfat_orientation` would
transpose it otherwise).
-/

namespace Danse

/-! ## Sampling frequencies inferred from time stamps -/

/-- `np.diff`. -/
def npDiff (l : List ℚ) : List ℚ := (l.zip l.tail).map fun (a, b) => b - a

/-- `np.round(x, p)`: to `p` decimals, half to even. -/
def npRoundDec (x : ℚ) (p : Nat) : ℚ := roundHE (x * 10 ^ p) / 10 ^ p

/-- `int(np.ceil(np.abs(np.log10(mean / 1e4))))` (d_base.py 474). Not a number of decimals when
the mean is not positive (`int` of an infinity or of NaN raises). -/
def clockPrecision (mean : ℚ) : Except PyErr Nat :=
  let x := mean / 10000
  if x ≤ 0 then .error .valueError
  else if x ≤ 1 then .ok (Nat.clog 10 ⌈x⁻¹⌉₊) else .ok (Nat.clog 10 ⌈x⌉₊)

/-- The loop body of `check_clock_jitter` (d_base.py 470-480) for one node. The mean of no
differences is NaN. -/
def inferFs (stamps : List ℚ) : Except PyErr ℚ :=
  let deltas := npDiff stamps
  if deltas = [] then .error .valueError
  else do
    let p ← clockPrecision (deltas.sum / deltas.length)
    match npUnique (deltas.map (npRoundDec · p)) with
    | [d] => .ok (npRoundDec (1 / d) 3)
    | _ => .error .valueError

/-- `base_event_checks` (d_base.py 496-510): `sim` is `'sim' in nodeUpdating`. -/
def baseChecks (stamps : List (List ℚ)) (sim : Bool) (refSensor : Nat) : Except PyErr (List ℚ) := do
  let fs ← stamps.mapM inferFs
  if sim then do
    let f ← pyGet fs refSensor
    if fs.any (fun x => decide (x ≠ f)) then .error .valueError else .ok fs
  else .ok fs

/-! ## The schedule -/

/-- One node of the network, as the scheduling reads it: `wasn[k].fs`, `wasn[k].timeStamps`,
`wasn[k].neighborsIdx`. -/
structure ClockNode where
  fs : ℚ
  stamps : List ℚ
  nb : List Nat

/-- Update and broadcast instants of all nodes (`prep_evmat_build`, d_base.py 672-681, 805-872):
`fsInf` are the inferred sampling frequencies, `ttot` the last time stamps. -/
def fcInstants (bc : BcType) (N Ns : Nat) (nodes : List ClockNode) (fsInf ttot : List ℚ) :
    Except PyErr (List (List ℚ) × List (List ℚ)) := do
  let total := fun (k sep : Nat) => ⌊ttot.getD k 0 * fsInf.getD k 0 / sep⌋
  let up ← nodes.zipIdx.mapM fun (n, k) =>
    generateAligned (⌈(N : ℚ) / Ns⌉ : ℚ) (total k Ns) Ns n.fs n.stamps
  match bc with
  | .whole => do
    let b ← nodes.zipIdx.mapM fun (n, k) =>
      generateAligned ((N : ℚ) / Ns) (total k Ns) Ns n.fs n.stamps
    .ok (up, b)
  | .few L true => do
    let b ← nodes.mapM fun n => efficientBc n.stamps L up n.nb
    .ok (up, b)
  | .few L false => do
    let b ← nodes.zipIdx.mapM fun (n, k) => generateAligned 1 (total k L) L n.fs n.stamps
    .ok (up, b)

/-- `initialize_events` (d_base.py 513-571) for a fully connected network; also returns the inferred
sampling frequencies, with which the run is then made (d_core.py 55, 80-86). -/
def initEventsFC (bc : BcType) (N Ns : Nat) (seq sim : Bool) (refSensor : Nat) (first minFrames : Int)
    (nodes : List ClockNode) : Except PyErr (List (Instant ℚ) × List ℚ) := do
  let fsInf ← baseChecks (nodes.map (·.stamps)) sim refSensor
  let ttot ← nodes.mapM fun n => pyGet n.stamps (-1)
  let ub ← fcInstants bc N Ns nodes fsInf ttot
  let out ← buildEvents
    { up_t := ub.1, bc_t := ub.2, seq := seq, fuse_t := nodes.map fun _ => [],
      re_t := nodes.map fun _ => [], tr_t := nodes.map fun _ => [],
      firstUpdatingNode := first, minFrames := minFrames }
  .ok (out, fsInf)

end Danse
