import Mathlib.Algebra.BigOperators.Ring.List
import Mathlib.Data.Complex.Basic
import Mathlib.Analysis.Complex.Norm

/-!
# Network-wide filters

`compute_netwide_danse_filts` (danse_toolbox/d_post.py 2380-2448) as `plot_filter_evol` calls it
(d_post.py 357-425, 2116-2122). All filters of a run have the same number of bins `nf` and of iterations
`nt`, and node `q` has `M q` sensors (d_classes.py 660-700), so that no slice is out of range.
-/

namespace Danse

/-- Filter coefficients of a node: bin, iteration, channel. -/
abbrev FiltArr := Nat → Nat → Nat → ℝ

/-- `np.mean(..., axis=0)`: mean over the bins. -/
noncomputable def meanBins (nf : Nat) (g : Nat → ℝ) : ℝ := ((List.range nf).map g).sum / nf

/-- A column of `np.mean(filters[k][:, :, :nSensorsPerNode[k]], axis=0)` (d_post.py 2398-2401). -/
noncomputable def ownCol (nf nt : Nat) (w : FiltArr) (m : Nat) : List ℝ :=
  (List.range nt).map fun i => meanBins nf fun f => w f i m

/-- A column of the filters for the sensors of another node, with the row of zeros that is put on top
(d_post.py 2417-2442). `idx` is `idxGkq`; with `ti` the last coefficient of `e` is at `last`. -/
noncomputable def fusedCol (nf nt : Nat) (ti : Bool) (w e : FiltArr) (idx last m : Nat) : List ℝ :=
  0 :: (List.range (nt - 1)).map fun i => meanBins nf fun f =>
    (if ti then e f (i + 1) m / e f (i + 1) last else e f (i + 1) m) * w f i idx

/-- A label of a column (d_post.py 2402-2403, 2409-2410, 2425-2426): the sensor, and the kind. -/
inductive NwLabel
  | own (m : Nat)
  | other (q m : Nat)
  deriving DecidableEq

/-- Body of the loop over `q` (d_post.py 2396-2445); the state holds `neighborCount`, the columns and the
labels. -/
noncomputable def netwideStep (nf nt : Nat) (M : Nat → Nat) (ti : Bool) (w e : Nat → FiltArr) (k : Nat)
    (s : Nat × List (List ℝ) × List NwLabel) (q : Nat) : Nat × List (List ℝ) × List NwLabel :=
  if q = k then
    (s.1, s.2.1 ++ (List.range (M k)).map (ownCol nf nt (w k)),
      s.2.2 ++ (List.range (M k)).map NwLabel.own)
  else
    let idx := if ti then M k else M k + s.1
    (s.1 + 1, s.2.1 ++ (List.range (M q)).map (fusedCol nf nt ti (w k) (e q) idx (M q)),
      s.2.2 ++ (List.range (M q)).map (NwLabel.other q))

/-- `compute_netwide_danse_filts` (d_post.py 2380-2448) for node `k`: columns and labels. -/
noncomputable def netwideFilts (nf nt K : Nat) (M : Nat → Nat) (ti : Bool) (w e : Nat → FiltArr) (k : Nat) :
    List (List ℝ) × List NwLabel :=
  ((List.range K).foldl (netwideStep nf nt M ti w e k) (0, [], [])).2

/-- The three figures of filters (d_post.py 402-425). -/
inductive FiltPlot
  | norm
  | real
  | imag
  deriving DecidableEq

/-- The network-wide filters in a figure (d_post.py 402-425, 2116-2122): the magnitudes are taken for every
kind of figure. A division by a coefficient that is 0 (only with `ti`) is not modelled. -/
noncomputable def plottedNetwide (_plot : FiltPlot) (nf nt K : Nat) (M : Nat → Nat) (ti : Bool)
    (w e : Nat → Nat → Nat → Nat → ℂ) (k : Nat) : List (List ℝ) × List NwLabel :=
  netwideFilts nf nt K M ti (fun q f i m => ‖w q f i m‖) (fun q f i m => ‖e q f i m‖) k

end Danse
