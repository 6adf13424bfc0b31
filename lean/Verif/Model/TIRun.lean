import Verif.Model.GivenRun
import Verif.Model.TI

/-!
# Model of an online TI-DANSE run

The main loop of `tidanse` (`danse_toolbox/d_core.py` 190-230), `ti_fusion` (d_classes.py 2785-2853),
`ti_compute_partial_sum`, `ti_relay_innetwork_sum_upstream` (2875-2918, in `Verif/Model/TI.lean`),
`update_up_downstream_neighbors` (2764-2783) and `ti_update_and_estimate` (2920-2993).

The parameters are those of `GivenCfg` (its neighbour lists, filters and phase factors are not read). As
in `AdaptRun`, how a node computes its filters at an update is left open: `spatial_covariance_matrix_update`,
`check_covariance_matrices`, `perform_update`, `normalize_filter_coeff` and `update_external_filters` read
and write the entries of node `k` only, so that their outcome is a function of what the node observed at
its updates so far. (`normalize_filter_coeff` also writes `normFactGk`, which only node 0 reads.)

Not modelled: the centralised and single-sensor estimates; `compensationStrategy == 'network-wide'`;
`etaMkFullTD` (see `Fused`); plotting.
-/

namespace Danse
section
variable {n : Nat} {K : Type} [Field K] [StarRing K] [DecidableEq K]

/-- What the run reads from one entry of `wasnObjList` (d_classes.py 2776-2781): `rootIdx` and
`upstreamNeighborsIdx`. -/
structure TreeObj (n : Nat) where
  root : Fin n
  up : Fin n → List (Fin n)

/-- What a node observes at one update (d_classes.py 2920-2953): the time, whether the update is bypassed,
its own frames and the in-network sum of the others. -/
structure TIObs (K : Type) where
  t : ℚ
  bypass : Bool
  loc : List (List K)
  eta : List K

/-- How node `k` computes, from its observations up to and including the current one, the filter rows
that this update writes, and `startUpdates[k]` (d_classes.py 2955-2984). -/
structure TIStrategy (n : Nat) (K : Type) where
  rows : Fin n → List (TIObs K) → Rows K
  started : Fin n → List (TIObs K) → Bool

/-- The variables of one node: row `i` of `wTildeExt[k]` (one list of bins per channel, the last channel
is the one of the in-network sum), `startUpdates[k]`, the time-domain broadcast filter with the instant
of its last update, the last broadcast instant, the observations so far, the desired signal
estimates. -/
structure TINode (K : Type) where
  ext : List (List K)
  started : Bool
  wIR : List (List K)
  lastUp : ℚ
  lastBc : ℚ
  hist : List (TIObs K)
  d : List K
  dLoc : List K

/-- State of the run: the arrays of the in-network sum, the variables of the nodes, the tree in force
(`upstreamNeighbors`, `currentWasnTreeObj.rootIdx`) and `treeFormationCounter`. -/
structure TISt (n : Nat) (K : Type) where
  net : TIState (Fin n) K
  node : Fin n → TINode K
  up : Fin n → List (Fin n)
  root : Option (Fin n)
  formed : Nat

/-- The fusion vector (d_classes.py 3166-3177): the filter of the local channels, divided by the one of
the in-network sum once the updates have started. A division by zero is not an exception in NumPy; the
fused signal is not a number from then on. -/
def tiFilter (M : Nat) (ext : List (List K)) (started : Bool) : Except PyErr (List (List K)) :=
  if started then
    let gk := ext.getLastD []
    if gk.any (fun x => decide (x = 0)) then .error .nan
    else .ok ((ext.take M).map fun w => List.zipWith (· / ·) w gk)
  else .ok (ext.take M)

/-- The time-domain filter of `ti_fusion` with few samples (d_classes.py 2829-2853, 3234-3242). -/
def tiBcFilter (g : GivenCfg K) (M : Nat) (nd : TINode K) (t : ℚ) : Except PyErr (List (List K)) :=
  if |t - nd.lastUp| ≥ g.upTDEvery ∧ ¬ (g.noFusion ∧ M = 1) then
    distFct g.ζ g.N nd.ext g.h g.f (g.Ns : K)
  else .ok nd.wIR

/-- Number of samples fused at once with few samples (d_classes.py 2841-2845). -/
def tiCurrL (g : GivenCfg K) (k : Nat) (nd : TINode K) (L : Nat) (eff : Bool) (t : ℚ) :
    Except PyErr Nat :=
  if eff then bufferSizeEff (g.stamps k) nd.lastBc t L else .ok L

/-- `ti_fusion` (d_classes.py 2785-2853) for the node `k`: `yk` are its signals, `buf` is
`zLocalPrimeBuffer[k]`; returns the new variables and the new buffer. When the frame is too short (it ends
past the end of the signals) nothing is done. -/
def tiFuse (g : GivenCfg K) (yk : List (List K)) (t : ℚ) (k : Nat) (nd : TINode K) (buf : List K) :
    Except PyErr (TINode K × List K) := do
  let fr ← yk.mapM fun ch => chunkForBroadcast ch t (g.fs k) g.N
  if fr.any (fun x => x.1.length < g.N) then .ok (nd, buf)
  else match g.bc with
  | .whole => do
    let p ← tiFilter yk.length nd.ext nd.started
    let z ← wholeChunk g.ζ g.N g.Ns g.c g.h g.f (fr.map (·.1)) p buf
    .ok (nd, z)
  | .few L eff => do
    let l ← tiCurrL g k nd L eff t
    let wIR ← tiBcFilter g yk.length nd t
    let z ← fewSamples l (2 * g.N - 1) wIR (fr.map (·.1))
    .ok ({ nd with
      wIR := wIR
      lastUp := if |t - nd.lastUp| ≥ g.upTDEvery then t else nd.lastUp
      lastBc := if eff then t else nd.lastBc }, z)

/-- `ti_update_and_estimate` (d_classes.py 2920-2993) with `ti_build_ytilde` (3068-3112) and
`get_desired_signal` (2623-2690) for the node `k`; `eta` is `etaMk[k]`. The observation matrix has `N` rows:
a local frame or sum of another length raises `ValueError`. -/
def tiUpdate (g : GivenCfg K) (rows : List (TIObs K) → Rows K) (started : List (TIObs K) → Bool)
    (yk : List (List K)) (t : ℚ) (k : Nat) (bypass : Bool) (nd : TINode K) (eta : List K) :
    Except PyErr (TINode K) := do
  let loc ← yk.mapM fun ch => chunkForUpdate ch t (g.fs k) g.bc.name g.N g.Ns
  if loc.any (fun x => x.1.length ≠ g.N) ∨ eta.length ≠ g.N then .error .valueError
  else do
    let yL := loc.map (·.1)
    let hist := nd.hist ++ [⟨t, bypass, yL, eta⟩]
    let w := rows hist
    let yHat := (yL ++ [eta]).map (analysis g.ζ g.N g.c g.h)
    let yHatL := yL.map (analysis g.ζ g.N g.c g.h)
    let r := g.updRange t k
    let d ← g.desired w.int yHat yL nd.d r.1 r.2
    let dL ← g.desired w.loc yHatL yL nd.dLoc r.1 r.2
    .ok { nd with ext := w.ext, started := started hist, hist := hist, d := d, dLoc := dL }

/-- One event (d_core.py 191-230). A node index or tree counter out of range raises `IndexError`; a
partial sum before the first tree formation raises `AttributeError` (`None.rootIdx`). -/
def tiStepEv (g : GivenCfg K) (U : TIStrategy n K) (y : Fin n → List (List K)) (trees : List (TreeObj n))
    (t : ℚ) (s : TISt n K) (e : OutEv) : Except PyErr (TISt n K) :=
  match e.ty with
  | .tr => match trees[s.formed]? with
    | none => .error .indexError
    | some T => .ok { s with up := T.up, root := some T.root, formed := s.formed + 1 }
  | .fu => if h : e.node < n then do
      let k : Fin n := ⟨e.node, h⟩
      let r ← tiFuse g (y k) t k (s.node k) (s.net.buf k)
      .ok { s with
        node := Function.update s.node k r.1
        net := { s.net with buf := Function.update s.net.buf k r.2 } }
    else .error .indexError
  | .bc => if h : e.node < n then match s.root with
      | none => .error .attributeError
      | some root => do
        let net ← tiPartialSum s.up root g.N g.Ns s.net ⟨e.node, h⟩
        .ok { s with net := net }
    else .error .indexError
  | .re => if h : e.node < n then do
      let net ← tiRelay s.up s.net ⟨e.node, h⟩
      .ok { s with net := net }
    else .error .indexError
  | .up => if h : e.node < n then do
      let k : Fin n := ⟨e.node, h⟩
      let nd ← tiUpdate g (U.rows k) (U.started k) (y k) t k e.bypass (s.node k) (s.net.etaMk k)
      .ok { s with node := Function.update s.node k nd }
    else .error .indexError

/-- The events of one instant, in order (d_core.py 199-230). -/
def tiStepInstant (g : GivenCfg K) (U : TIStrategy n K) (y : Fin n → List (List K))
    (trees : List (TreeObj n)) (s : TISt n K) (i : Instant ℚ) : Except PyErr (TISt n K) :=
  i.evs.foldlM (tiStepEv g U y trees i.t) s

/-- The main loop of `tidanse` (d_core.py 190-230). -/
def tiRun (g : GivenCfg K) (U : TIStrategy n K) (y : Fin n → List (List K)) (trees : List (TreeObj n))
    (s : TISt n K) (out : List (Instant ℚ)) : Except PyErr (TISt n K) :=
  out.foldlM (tiStepInstant g U y trees) s

/-- Variables of a node with `M` sensors before the first event (d_classes.py 659-692, 780-785, 796-801,
829-831, 848): `ext` is row 0 of `wTildeExt[k]`, `T` the number of samples of the output. -/
def TINode.init (N refSensor T M : Nat) (ext : List (List K)) : TINode K :=
  { ext := ext
    started := false
    wIR := (List.range M).map fun m =>
      if m = refSensor then (List.range (2 * N - 1)).map fun p => if p = N then 1 else 0
      else List.replicate (2 * N - 1) 0
    lastUp := 0
    lastBc := 0
    hist := []
    d := List.replicate T 0
    dLoc := List.replicate T 0 }

/-- Before the first event (d_classes.py 2732-2753, 781, 856); `up0` are the upstream neighbours of the
network that the run is given. -/
def TISt.init (N refSensor T : Nat) (y : Fin n → List (List K)) (ext : Fin n → List (List K))
    (up0 : Fin n → List (Fin n)) : TISt n K :=
  { net := ⟨fun _ => List.replicate N 0, fun _ => [], fun _ => [], fun _ => [], fun _ => []⟩
    node := fun k => .init N refSensor T (y k).length (ext k)
    up := up0
    root := none
    formed := 0 }

end
end Danse
