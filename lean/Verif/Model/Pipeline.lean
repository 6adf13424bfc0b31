import Verif.Model.ClockTI
import Verif.Model.Danse
import Verif.Model.Evaluate
import Verif.Model.Prune
import Verif.Model.TIDanse
import Verif.Spec.TIDanse
import Verif.Spec.TIGiven
import Verif.Spec.TIRun

/-!
# Model of the driver: one run and its two re-runs

`danse_it_up` (`tests/sandbox.py` 105-160), `generate_signals_for_snr_computation`
(`danse_toolbox/d_core.py` 550-599) and `format_output` (105-127): DANSE runs on the recordings; it runs
again, with the filters of that run, on the noise and on the speech components; the estimates and the two
filtered components are put together for the evaluation (`driverOut` in `Evaluate`).

Simplified: the centralised and single-sensor estimates are not computed in these runs (their re-runs are in
`CentrRun`; the arrays stay at zero here, and `driverOut` leaves them out unless they were asked for); the
best-performance reference (`get_best_perf`, in `BatchSig`) is given, and raises no exception. The re-runs get
the same schedule as the run: `initialize_events` does not read the sensor signals (`Clock`), and for a fully
connected network `danse` returns the network that it was given.
-/

namespace Danse
section
variable {K : Type} [Field K] [StarRing K] [DecidableEq K]

/-- `d` and `dLocal` of a run of `n` nodes; `dCentr` and `dSSBC` are zero (d_classes.py 829-835). -/
def GivenSt.sigs (s : GivenSt K) (n T : Nat) : RunSigs n K where
  d k := s.d k
  dCentr _ := List.replicate T 0
  dLocal k := s.dLoc k
  dSSBC _ := List.replicate T 0

/-- The same for a run of TI-DANSE. -/
def TISt.sigs {n : Nat} (s : TISt n K) (T : Nat) : RunSigs n K where
  d k := (s.node k).d
  dCentr _ := List.replicate T 0
  dLocal k := (s.node k).dLoc
  dSSBC _ := List.replicate T 0

/-- `danse_it_up` for a fully connected network (tests/sandbox.py 112-158): `y`, `ys`, `yn` are `node.data`,
the clean speech and the clean noise of every node (d_classes.py 890-897), `T` their length, `best` the
best-performance data. The noise-only run comes first (d_core.py 578, 585). -/
def danseItUp (D : DanseCfg K) (p : EvalSettings) (n T : Nat) (y ys yn : Nat → List (List K))
    (evs : List (ℚ × Nat × EvType)) (best : Fin n → BestCol K) : Except PyErr (EvalOut n K) :=
  if p.batch then .error .notImplementedError
  else do
    let a ← danseRun D y T evs
    let vn ← a.run.cfg.run yn (.init D.g.N D.g.refSensor T D.M) evs
    let vs ← a.run.cfg.run ys (.init D.g.N D.g.refSensor T D.M) evs
    return driverOut p (a.run.st.sigs n T) (vs.sigs n T) (vn.sigs n T) best

/-- The settings that `initialize_events` reads for TI-DANSE (d_base.py 513-571, 683-803): sequential updates,
`keepOriginalTree`, whether the jitter is simulated, its reference sensor, the first updating node, and the number of
frames before the first update. -/
structure TIPlan where
  seq : Bool
  keep : Bool
  sim : Bool
  jitterRef : Nat
  start : Nat
  minFrames : Int

/-- A network that TI-DANSE gets: its adjacency matrix, neighbour lists and upstream neighbours. -/
structure TINet (n : Nat) where
  adj : Fin n → Fin n → ℝ
  nbr : Fin n → List (Fin n)
  up : Fin n → List (Fin n)

/-- `prune_wasn_to_tree(wasnObj, forcedRoot=k)` for nodes at known places: it always returns a network (`C93_total`; the
network without links, of no orientation, stands for a run that does not end). -/
noncomputable def prunedAt {n : Nat} [NeZero n] (mst : SimpleGraph (Fin n) → (Fin n → Fin n → ℝ) → SimpleGraph (Fin n))
    (pos : Fin n → Pt) (A : Fin n → Fin n → ℝ) (k : Nat) : PrunedWasn n :=
  ((pruneToTree mst A (fun q => some (pos q)) ⟨"", none, fun _ => [], fun _ => []⟩ (some (Fin.ofNat n k))).toOption.join).getD
    ⟨fun _ _ => 0, fun _ => [], fun _ => .default, Fin.ofNat n k, ⟨fun _ => [], fun _ => []⟩, []⟩

/-- `initialize_events` in the network `W` (d_core.py 159-165): the schedule and `wasnObjList`. -/
noncomputable def tiSchedule {n : Nat} [NeZero n] (mst : SimpleGraph (Fin n) → (Fin n → Fin n → ℝ) → SimpleGraph (Fin n))
    (pos : Fin n → Pt) (g : GivenCfg K) (s : TIPlan) (nodeFs : Fin n → ℚ) (W : TINet n) :
    Except PyErr (List (Instant ℚ) × List ℚ × List (PrunedWasn n)) :=
  initEventsTI g.bc g.N g.Ns s.seq s.keep s.sim s.jitterRef s.start s.minFrames
    ((List.finRange n).map fun k => ⟨nodeFs k, g.stamps k, (W.nbr k).map (·.val)⟩)
    (fun k => (prunedAt mst pos W.adj k).order.map TreeLevel.toLevel) (prunedAt mst pos W.adj)

/-- What the main loop reads of `wasnObjList`. -/
def PrunedWasn.obj {n : Nat} (P : PrunedWasn n) : TreeObj n := ⟨P.root, P.orient.up⟩

/-- The pruned network as the next run gets it. -/
def PrunedWasn.net {n : Nat} (P : PrunedWasn n) : TINet n := ⟨P.adj, P.nbr, P.orient.up⟩

/-- `danse_it_up` for an ad-hoc network (tests/sandbox.py 121-158) in an online mode. `tidanse` returns, instead of the network
`W`, the first of its trees (d_core.py 168, 248), and the re-runs get that tree as their network (tests/sandbox.py 131, 139-146):
they prune it again and make their own schedule. Row `i` of the filters they are given is what update `i` of the run on the
recordings wrote (`recorded`; C119). `g.fs` is the inferred sampling rate of every node. -/
noncomputable def tidanseItUp {n : Nat} [NeZero n] (mst : SimpleGraph (Fin n) → (Fin n → Fin n → ℝ) → SimpleGraph (Fin n))
    (pos : Fin n → Pt) (D : DanseCfg K) (s : TIPlan) (nodeFs : Fin n → ℚ) (W : TINet n) (p : EvalSettings) (T : Nat)
    (y ys yn : Fin n → List (List K)) (best : Fin n → BestCol K) : Except PyErr (EvalOut n K) := do
  let sch ← tiSchedule mst pos D.g s nodeFs W
  let P ← sch.2.2.head?.elim (Except.error PyErr.indexError) Except.ok
  let a ← tiDanseRun D T y W.up (sch.2.2.map PrunedWasn.obj) sch.1
  let F := recorded (D.tiStrategy n) a.run
  let sch' ← tiSchedule mst pos D.g s nodeFs P.net
  let vn ← tiRun D.g (.given F) yn (sch'.2.2.map PrunedWasn.obj)
    (.init D.g.N D.g.refSensor T yn (fun k => D.g.wExt k 0) P.orient.up) sch'.1
  let vs ← tiRun D.g (.given F) ys (sch'.2.2.map PrunedWasn.obj)
    (.init D.g.N D.g.refSensor T ys (fun k => D.g.wExt k 0) P.orient.up) sch'.1
  return driverOut p (a.run.sigs T) (vs.sigs T) (vn.sigs T) best

end
end Danse
