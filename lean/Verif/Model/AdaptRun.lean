import Verif.Model.GivenRun

/-!
# Model of an online DANSE run that computes its own filters

The main loop of `danse` (`danse_toolbox/d_core.py` 66-92). The event loop, the frames, buffers,
compression and synthesis are those of `GivenRun`; here the filters and the phase factors are not
given but computed during the run. At an update, `update_and_estimate` (d_classes.py 1276-1322)
computes them with `compensate_sros`, `spatial_covariance_matrix_update`,
`check_covariance_matrices`, `perform_update`, `update_external_filters` and
`update_sro_estimates`; all of these read and write the entries of node `k` only (`Ryytilde[k]`,
`wTilde[k]`, `startUpdates[k]`, ...), so what they compute at an update of node `k` is a function of
what the node observed at its updates so far. That function is a parameter here (`Strategy`); the
frame-wise VAD and the bypass decisions of the schedule, which do not depend on the sensor signals
of the run, are part of it.
-/

namespace Danse
section
variable {K : Type} [Field K] [StarRing K] [DecidableEq K]

/-- What a node observes at one update (d_classes.py 1276-1291): the time, the buffer flags, its own
frames and the frames received from its neighbours. -/
structure Obs (K : Type) where
  t : ℚ
  flags : List Int
  loc : List (List K)
  z : List (List K)

/-- How node `k` computes, from its observations up to and including the current one, the phase
factors (channel, bin) of this update and the filter rows that this update writes. -/
structure Strategy (K : Type) where
  rot : Nat → List (Obs K) → Nat → Nat → K
  rows : Nat → List (Obs K) → Rows K

/-- Frames and flags of node `k` at an update at time `t` (d_classes.py 1276-1291, 1893-1934). -/
def GivenCfg.observe (g : GivenCfg K) (y : Nat → List (List K)) (s : GivenSt K) (t : ℚ) (k : Nat) :
    Except PyErr (Obs K) := do
  let net ← netStep g.nb g.N g.Ns s.net (.up k)
  let loc ← (y k).mapM fun ch => chunkForUpdate ch t (g.fs k) g.bc.name g.N g.Ns
  .ok ⟨t, (net.flags k).getLastD [], loc.map (·.1), net.z k⟩

/-- The phase factors of one update are stored. -/
def GivenCfg.setRot (g : GivenCfg K) (k i : Nat) (r : Nat → Nat → K) : GivenCfg K :=
  { g with rot := Function.update g.rot k (Function.update (g.rot k) i r) }

/-- State of such a run: filters so far (in `cfg`), run state, observations of each node. -/
structure AdaptSt (K : Type) where
  cfg : GivenCfg K
  st : GivenSt K
  hist : Nat → List (Obs K)

/-- One event of the main loop (d_core.py 75-92). -/
def adaptStep (U : Strategy K) (y : Nat → List (List K)) (a : AdaptSt K) (ev : ℚ × Nat × EvType) :
    Except PyErr (AdaptSt K) :=
  match ev.2.2 with
  | .up => do
    let o ← a.cfg.observe y a.st ev.1 ev.2.1
    let hist := a.hist ev.2.1 ++ [o]
    let i := a.st.net.it ev.2.1
    let g := (a.cfg.record ev.2.1 (i + 1) (U.rows ev.2.1 hist)).setRot ev.2.1 i (U.rot ev.2.1 hist)
    let s ← g.step y a.st ev
    .ok ⟨g, s, Function.update a.hist ev.2.1 hist⟩
  | _ => do
    let s ← a.cfg.step y a.st ev
    .ok { a with st := s }

/-- The main loop over a schedule (d_core.py 66-92). -/
def adaptRun (U : Strategy K) (y : Nat → List (List K)) (a : AdaptSt K)
    (evs : List (ℚ × Nat × EvType)) : Except PyErr (AdaptSt K) :=
  evs.foldlM (adaptStep U y) a

/-- Before the first event. -/
def AdaptSt.init (g : GivenCfg K) (T : Nat) (M : Nat → Nat) : AdaptSt K :=
  ⟨g, .init g.N g.refSensor T M, fun _ => []⟩

end
end Danse
