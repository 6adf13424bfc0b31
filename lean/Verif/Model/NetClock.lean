import Verif.Model.Dft
import Verif.Model.Sro

/-!
# Model of the network-wide compensation of clock offsets in TI-DANSE

`get_local_phase_shift` (`danse_toolbox/d_classes.py` 2855-2873), `estimate_local_clock_drift` (3025-3069), the
lines of `ti_build_ytilde` that shift the local frame (3090-3096) and `apply_phase_shift_to_td_frame` (3307-3317).

Exact complex numbers. The frames are those that `local_chunk_for_update` returns (d_base.py), one list per
channel. Node indices are in range. `np.real_if_close` is left out: without rounding the result is real (`C150_delay`).
-/

namespace Danse

/-- `localSROwrtRoot` and `localPhaseShiftFactor` (2759-2761), one entry per node. -/
structure NetClock where
  sro : List ℝ
  psf : List ℝ

/-- Their initial values (2760-2761). -/
def NetClock.init (n : ℕ) : NetClock := ⟨List.replicate n 0, List.replicate n 0⟩

/-- `estimateSROs` (3054-3063). -/
inductive NetSroMethod where
  | cohDrift
  | dxcpphat
  | oracle
  | other

/-- `estimate_local_clock_drift` (3025-3069): `ppm` is `SROsppm`, `root` is `currentWasnTreeObj.rootIdx`. The two transforms
(3047-3052) are not used by any method. -/
noncomputable def NetClock.estimate (m : NetSroMethod) (ppm : List ℝ) (root k : ℕ) (s : NetClock) : Except PyErr NetClock :=
  match m with
  | .cohDrift => .error .notImplementedError
  | .dxcpphat => .error .notImplementedError
  | .other => .error .unboundLocalError
  | .oracle => .ok { s with sro := s.sro.set k ((ppm.getD k 0 - ppm.getD root 0) * (1 / 1000000)) }

/-- `get_local_phase_shift` (2855-2873): the updated state; the shift is `psf` of node `k`. -/
noncomputable def NetClock.advance (Ns : ℕ) (k : ℕ) (s : NetClock) : NetClock :=
  { s with psf := s.psf.set k (s.psf.getD k 0 - s.sro.getD k 0 * Ns) }

/-- `apply_phase_shift_to_td_frame` (3307-3317) for one channel. -/
noncomputable def shiftFrameTD (N : ℕ) (shift : ℝ) (x : List ℂ) : Except PyErr (List ℂ) :=
  backToTD (Complex.exp (2 * Real.pi * Complex.I / N)) N
    (applyShift N shift ((dft (Complex.exp (2 * Real.pi * Complex.I / N)) N x).take (N / 2 + 1)))

/-- The local frame of an update (3090-3096); `netwide` is `compensationStrategy == 'network-wide'`. -/
noncomputable def NetClock.localFrame (netwide compensate : Bool) (N Ns : ℕ) (k : ℕ) (cols : List (List ℂ)) (s : NetClock) :
    Except PyErr (NetClock × List (List ℂ)) :=
  if netwide && compensate then
    match cols.mapM (shiftFrameTD N ((s.advance Ns k).psf.getD k 0)) with
    | .ok c => .ok (s.advance Ns k, c)
    | .error e => .error e
  else .ok (s, cols)

/-- The local frames of the updates of a run of `tidanse`, in the order of the updates (node, frame). Nothing in the run calls
`estimate_local_clock_drift`. -/
noncomputable def NetClock.run (netwide compensate : Bool) (N Ns : ℕ) (s : NetClock) :
    List (ℕ × List (List ℂ)) → Except PyErr (NetClock × List (List (List ℂ)))
  | [] => .ok (s, [])
  | (k, cols) :: r =>
    match s.localFrame netwide compensate N Ns k cols with
    | .error e => .error e
    | .ok (s1, f) =>
      match NetClock.run netwide compensate N Ns s1 r with
      | .error e => .error e
      | .ok (s2, fs) => .ok (s2, f :: fs)

/-- The phase shift factors if `estimate_local_clock_drift` (3025-3069) were called before `get_local_phase_shift` (2855-2873) at every
update, as their comments say: pairs (root, node). -/
noncomputable def NetClock.estRun (m : NetSroMethod) (ppm : List ℝ) (Ns : ℕ) (s : NetClock) : List (ℕ × ℕ) → Except PyErr NetClock
  | [] => .ok s
  | (root, k) :: r =>
    match s.estimate m ppm root k with
    | .error e => .error e
    | .ok s1 => NetClock.estRun m ppm Ns (s1.advance Ns k) r

end Danse
