import Verif.Model.CentrRun
import Verif.Spec.Buffers
import Verif.Spec.Clock
import Verif.Spec.Online
import Verif.Spec.TIRun

/-!
# Specification: which raw sensor samples the nodes exchange
-/

namespace Danse

/-- The time of the last broadcast of node `q` in a schedule (0 before the first one). -/
def lastBcTime (evs : List (ℚ × Nat × EvType)) (q : Nat) : ℚ := (bcTimes evs q).getLastD 0

section
variable {K : Type} [Field K] [StarRing K] [DecidableEq K]

/-- The samples of sensor `m` that node `q` sends raw when it broadcasts at time `t`, its last broadcast
having been at time `last`. Its current frame is the `N` samples up to now. With whole-chunk broadcasts
it sends the first `Ns` samples of the frame; with efficient few-sample broadcasts it sends the last
samples of the frame, as many whole groups of `L` samples as were recorded since the last broadcast. -/
def rawChunk (g : GivenCfg K) (y : Nat → List (List K)) (last t : ℚ) (q m : Nat) : List K :=
  let frame := frameBefore g.N ((y q).getD m []) ⌊t * g.fs q⌋.toNat
  match g.bc with
  | .whole => frame.take g.Ns
  | .few L _ => lastN (L * (((g.stamps q).filter fun u => decide (last < u) && decide (u ≤ t)).length / L)) frame

/-- What happens to the samples of the sensors number `m` of all nodes in a schedule. -/
def rawOps (g : GivenCfg K) (y : Nat → List (List K)) (evs : List (ℚ × Nat × EvType)) (m : Nat) :
    List (BufOp K) :=
  evs.zipIdx.map fun (ev, i) =>
    match ev.2.2 with
    | .bc => .bc ev.2.1 (rawChunk g y (lastBcTime (evs.take i) ev.2.1) ev.1 ev.2.1 m)
    | _ => .up ev.2.1

/-- All the raw samples of sensor `m` that node `q` sends in a schedule, in order. -/
def rawSent (g : GivenCfg K) (y : Nat → List (List K)) (evs : List (ℚ × Nat × EvType)) (q m : Nat) : List K :=
  sent (rawOps g y evs m) q

/-- The place of sensor `m` of node `q` among all the sensors of the network, and the number of sensors of
the first `n` nodes. -/
def sensorIndex (y : Nat → List (List K)) (q m : Nat) : Nat := ((List.range q).map fun p => (y p).length).sum + m

@[inherit_doc sensorIndex]
def sensorCount (y : Nat → List (List K)) (n : Nat) : Nat := ((List.range n).map fun p => (y p).length).sum

/-- The last `N` samples of a stream, preceded by silence if there are fewer. -/
def lastFrame (N : Nat) (stream : List K) : List K := frameBefore N stream stream.length

end
end Danse
