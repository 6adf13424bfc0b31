import Verif.Model.SigTools
import Verif.Model.Topo

/-!
# From sources to sensor signals

`get_raw_source_signals` and `build_scenario` (siggen/utils.py 18-80, 119-226), given the impulse responses
and the samples of the sources (read from files and adjusted in length, C42, or drawn at random). Arithmetic
is exact. Voice activity is not part of this model (C38, C62).
-/

namespace Danse

variable {n : Nat}

/-- `np.mean(x)`. -/
noncomputable def npMean (x : Fin n → ℝ) : ℝ := (∑ i, x i) / n

/-- `np.std(x)`. -/
noncomputable def npStd (x : Fin n → ℝ) : ℝ := Real.sqrt ((∑ i, |x i - npMean x| ^ 2) / n)

/-- `signalType` (siggen/classes.py 117-121). -/
inductive SigType
  | fromFile
  | random

/-- Normalisation of a source (siggen/utils.py 161): files only; a constant source gives NaN or infinite
values. -/
noncomputable def rawSource (ty : SigType) (x : Fin n → ℝ) : Except PyErr (Fin n → ℝ) :=
  match ty with
  | .random => .ok x
  | .fromFile =>
    open Classical in if npStd x = 0 then .error .nan else .ok fun i => x i / npStd x

/-- `snrBasis`: 'dry_signals', a name with 'mic' and a number, or any other string. -/
inductive SnrBasis
  | dry
  | mic (m : Nat)
  | other

/-- Parameters of a scenario. `irsD` and `irsN`: impulse responses by node, sensor and source. -/
structure Scenario (n : Nat) where
  nSensors : List Nat
  irsD : List (List (List (List ℝ)))
  irsN : List (List (List (List ℝ)))
  ty : SigType
  basis : SnrBasis
  snr : ℝ
  desired : List (Fin n → ℝ)
  noise : List (Fin n → ℝ)

/-- Sum of the sources as heard through the responses `irs` of a sensor (siggen/utils.py 212-214, 871-891);
`sig.fftconvolve` truncated to the length of the source is the same filter. There is one response per
source (257-263, 596-608). -/
noncomputable def wetSum (irs : List (List ℝ)) (x : List (Fin n → ℝ)) : Fin n → ℝ :=
  (List.zipWith lfilter irs x).sum

/-- Gain of the `ii`-th noise source `x` (siggen/utils.py 194-222); `d` are the desired sources. -/
noncomputable def noiseGain (c : Scenario n) (d : List (Fin n → ℝ)) (ii : Nat) (x : Fin n → ℝ) :
    Except PyErr ℝ :=
  match c.basis with
  | .dry => .ok (dryGain c.snr)
  | .other => .ok 1
  | .mic m => do
    let r ← refMicOf c.nSensors m
    let nodeD ← pyGet c.irsD r.1
    let irD ← pyGet nodeD r.2
    let nodeN ← pyGet c.irsN r.1
    let irN ← pyGet nodeN r.2
    let ir ← pyGet irN ii
    micGain (wetSum irD d) (lfilter ir x) c.snr

/-- A noise source (siggen/utils.py 183-223). -/
noncomputable def noiseSource (c : Scenario n) (d : List (Fin n → ℝ)) (x : (Fin n → ℝ) × Nat) :
    Except PyErr (Fin n → ℝ) := do
  let s ← rawSource c.ty x.1
  let g ← noiseGain c d x.2 s
  return g • s

/-- `get_raw_source_signals` (siggen/utils.py 119-226). -/
noncomputable def rawSources (c : Scenario n) : Except PyErr (List (Fin n → ℝ) × List (Fin n → ℝ)) := do
  let d ← c.desired.mapM (rawSource c.ty)
  let z ← c.noise.zipIdx.mapM (noiseSource c d)
  return (d, z)

/-- `build_scenario` (siggen/utils.py 18-80): wet speech and wet noise of all sensors (`None` without noise
sources). -/
noncomputable def buildScenario (c : Scenario n) :
    Except PyErr (List (List (Fin n → ℝ)) × Option (List (List (Fin n → ℝ)))) := do
  let r ← rawSources c
  return (c.irsD.map fun node => node.map fun irs => wetSum irs r.1,
    if c.noise.length > 0 then some (c.irsN.map fun node => node.map fun irs => wetSum irs r.2) else none)

/-- `decay` (siggen/classes.py 24-28). -/
inductive IrDecay
  | none
  | exponential
  | immediate

/-- Decay of a random impulse response with the drawn samples `r` (siggen/utils.py 298-306). -/
noncomputable def decayIr (dec : IrDecay) (fs tau : ℝ) (r : List ℝ) : Except PyErr (List ℝ) :=
  match dec with
  | .none => .ok r
  | .exponential => .ok (r.zipIdx.map fun x => x.1 * Real.exp (-(x.2 : ℝ) / (tau * fs)))
  | .immediate => match r with
    | [] => .error .indexError
    | a :: t => .ok (|a| :: t.map fun _ => 0)

end Danse
