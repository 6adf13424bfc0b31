import Verif.Model.Py
import Mathlib.Analysis.SpecialFunctions.Exp

/-!
# Model of random impulse responses

`generate_random_rir` (`siggen/utils.py` 278-308) and `generate_random_impulse_responses` (229-275). The random numbers are given: `u c t` is
sample `t` of call `c` of the generator, uniform in `[0, 1)` or of variance 1. Real numbers; duration and sampling rate are not negative,
the time constant is not zero.
-/

namespace Danse

/-- `RandomIRParameters` with the sampling rate. -/
structure RandIr where
  distribution : String
  decay : String
  duration : ℚ
  fs : ℚ
  tau : ℝ
  minValue : ℝ
  maxValue : ℝ
  u : ℕ → ℕ → ℝ

/-- `int(prir.duration * fs)` (289, 295). -/
def RandIr.len (p : RandIr) : ℕ := ⌊p.duration * p.fs⌋.toNat

/-- The draw (285-296). -/
noncomputable def RandIr.draw (p : RandIr) (c : ℕ) : Except PyErr (List ℝ) :=
  if p.distribution = "uniform" then .ok ((List.range p.len).map fun t => p.minValue + (p.maxValue - p.minValue) * p.u c t)
  else if p.distribution = "normal" then .ok ((List.range p.len).map fun t => max |p.maxValue| |p.minValue| * p.u c t)
  else .error .unboundLocalError

/-- The decay (298-303). -/
noncomputable def RandIr.decayed (p : RandIr) (r : List ℝ) : Except PyErr (List ℝ) :=
  if p.decay = "exponential" then .ok (r.zipIdx.map fun x => x.1 * Real.exp (-x.2 / (p.tau * p.fs)))
  else if p.decay = "immediate" then
    match r with
    | [] => .error .indexError
    | a :: r => .ok (|a| :: r.map fun _ => 0)
  else .ok r

/-- One response (284-305). -/
noncomputable def RandIr.one (p : RandIr) (c : ℕ) : Except PyErr (List ℝ) := p.draw c >>= p.decayed

/-- `generate_random_rir` (278-308) from call `c` on. -/
noncomputable def RandIr.many (p : RandIr) (n c : ℕ) : Except PyErr (List (List ℝ)) := (List.range n).mapM fun i => p.one (c + i)

/-- One sensor (254-271): the responses of the `nD` desired and the `nN` noise sources. -/
noncomputable def RandIr.mic (p : RandIr) (nD nN c : ℕ) : Except PyErr (List (List ℝ) × List (List ℝ)) := do
  let d ← p.many nD c
  let n ← p.many nN (c + nD)
  .ok (d, n)

/-- One node (251-273) with `s` sensors. -/
noncomputable def RandIr.node (p : RandIr) (nD nN s c : ℕ) : Except PyErr (List (List (List ℝ) × List (List ℝ))) :=
  (List.range s).mapM fun m => p.mic nD nN (c + m * (nD + nN))

/-- `generate_random_impulse_responses` (229-275): per node and sensor the responses of the desired and of the noise sources. -/
noncomputable def RandIr.all (p : RandIr) (nD nN : ℕ) : List ℕ → ℕ → Except PyErr (List (List (List (List ℝ) × List (List ℝ))))
  | [], _ => .ok []
  | s :: ss, c => do
    let a ← p.node nD nN s c
    let r ← RandIr.all p nD nN ss (c + s * (nD + nN))
    .ok (a :: r)

end Danse
