import Verif.Model.Params
import Mathlib.Analysis.SpecialFunctions.Log.Base
import Mathlib.Analysis.SpecialFunctions.Pow.Real
import Mathlib.Data.Rat.Floor
import Mathlib.Algebra.Order.Field.Rat

/-!
# Signal generation tools (`siggen/utils.py`)
-/

namespace Danse

/-! ## Sampling-rate offsets -/

/-- `np.linspace(start, stop, num)`. -/
def npLinspace (start stop : ℚ) (num : Nat) : List ℚ :=
  if num = 1 then [start]
  else (List.range num).map fun (i : Nat) => start + i * ((stop - start) / ((num : ℚ) - 1))

/-- `resample_for_sro` (siggen/utils.py 1579-1622); `rs fs fs'` is `resampy.core.resample` (any
function). `fsSRO = 0` (NaN time stamps) is not modelled. -/
def resampleForSro (rs : ℚ → ℚ → List ℚ → List ℚ) (x : List ℚ) (baseFs sroPpm : ℚ) :
    Except PyErr (List ℚ × List ℚ × ℚ) :=
  let fsSRO := baseFs * (1 + sroPpm / 1000000)
  let xr := if baseFs ≠ fsSRO then rs baseFs fsSRO x else x
  let t := (List.range xr.length).map fun (i : Nat) => (i : ℚ) / fsSRO
  if x.length ≤ xr.length then .ok (xr.take x.length, t.take x.length, fsSRO)
  else do
    let t1 ← pyGet t 1
    let t0 ← pyGet t 0
    let tl ← pyGet t (-1)
    let dt := t1 - t0
    let m := x.length - xr.length
    return (xr ++ List.replicate m 0, t ++ npLinspace (tl + dt) (tl + dt * m) m, fsSRO)

/-- `apply_asynchronicity_at_node` (siggen/utils.py 1434-1471); the signals of the node are the
entries of `y`. Without sensors `t` is unbound. -/
def applyAsync (rs : ℚ → ℚ → List ℚ → List ℚ) (y : List (List ℚ)) (fs sro : ℚ) :
    Except PyErr (List (List ℚ) × List ℚ × ℚ) := do
  let r ← y.mapM fun c => resampleForSro rs c fs sro
  match r.getLast? with
  | none => throw .unboundLocalError
  | some (_, t, f) => return (r.map (·.1), t, f)

/-! ## Source signals -/

/-- The `while` loop that repeats a short source (siggen/utils.py 155-158), `none` if it has not
ended after `fuel` turns. -/
def loopTo {α : Type} (n : Nat) : Nat → List α → Option (List α)
  | 0, _ => none
  | f + 1, y => if y.length < n then loopTo n f ((y ++ y).take n) else some y

/-- Length adjustment of a source (siggen/utils.py 152-158). -/
def adjustLen {α : Type} (n fuel : Nat) (y : List α) : Option (List α) :=
  if n < y.length then some (y.take n)
  else if y.length < n then loopTo n fuel y
  else some y

/-- `y[a:b] = 0`. -/
def zeroSlice (y : List ℚ) (a b : Int) : List ℚ :=
  let s := pySliceBound y.length a
  let e := pySliceBound y.length b
  y.zipIdx.map fun (v, j) => if s ≤ j ∧ j < e then 0 else v

/-- `np.arange(start, stop, step)` for a positive step. -/
def npArange (start stop step : ℚ) : List ℚ :=
  (List.range ⌈(stop - start) / step⌉.toNat).map fun (i : Nat) => start + i * step

/-- Predefined pauses of `generate_rand_signal` (siggen/utils.py 734-746); `ZeroDivisionError` if
pause and spacing are both zero. -/
def addPauses (y : List ℚ) (pauseDur pauseSpace fs : ℚ) (startWithPause : Bool) :
    Except PyErr (List ℚ) :=
  let leng := pauseDur * fs
  let space := pauseSpace * fs
  if space + leng = 0 then .error .zeroDivisionError
  else .ok ((npArange (if startWithPause then 0 else space) y.length (space + leng)).foldl
    (fun y p => zeroSlice y (pyInt p) (pyInt (p + leng))) y)

/-! ## Noise -/

section
variable {n : Nat}

/-- `np.mean(np.abs(x) ** 2)`. -/
noncomputable def meanPow (x : Fin n → ℝ) : ℝ := (∑ i, |x i| ^ 2) / n

open Classical in
/-- `apply_noise` (siggen/utils.py 1421-1431): (noisy signal, scaled noise). A zero noise gives
`inf * 0`, an empty signal NaN means: both NaN. A zero signal gives `log10(0) = -inf`, gain 0. -/
noncomputable def applyNoise (sig noise : Fin n → ℝ) (snr : ℝ) :
    Except PyErr ((Fin n → ℝ) × (Fin n → ℝ)) :=
  if n = 0 ∨ meanPow noise = 0 then .error .nan
  else
    let g : ℝ := if meanPow sig = 0 then 0
      else (10 : ℝ) ^ (-(snr - 10 * Real.logb 10 (meanPow sig / meanPow noise)) / 20)
    .ok (sig + g • noise, g • noise)

open Classical in
/-- Gain of a noise source for `snrBasis = 'mic…'` (siggen/utils.py 212-221), from the wet target and
noise signals at the reference microphone. -/
noncomputable def micGain (yRef nRef : Fin n → ℝ) (snr : ℝ) : Except PyErr ℝ :=
  if ∑ i, nRef i ^ 2 = 0 then .error .nan
  else if ∑ i, yRef i ^ 2 = 0 then .ok 0
  else .ok ((10 : ℝ) ^ ((10 * Real.logb 10 ((∑ i, yRef i ^ 2) / ∑ i, nRef i ^ 2) - snr) / 20))

/-- `scipy.signal.lfilter(ir, 1, x)`. -/
noncomputable def lfilter (ir : List ℝ) (x : Fin n → ℝ) (i : Fin n) : ℝ :=
  ∑ j : Fin n, if j ≤ i then ir.getD (i.val - j.val) 0 * x j else 0

/-- Gain of a noise source for `snrBasis = 'dry_signals'` (siggen/utils.py 193). -/
noncomputable def dryGain (snr : ℝ) : ℝ := (10 : ℝ) ^ (-snr / 20)

/-- Signals of one node with `M + 1` sensors (siggen/utils.py 1253-1303): `sens m` is the wet target
plus wet localized noise, `async` the resampling of one signal, `diffuse` the diffuse noise (0 if
not asked), `white` the uniform noise drawn for each sensor. Returns (`data`, `cleanspeech`,
`cleannoise`). -/
noncomputable def buildNode {M : Nat} (async : (Fin n → ℝ) → (Fin n → ℝ))
    (speech noise diffuse white : Fin (M + 1) → Fin n → ℝ) (snr : ℝ) :
    Except PyErr ((Fin (M + 1) → Fin n → ℝ) × (Fin (M + 1) → Fin n → ℝ) ×
      (Fin (M + 1) → Fin n → ℝ)) := do
  let r ← (List.finRange (M + 1)).mapM fun m =>
    applyNoise (async (noise m + speech m) + diffuse m) (white m) snr
  return (fun m => (r.getD m.val (0, 0)).1, fun m => async (speech m),
    fun m => async (noise m + diffuse m) + (r.getD 0 (0, 0)).2)

end

end Danse
