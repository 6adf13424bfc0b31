import Mathlib.Data.Rat.Floor
import Mathlib.Algebra.Order.Field.Rat
import Mathlib.Analysis.SpecialFunctions.Log.Base
import Verif.Model.Py
import Verif.Model.Params

/-!
# Model of the evaluation metrics and of the audio export

Models `danse_toolbox/d_eval.py` (`DynamicMetric` 56-68, the SNR part of `get_metrics` 70-373,
`get_dynamic_metric` 376-481, `get_snr` 573-624, the call and the frame layout of `get_fwsnrseg`
666-767) and `normalize_toint16` (`danse_toolbox/d_post.py` 1958-1973).

Signals are lists of rationals or reals; floating-point rounding is not modelled. STOI, PESQ and
the inner spectral computations of the frequency-weighted SNR are not modelled.
-/

namespace Danse

/-! ## 16-bit export -/

/-- C conversion of an integer to `int16` (two's complement wrap-around, as NumPy does on x86). -/
def wrap16 (z : Int) : Int := (z + 32768) % 65536 - 32768

/-- `np.amax` of a non-empty list. -/
def amax : List ℚ → ℚ
  | [] => 0
  | x :: r => r.foldl max x

/-- One sample before the conversion: `amplitude * x / np.amax(nparray) * 0.5`
(d_post.py 1970-1972), truncated towards zero. -/
def toInt16Raw (m x : ℚ) : Int := pyInt (32767 * x / m * (1 / 2))

/-- `normalize_toint16` (d_post.py 1958-1973). An empty array makes `np.amax` raise; a zero
maximum gives NaN or infinities (`PyErr.nan`). -/
def normalizeToInt16 (x : List ℚ) : Except PyErr (List Int) :=
  if x = [] then .error .valueError
  else if amax x = 0 then .error .nan
  else .ok (x.map fun v => wrap16 (toInt16Raw (amax x) v))

/-! ## Dynamic metrics -/

/-- Number of entries of the result arrays (`DynamicMetric.__init__`, d_eval.py 59):
`int(np.floor(totalSigLength / (N * (1 - ovlp))))`. -/
def dynNChunks (L N : Nat) (ovlp : ℚ) : Int := ⌊(L : ℚ) / (N * (1 - ovlp))⌋

/-- First sample of chunk `c` (d_eval.py 415): `int(c * chunkSize * (1 - chunkOverlap))`. -/
def dynStart (N : Nat) (ovlp : ℚ) (c : Nat) : Int := pyInt ((c : ℚ) * N * (1 - ovlp))

/-- The loop of `get_dynamic_metric` (d_eval.py 413-466): `f i0 i1` is the value of the metric on
`signal[i0:i1]`; `acc` are the values written so far (entry `c` is written at iteration `c`).
Writing at an index outside the array is an `IndexError`; the emergency stop is a `ValueError`.
`fuel` bounds the number of iterations; running out of it is reported as `none`. -/
def dynLoop {M : Type} (L N : Nat) (ovlp : ℚ) (f : Int → Int → M) :
    Nat → Nat → List M → Option (Except PyErr (List M))
  | 0, _, _ => none
  | fuel + 1, c, acc =>
    let i0 := dynStart N ovlp c
    let i1 := i0 + N
    if i1 > L then some (.ok acc)
    else if (c : Int) ≥ dynNChunks L N ovlp then some (.error .indexError)
    else if ((c + 1 : Nat) : Int) > 2 * dynNChunks L N ovlp then some (.error .valueError)
    else dynLoop L N ovlp f fuel (c + 1) (acc ++ [f i0 i1])

/-- The result array of `get_dynamic_metric`: `zero` where nothing was written. -/
def dynMetric {M : Type} (L N : Nat) (ovlp : ℚ) (f : Int → Int → M) (zero : M) (fuel : Nat) :
    Option (Except PyErr (List M)) :=
  match dynLoop L N ovlp f fuel 0 [] with
  | none => none
  | some (.error e) => some (.error e)
  | some (.ok vs) => some (.ok (vs ++ List.replicate ((dynNChunks L N ovlp).toNat - vs.length) zero))

/-- Number of time stamps (d_eval.py 473-478): `np.arange(start=s, stop=L/fs, step=s)` with
`s = chunkDuration * (1 - chunkOverlap)`. -/
def dynNStamps (L : Nat) (fs dur ovlp : ℚ) : Int :=
  max 0 ⌈((L : ℚ) / fs - dur * (1 - ovlp)) / (dur * (1 - ovlp))⌉

/-! ## Argument binding of the frequency-weighted segmental SNR -/

/-- Python call with positional arguments only: formals with their defaults, positional values. -/
def bindPositional (formals : List (String × ℚ)) (pos : List ℚ) : List (String × ℚ) :=
  formals.zipIdx.map fun (f, i) => (f.1, pos.getD i f.2)

/-- The optional parameters of `get_fwsnrseg(cleanSig, enhancedSig, fs, frameLen=0.03,
overlap=0.75, gamma=0.2)` (d_eval.py 666). -/
def fwFormals : List (String × ℚ) := [("frameLen", 3 / 100), ("overlap", 3 / 4), ("gamma", 1 / 5)]

/-- The parameters with which `get_metrics` runs `get_fwsnrseg(clean, x, fs, fLen, gamma)`
(d_eval.py 209-229, 271-292) for the user's `fLen` and `gamma`. -/
def fwUsed (fLen gamma : ℚ) (name : String) : Option ℚ :=
  (bindPositional fwFormals [fLen, gamma]).lookup name

/-- `skiprate = int(np.floor((1-overlap)*frameLen*fs))` (d_eval.py 689). -/
def fwSkip (overlap frameLen fs : ℚ) : Int := ⌊(1 - overlap) * frameLen * fs⌋

/-- The final bounds (d_eval.py 763-765): `distortion[distortion<0]=0`,
`distortion[distortion>35]=35`. -/
def fwClamp (d : ℚ) : ℚ :=
  let d := if d < 0 then 0 else d
  if d > 35 then 35 else d

/-! ## SNR -/

open Real

/-- `np.mean(np.abs(x) ** 2)`. -/
noncomputable def avgPow (x : List ℝ) : ℝ := (x.map fun v => |v| ^ 2).sum / x.length

/-- Boolean-mask indexing `x[mask]`. -/
def maskSel {α : Type} (x : List α) (mask : List Bool) : List α :=
  ((x.zip mask).filter (·.2)).map (·.1)

/-- `get_snr` for one channel (d_eval.py 573-624): `vad = none` or `bypass` uses all samples. -/
noncomputable def getSnr (s n : List ℝ) (vad : Option (List Bool)) (bypass : Bool) : ℝ :=
  let mask := match vad, bypass with
    | some v, false => v
    | _, _ => List.replicate s.length true
  10 * Real.logb 10 (avgPow (maskSel s mask) / avgPow (maskSel n mask))

/-- The `Metric` fields about SNR (d_eval.py 20-33). -/
structure SnrMetric where
  before : ℝ := 0
  after : ℝ := 0
  diff : ℝ := 0
  afterLocal : ℝ := 0
  diffLocal : ℝ := 0
  afterCentr : ℝ := 0
  diffCentr : ℝ := 0

/-- The SNR part of `get_metrics` (d_eval.py 161-218, 286-301): all signals are cut to
`[startIdx:endIdx]`, `bypassVADuse` is hard-coded to `True`. The local and centralised filtered
components are optional. -/
noncomputable def snrMetrics (clean noise filtS filtN : List ℝ) (local' centr : Option (List ℝ × List ℝ))
    (vad : List Bool) (startIdx : Int) (endIdx : Option Int) : SnrMetric :=
  let e := endIdx.getD clean.length
  let cut {α : Type} (x : List α) := pySlice x startIdx e
  let before := getSnr (cut clean) (cut noise) (some (cut vad)) true
  let after := getSnr (cut filtS) (cut filtN) (some (cut vad)) true
  let m : SnrMetric := { before := before, after := after, diff := after - before }
  let m := match centr with
    | some (s, n) => { m with afterCentr := getSnr (cut s) (cut n) (some (cut vad)) true }
    | none => m
  match local' with
    | some (s, n) => { m with afterLocal := getSnr (cut s) (cut n) (some (cut vad)) true }
    | none => m

/-- The SNR of one chunk in `get_dynamic_metric` (d_eval.py 425-427):
`get_snr(noisy[i0:i1], VAD[i0:i1])`: the voice-activity flags are passed as the noise signal. -/
noncomputable def dynSnr (noisy : List ℝ) (vad : List Bool) (i0 i1 : Int) : ℝ :=
  getSnr (pySlice noisy i0 i1) ((pySlice vad i0 i1).map fun b => if b then 1 else 0) none false

end Danse
