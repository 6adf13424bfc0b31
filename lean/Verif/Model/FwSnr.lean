import Verif.Model.Metrics
import Verif.Model.Stoi
import Mathlib.Analysis.SpecialFunctions.Pow.Real
import Mathlib.Analysis.SpecialFunctions.Exp
import Mathlib.Data.Nat.Log

/-!
# Frequency-weighted segmental SNR

`get_fwsnrseg` (danse_toolbox/d_eval.py 666-767) for one-dimensional signals, with `scipy.signal.stft` from its
definition. Real numbers instead of floats; a NaN score is `none`.
-/

namespace Danse

/-- Python's `round` to an integer: half to even. -/
def pyRoundInt (x : ℚ) : Int :=
  let f := ⌊x⌋
  if x - f < 1 / 2 then f
  else if 1 / 2 < x - f then f + 1
  else if f % 2 = 0 then f else f + 1

/-- Centre frequencies and bandwidths in units of 1/10000 Hz (d_eval.py 697-721). -/
def fwBands : List (Nat × Nat) :=
  [(500000, 700000), (1200000, 700000), (1900000, 700000), (2600000, 700000), (3300000, 700000),
    (4000000, 700000), (4700000, 700000), (5400000, 773724), (6173720, 860056), (7033780, 953398),
    (7987170, 1054110), (9041280, 1162560), (10203800, 1279140), (11483000, 1404230), (12887200, 1538230),
    (14425400, 1681540), (16107000, 1834570), (17941600, 1997760), (19939300, 2171530), (22110800, 2356310),
    (24467100, 2552550), (27019700, 2760720), (29780400, 2981260), (32761700, 3214650), (35976300, 3461360)]

/-- A row of `crit_filter` (d_eval.py 727-741), entry `j`: a bell around bin `⌊f0⌋`, 0 below the -30 dB
point. `half` is `n_fftby2`. -/
noncomputable def critFilter (fs : ℚ) (half : Nat) (b : Nat × Nat) (j : Nat) : ℝ :=
  let fc : ℚ := b.1 / 10000
  let width : ℚ := b.2 / 10000
  let f0 : ℚ := fc / (fs / 2) * half
  let bw : ℚ := width / (fs / 2) * half
  let v := Real.exp (-11 * (((j : ℝ) - (⌊f0⌋ : ℝ)) / (bw : ℝ)) ^ 2 + (Real.log 70 - Real.log (width : ℝ)))
  open Classical in if v > Real.exp (-30 / (2 * (2303 / 1000))) then v else 0

/-- Magnitude of bin `f` of frame `t` (`np.abs(Zxx)`, d_eval.py 749-755): window, zero-padded transform,
scaling by the sum of the window. -/
noncomputable def fwMag (win skip nfft : Nat) (x : List ℝ) (t f : Nat) : ℝ :=
  ‖rfftBin nfft (hannFrame win x (t * skip)) f‖ / ((List.range win).map (hannAt win)).sum

/-- `spec / spec.sum(0)` for one frame (d_eval.py 751-752), without the last bin; `none` for 0/0. -/
noncomputable def fwSpec (win skip nfft : Nat) (x : List ℝ) (t : Nat) : Option (List ℝ) :=
  let m := (List.range (nfft / 2)).map (fwMag win skip nfft x t)
  open Classical in if m.sum = 0 then none else some (m.map (· / m.sum))

/-- Energy in a critical band (`crit_filter.dot(spec)`). -/
noncomputable def critEnergy (fs : ℚ) (half : Nat) (b : Nat × Nat) (spec : List ℝ) : ℝ :=
  (List.zipWith (· * ·) ((List.range half).map (critFilter fs half b)) spec).sum

/-- `error_energy[error_energy<eps]=eps` (d_eval.py 760). -/
noncomputable def atLeast (eps v : ℝ) : ℝ := open Classical in if v < eps then eps else v

/-- The final bounds (d_eval.py 765-766). -/
noncomputable def fwBound (d : ℝ) : ℝ :=
  open Classical in
  let d := if d < 0 then 0 else d
  if d > 35 then 35 else d

/-- The score of one frame from the energies of the bands (d_eval.py 757-766), for `gamma > 0`: a band
without energy gives `0 * (-inf)`, NaN. -/
noncomputable def fwScore (gamma eps : ℝ) (E P : List ℝ) : Option ℝ :=
  open Classical in
  if 0 ∈ E then none
  else
    let S := List.zipWith (fun e p => 10 * Real.logb 10 (e ^ 2 / atLeast eps ((e - p) ^ 2))) E P
    let W := E.map (· ^ gamma)
    some (fwBound ((List.zipWith (· * ·) W S).sum / W.sum))

/-- The score of frame `t`. -/
noncomputable def fwFrame (fs : ℚ) (win skip nfft : Nat) (gamma eps : ℝ) (clean enh : List ℝ) (t : Nat) :
    Option ℝ := do
  let c ← fwSpec win skip nfft clean t
  let e ← fwSpec win skip nfft enh t
  fwScore gamma eps (fwBands.map fun b => critEnergy fs (nfft / 2) b c)
    (fwBands.map fun b => critEnergy fs (nfft / 2) b e)

/-- `np.finfo(np.float64).eps`. -/
noncomputable def fEps : ℝ := 1 / 2 ^ 52

/-- `get_fwsnrseg` (d_eval.py 666-767). The signals are cut to `int(num_frames)*skip + win - skip` samples
first. `scipy.signal.stft` returns empty arrays for an empty signal (then `[:-1, :]` raises), rejects
signals shorter than the window and an overlap that is not less than the window. -/
noncomputable def getFwsnrseg (clean enh : List ℝ) (fs frameLen overlap : ℚ) (gamma : ℝ) :
    Except PyErr (List (Option ℝ)) :=
  if clean.length ≠ enh.length then .error .valueError
  else
    let c := clean.map (· + fEps)
    let e := enh.map (· + fEps)
    let win := pyRoundInt (frameLen * fs)
    let skip := fwSkip overlap frameLen fs
    if skip = 0 then .error .zeroDivisionError
    else
      let nFrames := pyInt ((c.length : ℚ) / skip - (win : ℚ) / skip)
      let stop := nFrames * skip + (win - skip)
      let c' := pySlice c 0 stop
      let e' := pySlice e 0 stop
      if c' = [] then .error .indexError
      else if (c'.length : Int) < win ∨ skip < 0 then .error .valueError
      else
        .ok ((List.range (((c'.length : Int) - (win - skip)) / skip).toNat).map
          (fwFrame fs win.toNat skip.toNat (2 ^ Nat.clog 2 (2 * win.toNat)) gamma fEps c' e'))

end Danse
