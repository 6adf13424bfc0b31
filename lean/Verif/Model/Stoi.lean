import Verif.Model.Py
import Mathlib.Analysis.SpecialFunctions.Log.Base
import Mathlib.Analysis.SpecialFunctions.Trigonometric.Basic
import Mathlib.Analysis.SpecialFunctions.Complex.Log

/-!
# Short-time objective intelligibility

`danse_toolbox/mypystoi/stoi.py` (`stoi_any_fs`, 120-239) and `danse_toolbox/mypystoi/utils.py`.

Signals are lists of exact reals. Parameters: the resampler (`resampy.resample`), the bins of the
one-third octave bands (`thirdoct`, utils.py 54-83: each row of the band matrix is 1 on some bins and 0
elsewhere), the machine precision `EPS`, and the random numbers drawn by `row_col_normalize`.
-/

namespace Danse

/-- `range(0, length - win, hop)` (utils.py 98-99, 120-123). -/
def frameStarts (length win hop : Nat) : List Nat :=
  (List.range ((length - win + hop - 1) / hop)).map (· * hop)

/-- `np.hanning(win + 2)[1:-1]` (utils.py 97, 117). -/
noncomputable def hannAt (win t : Nat) : ℝ := 0.5 - 0.5 * Real.cos (2 * Real.pi * (t + 1) / (win + 1))

/-- One windowed frame (utils.py 98, 120-123). -/
noncomputable def hannFrame (win : Nat) (x : List ℝ) (i : Nat) : List ℝ :=
  (List.range win).map fun t => hannAt win t * x.getD (i + t) 0

/-- `np.linalg.norm` of a vector. -/
noncomputable def l2norm (f : List ℝ) : ℝ := Real.sqrt (f.map fun a => a ^ 2).sum

open Classical in
/-- The starts of the frames that are kept (utils.py 120-136): those whose energy in dB is above the
largest one minus `dyn`. Without any frame `np.linalg.norm(..., axis=1)` raises (`AxisError`, a
`ValueError`). -/
noncomputable def keptStarts (eps dyn : ℝ) (win hop : Nat) (x : List ℝ) : Except PyErr (List Nat) :=
  let st := frameStarts x.length win hop
  let e := fun i => 20 * Real.logb 10 (l2norm (hannFrame win x i) + eps)
  match (st.map e).max? with
  | none => .error .valueError
  | some m => .ok (st.filter fun i => decide (m - dyn - e i < 0))

/-- Overlap-add of frames (utils.py 139-146). -/
def olaFrames (win hop : Nat) (fr : List (List ℝ)) : List ℝ :=
  (List.range ((fr.length - 1) * hop + win)).map fun s =>
    (fr.zipIdx.map fun (f, i) => if i * hop ≤ s ∧ s < i * hop + win then f.getD (s - i * hop) 0 else 0).sum

/-- `remove_silent_frames` (utils.py 104-148). -/
noncomputable def removeSilent (eps dyn : ℝ) (win hop : Nat) (x y : List ℝ) :
    Except PyErr (List ℝ × List ℝ) := do
  let st ← keptStarts eps dyn win hop x
  .ok (olaFrames win hop (st.map (hannFrame win x)), olaFrames win hop (st.map (hannFrame win y)))

/-- Bin `f` of `np.fft.rfft(frame, n=nfft)` (utils.py 98). -/
noncomputable def rfftBin (nfft : Nat) (frame : List ℝ) (f : Nat) : ℂ :=
  ((List.range frame.length).map fun (t : Nat) =>
    ((frame.getD t 0 : ℝ) : ℂ) * Complex.exp (-2 * Real.pi * Complex.I * f * t / nfft)).sum

/-- Amplitude in one band of one frame: `sqrt(OBM @ |X|^2)` (stoi.py 197-198). -/
noncomputable def bandAmp (nfft win : Nat) (bins : List Nat) (x : List ℝ) (i : Nat) : ℝ :=
  Real.sqrt (bins.map fun f => ‖rfftBin nfft (hannFrame win x i) f‖ ^ 2).sum

/-- A segment: bands by frames. -/
abbrev Seg (J N : Nat) := Fin J → Fin N → ℝ

/-- `x_segments` (stoi.py 201-204) for the frames of the STFT. -/
noncomputable def segmentsOf {J : Nat} (N nfft win hop : Nat) (bands : Fin J → List Nat) (x : List ℝ) :
    List (Seg J N) :=
  let st := frameStarts x.length win hop
  (List.range (st.length + 1 - N)).map fun s j m => bandAmp nfft win (bands j) x (st.getD (s + m) 0)

open Classical in
/-- Mean and norm normalisation along the rows (utils.py 157-163); `r` are the random numbers. A row of
zeros gives NaN. -/
noncomputable def rowNormalize {J N : Nat} (eps : ℝ) (r : Seg J N) (x : Seg J N) :
    Except PyErr (Seg J N) :=
  let a : Seg J N := fun j m => x j m + eps * r j m
  let b : Seg J N := fun j m => a j m - (∑ i, a j i) / N
  if ∃ j, ∑ m, b j m ^ 2 = 0 then .error .nan
  else .ok fun j m => 1 / Real.sqrt (∑ i, b j i ^ 2) * b j m

/-- `row_col_normalize` (utils.py 155-171): rows, then columns. -/
noncomputable def rowColNormalize {J N : Nat} (eps : ℝ) (r1 r2 : Seg J N) (x : Seg J N) :
    Except PyErr (Seg J N) := do
  let a ← rowNormalize eps r1 x
  let b ← rowNormalize eps (fun m j => r2 j m) (fun m j => a j m)
  .ok fun j m => b m j

/-- One segment of plain STOI (stoi.py 212-236): the sum of the correlations of its bands. -/
noncomputable def plainSegment {J N : Nat} (eps clip : ℝ) (x y : Seg J N) : ℝ :=
  ∑ j, (
    let nx := Real.sqrt (∑ m, x j m ^ 2)
    let ny := Real.sqrt (∑ m, y j m ^ 2)
    let yp := fun m => min (y j m * (nx / (ny + eps))) (x j m * (1 + clip))
    let yc := fun m => yp m - (∑ i, yp i) / N
    let xc := fun m => x j m - (∑ i, x j i) / N
    ∑ m, yc m / (Real.sqrt (∑ i, yc i ^ 2) + eps) * (xc m / (Real.sqrt (∑ i, xc i ^ 2) + eps)))

/-- The settings of a call: sampling rate, extended or not, and the parameters listed above. The random
numbers of the two calls of `row_col_normalize` are given per segment. -/
structure StoiCfg where
  eps : ℝ
  sameRate : Bool
  resample : List ℝ → List ℝ
  bands : Fin 15 → List Nat
  extended : Bool
  noiseX : Nat → Seg 15 30 × Seg 15 30
  noiseY : Nat → Seg 15 30 × Seg 15 30

/-- Normalised segments, one after the other. -/
noncomputable def normSegments {J N : Nat} (eps : ℝ) (noise : Nat → Seg J N × Seg J N)
    (l : List (Seg J N)) : Except PyErr (List (Seg J N)) :=
  l.zipIdx.mapM fun (s, i) => rowColNormalize eps (noise i).1 (noise i).2 s

/-- `stoi_any_fs` (stoi.py 120-239) for one-dimensional signals. A difference of lengths raises an
`Exception` (here `valueError`). -/
noncomputable def stoiAnyFs (c : StoiCfg) (x y : List ℝ) : Except PyErr ℝ :=
  if x.length ≠ y.length then .error .valueError
  else do
    let x1 := if c.sameRate then x else c.resample x
    let y1 := if c.sameRate then y else c.resample y
    let (xs, ys) ← removeSilent c.eps 40 256 128 x1 y1
    if (frameStarts xs.length 256 128).length < 30 then .ok 1e-5
    else do
      let xg := segmentsOf 30 512 256 128 c.bands xs
      let yg := segmentsOf 30 512 256 128 c.bands ys
      if c.extended then do
        let xn ← normSegments c.eps c.noiseX xg
        let yn ← normSegments c.eps c.noiseY yg
        .ok (((xn.zip yn).map fun (a, b) => ∑ j, ∑ m, a j m * b j m / 30).sum / xn.length)
      else
        .ok (((xg.zip yg).map fun (a, b) => plainSegment c.eps (10 ^ ((15 : ℝ) / 20)) a b).sum /
          (xg.length * 15))

end Danse
