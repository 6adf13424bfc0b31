import Verif.Model.Metrics
import Mathlib.Analysis.SpecialFunctions.Pow.Real

/-!
# Speech-intelligibility-weighted SNR

`get_sisnr` (danse_toolbox/d_eval.py 484-537). The design of the band-pass filter (`scipy.signal.butter`) is
a parameter; its check of the band edges and the filtering (`scipy.signal.sosfilt`) are modelled. Real
numbers instead of floats.
-/

namespace Danse

/-- A second-order section (`a0 = 1`). -/
structure Sos where
  b0 : ℝ
  b1 : ℝ
  b2 : ℝ
  a1 : ℝ
  a2 : ℝ

/-- One section of `scipy.signal.sosfilt` (direct form II transposed) with state `(z0, z1)`. -/
noncomputable def sosSection (q : Sos) : ℝ → ℝ → List ℝ → List ℝ
  | _, _, [] => []
  | z0, z1, x :: r =>
    let y := q.b0 * x + z0
    y :: sosSection q (q.b1 * x - q.a1 * y + z1) (q.b2 * x - q.a2 * y) r

/-- `scipy.signal.sosfilt(sos, x)`, from rest. -/
noncomputable def sosFilt (sos : List Sos) (x : List ℝ) : List ℝ :=
  sos.foldl (fun y q => sosSection q 0 0 y) x

/-- Speech-intelligibility indices, in units of 1e-4, with the centre frequencies of the bands (d_eval.py
508-513). -/
def siBands : List (Nat × Nat) :=
  [(83, 160), (95, 200), (150, 250), (289, 315), (440, 400), (578, 500), (653, 630), (711, 800), (818, 1000),
    (844, 1250), (882, 1600), (898, 2000), (868, 2500), (844, 3150), (771, 4000), (527, 5000), (364, 6300),
    (185, 8000)]

/-- `Wn` (d_eval.py 518-521). -/
noncomputable def siEdges (fs fc : ℝ) : ℝ × ℝ :=
  (1 / fs * (fc * 2 ^ (-(1 / 6) : ℝ)), 1 / fs * (fc * 2 ^ (1 / 6 : ℝ)))

/-- `sig.butter(10, Wn, btype='bandpass', output='sos', fs=2*np.pi)` (d_eval.py 522-524): `ValueError` unless
both edges lie strictly between 0 and half of `fs`. `design` gives the filter for edges as
fractions of half the sampling frequency. -/
noncomputable def butterBand (design : ℝ → ℝ → List Sos) (Wn : ℝ × ℝ) (fs : ℝ) :
    Except PyErr (List Sos) :=
  open Classical in
  if 0 < Wn.1 ∧ Wn.1 < fs / 2 ∧ 0 < Wn.2 ∧ Wn.2 < fs / 2 then .ok (design (Wn.1 / (fs / 2)) (Wn.2 / (fs / 2)))
  else .error .valueError

/-- The contribution of one band (d_eval.py 515-535). -/
noncomputable def siBandTerm (design : ℝ → ℝ → List Sos) (s n : List ℝ) (vad : Option (List Bool)) (fs : ℝ)
    (bypass : Bool) (b : Nat × Nat) : Except PyErr ℝ := do
  let sos ← butterBand design (siEdges fs b.2) (2 * Real.pi)
  .ok (b.1 / 10000 * getSnr (sosFilt sos s) (sosFilt sos n) vad bypass)

/-- `get_sisnr` (d_eval.py 484-537), one channel. -/
noncomputable def getSisnr (design : ℝ → ℝ → List Sos) (s n : List ℝ) (vad : Option (List Bool)) (fs : ℝ)
    (bypass : Bool) : Except PyErr ℝ :=
  siBands.foldlM (fun acc b => do
    let t ← siBandTerm design s n vad fs bypass b
    .ok (acc + t)) 0

end Danse
