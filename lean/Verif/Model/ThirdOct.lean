import Mathlib.Analysis.SpecialFunctions.Pow.Real
import Mathlib.Algebra.BigOperators.Intervals

/-!
# Model of the one-third octave bands of STOI

`thirdoct` (danse_toolbox/mypystoi/utils.py 52-83) with the constants of `stoi.py` (7-12), and the product with a power
spectrum (`stoi.py` 77). Exact reals.
-/

namespace Danse

noncomputable section

/-- `np.argmin` of `g 0, …, g n`: the first index of the least value. -/
def argminUpTo (g : ℕ → ℝ) : ℕ → ℕ
  | 0 => 0
  | n + 1 => if g (n + 1) < g (argminUpTo g n) then n + 1 else argminUpTo g n

/-- `np.linspace(0, fs, nfft + 1)[j]` (utils.py 63). -/
def octBin (fs : ℝ) (nfft j : ℕ) : ℝ := j * fs / nfft

/-- `freq_low[k]` (utils.py 67). -/
def octLow (minFreq : ℝ) (k : ℕ) : ℝ := minFreq * (2 : ℝ) ^ ((2 * (k : ℝ) - 1) / 6)

/-- `freq_high[k]` (utils.py 68). -/
def octHigh (minFreq : ℝ) (k : ℕ) : ℝ := minFreq * (2 : ℝ) ^ ((2 * (k : ℝ) + 1) / 6)

/-- `cf[k]` (utils.py 66). -/
def octCentre (minFreq : ℝ) (k : ℕ) : ℝ := ((2 : ℝ) ^ ((1 : ℝ) / 3)) ^ k * minFreq

/-- `np.argmin(np.square(f - e))` with `f = f[:int(nfft/2) + 1]` (utils.py 64, 73, 76). -/
def octNearest (fs : ℝ) (nfft : ℕ) (e : ℝ) : ℕ := argminUpTo (fun j => (octBin fs nfft j - e) ^ 2) (nfft / 2)

/-- `thirdoct` (utils.py 52-83): the band matrix and the centre frequencies. (`freq_low[i]`, `freq_high[i]` are overwritten after their
last use.) -/
def thirdoct (fs : ℝ) (nfft numBands : ℕ) (minFreq : ℝ) : List (List ℝ) × List ℝ :=
  ((List.range numBands).map fun k => (List.range (nfft / 2 + 1)).map fun j =>
      if octNearest fs nfft (octLow minFreq k) ≤ j ∧ j < octNearest fs nfft (octHigh minFreq k) then 1 else 0,
    (List.range numBands).map (octCentre minFreq))

/-- `np.matmul(OBM, p)` for one frame (stoi.py 77). -/
def octEnergies (obm : List (List ℝ)) (p : List ℝ) : List ℝ := obm.map fun row => (List.zipWith (· * ·) row p).sum

/-- `OBM, CF` (stoi.py 7-12). -/
def stoiBands : List (List ℝ) × List ℝ := thirdoct 10000 512 15 150

end

end Danse
