import Verif.Model.ThirdOct

/-!
# Specification: one-third octave bands
-/

namespace Danse

noncomputable section

/-- The edges of the bands: a sixth of an octave below the lowest centre frequency, then every third of an octave. -/
def bandEdge (minFreq : ℝ) (k : ℕ) : ℝ := minFreq * (2 : ℝ) ^ (-(1 : ℝ) / 6) * (2 : ℝ) ^ ((k : ℝ) / 3)

/-- `b` is the bin, of those up to `nfft / 2`, whose frequency is nearest to `e` (the lower one of two). -/
structure NearestBin (fs : ℝ) (nfft : ℕ) (e : ℝ) (b : ℕ) : Prop where
  le : b ≤ nfft / 2
  near : ∀ j ≤ nfft / 2, |b * fs / nfft - e| ≤ |j * fs / nfft - e|
  first : ∀ j < b, |b * fs / nfft - e| < |j * fs / nfft - e|

end

end Danse
