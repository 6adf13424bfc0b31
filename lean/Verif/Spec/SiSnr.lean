import Verif.Model.SiSnr

/-! # Specification vocabulary for the speech-intelligibility-weighted SNR -/

namespace Danse

/-- Sample `k` of `x` delayed by `d`: 0 before the start. -/
def sosDelayed (x : List ℝ) (d k : Nat) : ℝ := if d ≤ k then x.getD (k - d) 0 else 0

/-- `y` is the response, from rest, of the second-order filter `q` to `x`. -/
def Responds (q : Sos) (x y : List ℝ) : Prop :=
  y.length = x.length ∧ ∀ k < x.length, y.getD k 0 = q.b0 * sosDelayed x 0 k + q.b1 * sosDelayed x 1 k +
    q.b2 * sosDelayed x 2 k - q.a1 * sosDelayed y 1 k - q.a2 * sosDelayed y 2 k

/-- A signal, sampled at `fs` Hz, in the band from `lo` to `hi` Hz. -/
noncomputable def inBand (design : ℝ → ℝ → List Sos) (fs lo hi : ℝ) (x : List ℝ) : List ℝ :=
  sosFilt (design (lo / (fs / 2)) (hi / (fs / 2))) x

/-- SNR in that band, in dB. -/
noncomputable def bandSnr (design : ℝ → ℝ → List Sos) (fs lo hi : ℝ) (s n : List ℝ) : ℝ :=
  10 * Real.logb 10 (avgPow (inBand design fs lo hi s) / avgPow (inBand design fs lo hi n))

/-- The importance-weighted sum of the SNRs in the bands from `lo fc` to `hi fc` Hz. -/
noncomputable def weightedSnr (design : ℝ → ℝ → List Sos) (fs : ℝ) (lo hi : ℝ → ℝ) (s n : List ℝ) : ℝ :=
  (siBands.map fun b => (b.1 : ℝ) / 10000 * bandSnr design fs (lo b.2) (hi b.2) s n).sum

/-- Edges of a third-octave band. -/
noncomputable def thirdLo (fc : ℝ) : ℝ := fc * 2 ^ (-(1 / 6) : ℝ)
noncomputable def thirdHi (fc : ℝ) : ℝ := fc * 2 ^ (1 / 6 : ℝ)

/-- There is signal in every band. -/
def HeardInBands (design : ℝ → ℝ → List Sos) (fs : ℝ) (lo hi : ℝ → ℝ) (x : List ℝ) : Prop :=
  ∀ b ∈ siBands, avgPow (inBand design fs (lo b.2) (hi b.2) x) ≠ 0

end Danse
