import Verif.Model.FwSnr

/-! # Specification vocabulary for the frequency-weighted segmental SNR -/

namespace Danse

/-- Layout of the analysis: sampling frequency, samples per frame, samples between frames, size of the
transform. -/
structure FwCfg where
  fs : ℚ
  win : Nat
  skip : Nat
  nfft : Nat

/-- Magnitude of the spectrum of frame `t` of `x` at bin `f`: samples `t·skip` to `t·skip + win - 1`, Hann
window. -/
noncomputable def FwCfg.mag (c : FwCfg) (x : Nat → ℝ) (t f : Nat) : ℝ :=
  ‖∑ n ∈ Finset.range c.win, (((1 - Real.cos (2 * Real.pi * (n + 1) / (c.win + 1))) / 2 * x (t * c.skip + n) : ℝ) : ℂ) *
    Complex.exp (-2 * Real.pi * Complex.I * f * n / c.nfft)‖

/-- Its sum over all bins but the last. -/
noncomputable def FwCfg.total (c : FwCfg) (x : Nat → ℝ) (t : Nat) : ℝ :=
  ∑ f ∈ Finset.range (c.nfft / 2), c.mag x t f

/-- Weight of bin `f` in a critical band with centre `fc` and width `w` Hz: `70/w` at the centre, Gaussian,
cut at -30 dB. -/
noncomputable def FwCfg.weight (c : FwCfg) (fc w : ℚ) (f : Nat) : ℝ :=
  let v := 70 / (w : ℝ) * Real.exp (-11 * (((f : ℝ) - ⌊fc * c.nfft / c.fs⌋) / ((w * c.nfft / c.fs : ℚ) : ℝ)) ^ 2)
  open Classical in if Real.exp (-30 / 4.606) < v then v else 0

/-- Share of the critical band in the spectrum of the frame. -/
noncomputable def FwCfg.energy (c : FwCfg) (x : Nat → ℝ) (t : Nat) (b : Nat × Nat) : ℝ :=
  (∑ f ∈ Finset.range (c.nfft / 2), c.weight (b.1 / 10000) (b.2 / 10000) f * c.mag x t f) / c.total x t

/-- SNR of one critical band in dB: clean share against the change of the share. -/
noncomputable def FwCfg.bandDb (c : FwCfg) (x y : Nat → ℝ) (t : Nat) (b : Nat × Nat) : ℝ :=
  10 * Real.logb 10 (c.energy x t b ^ 2 / max (1 / 2 ^ 52) ((c.energy x t b - c.energy y t b) ^ 2))

/-- The score of a frame: the mean over the bands, weighted by the clean share to the power `gamma`,
limited to 0...35 dB. -/
noncomputable def FwCfg.score (c : FwCfg) (gamma : ℝ) (x y : Nat → ℝ) (t : Nat) : ℝ :=
  min 35 (max 0 ((fwBands.map fun b => c.energy x t b ^ gamma * c.bandDb x y t b).sum /
    (fwBands.map fun b => c.energy x t b ^ gamma).sum))

/-- The layout for a frame duration and overlap: the transform has the smallest power of two of at least two
windows. -/
structure FwCfg.For (c : FwCfg) (fs frameLen overlap : ℚ) : Prop where
  freq : c.fs = fs
  rate : 0 < fs
  win : |(c.win : ℚ) - frameLen * fs| ≤ 1 / 2 ∧ (|(c.win : ℚ) - frameLen * fs| = 1 / 2 → Even c.win)
  skip : (c.skip : Int) = ⌊(1 - overlap) * frameLen * fs⌋
  pos : 0 < c.skip
  le : c.skip ≤ c.win
  nfft : ∃ m, c.nfft = 2 ^ m ∧ 2 * c.win ≤ 2 ^ m ∧ 2 ^ m < 4 * c.win

/-- A signal with the offset that is added to both inputs. -/
noncomputable def offsetSig (x : List ℝ) (n : Nat) : ℝ := (x.getD n 0 + 1 / 2 ^ 52)

end Danse
