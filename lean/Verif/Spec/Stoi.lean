import Verif.Model.Stoi
import Mathlib.Data.Nat.Nth

/-! # Specification vocabulary for the intelligibility score -/

namespace Danse

/-- Norm of the 256 samples from sample `i` on, weighted by a Hann window. -/
noncomputable def frameEnergy (x : List ℝ) (i : Nat) : ℝ :=
  Real.sqrt (∑ t ∈ Finset.range 256,
    ((1 / 2 - 1 / 2 * Real.cos (2 * Real.pi * (t + 1) / 257)) * x.getD (i + t) 0) ^ 2)

/-- Frame `k` (256 samples from sample `128 k` on, with at least one sample after it) is at most 40 dB
below every other frame. -/
def Audible (eps : ℝ) (x : List ℝ) (k : Nat) : Prop :=
  128 * k + 256 < x.length ∧ ∀ k', 128 * k' + 256 < x.length →
    frameEnergy x (128 * k') + eps < 100 * (frameEnergy x (128 * k) + eps)

open Classical in
/-- The audible frames. -/
noncomputable def audible (eps : ℝ) (x : List ℝ) : Finset Nat :=
  (Finset.range x.length).filter (Audible eps x)

/-- The signal as it is compared, at 10 kHz. -/
def StoiCfg.at10k (c : StoiCfg) (x : List ℝ) : List ℝ := if c.sameRate then x else c.resample x

/-- The Hann window of 256 samples. -/
noncomputable def hann256 (t : Nat) : ℝ := 1 / 2 - 1 / 2 * Real.cos (2 * Real.pi * (t + 1) / 257)

/-- Sample `n` of the signal `z` without the frames that are not audible in `x`: the audible frames,
windowed, in order, one every 128 samples, are added up. -/
noncomputable def joined (eps : ℝ) (x z : List ℝ) (n : Nat) : ℝ :=
  ∑ r ∈ Finset.range (audible eps x).card, if 128 * r ≤ n ∧ n < 128 * r + 256 then
    hann256 (n - 128 * r) * z.getD (128 * Nat.nth (Audible eps x) r + (n - 128 * r)) 0 else 0

/-- Level of a signal in a band, given by the bins of a transform of 512 points, in the frame from
sample `128 m` on. -/
noncomputable def bandLevel (bins : List Nat) (z : Nat → ℝ) (m : Nat) : ℝ :=
  Real.sqrt (bins.map fun (f : Nat) => ‖∑ t ∈ Finset.range 256, ((hann256 t * z (128 * m + t) : ℝ) : ℂ) *
    Complex.exp (-2 * Real.pi * Complex.I * f * t / 512)‖ ^ 2).sum

/-- Deviation from the mean. -/
noncomputable def dev {n : Nat} (u : Fin n → ℝ) (m : Fin n) : ℝ := u m - (∑ i, u i) / n

/-- Euclidean norm. -/
noncomputable def vnorm {n : Nat} (u : Fin n → ℝ) : ℝ := Real.sqrt (∑ m, u m ^ 2)

/-- Correlation coefficient of two vectors (with the safeguard `eps` in the norms). -/
noncomputable def corrCoef {n : Nat} (eps : ℝ) (u v : Fin n → ℝ) : ℝ :=
  (∑ m, dev u m * dev v m) / ((vnorm (dev u) + eps) * (vnorm (dev v) + eps))

/-- The levels `v` brought to the norm of the clean levels `u`, and clipped 15 dB above the clean level
(signal-to-distortion ratio of -15 dB). -/
noncomputable def clipped {n : Nat} (eps : ℝ) (u v : Fin n → ℝ) (m : Fin n) : ℝ :=
  min (v m * (vnorm u / (vnorm v + eps))) (u m * (1 + 10 ^ ((3 : ℝ) / 4)))

/-- Zero mean and unit norm. -/
noncomputable def standard {n : Nat} (u : Fin n → ℝ) (m : Fin n) : ℝ := dev u m / vnorm (dev u)

/-- Levels of the bands in the 30 frames from `s` on. -/
noncomputable def StoiCfg.levels (c : StoiCfg) (x z : List ℝ) (s : Nat) (j : Fin 15) (m : Fin 30) : ℝ :=
  bandLevel (c.bands j) (joined c.eps (c.at10k x) (c.at10k z)) (s + m)

/-- Segment with dither, first the bands and then the frames brought to zero mean and unit norm. -/
noncomputable def normedSeg (eps : ℝ) (r : Seg 15 30 × Seg 15 30) (a : Seg 15 30) : Seg 15 30 :=
  let b : Seg 15 30 := fun j => standard fun m => a j m + eps * r.1 j m
  fun j m => standard (fun i => b i m + eps * r.2 i m) j

end Danse
