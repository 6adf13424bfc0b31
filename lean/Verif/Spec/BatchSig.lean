import Verif.Model.BatchSig
import Verif.Spec.Vad
import Verif.Spec.Batch

/-! # Specification of the signal path of batch mode -/

namespace Danse
open Matrix

noncomputable section

/-- Spectrum of the windowed frame `t` (samples `t * Ns … t * Ns + N - 1`) of a signal, bin `f`. -/
def winSpectrum (win : List ℝ) (Ns : Nat) (x : Nat → ℝ) (t f : Nat) : ℂ :=
  ∑ n ∈ Finset.range win.length, ((win.getD n 0 * x (t * Ns + n) : ℝ) : ℂ) *
    Complex.exp (-2 * Real.pi * Complex.I * f * n / win.length)

/-- The frames (of the first `T`) that contain sample `n`. -/
def hits (N Ns T n : Nat) : Finset Nat :=
  (Finset.range T).filter fun t => t * Ns ≤ n ∧ n < t * Ns + N

/-- Sum of the squared window values at sample `n`. -/
def olaNorm (win : List ℝ) (Ns T n : Nat) : ℝ :=
  ∑ t ∈ hits win.length Ns T n, win.getD (n - t * Ns) 0 ^ 2

/-- Sample `n` of the signal made of `T` frames with spectra `X t`: the weighted mean of what the
frames that contain the sample say about it. -/
def olaSample (win : List ℝ) (Ns T : Nat) (X : Nat → Nat → ℂ) (n : Nat) : ℝ :=
  (∑ t ∈ hits win.length Ns T n, irfft win.length (X t) (n - t * Ns) * win.getD (n - t * Ns) 0) /
    (if olaNorm win Ns T n > 1e-10 then olaNorm win Ns T n else 1)

variable {K : Nat} {S : Fin K → Type} [∀ k, Fintype (S k)] [∀ k, DecidableEq (S k)]

/-- The observation of all sensors in complete frame `t` and bin `f`. -/
def SigData.obs (c : SigData S) (t f : Nat) : NetCh S → ℂ := fun a => winSpectrum c.win c.Ns (c.y a) t f

/-- The signal with zeros after sample `L`. -/
def zeroExt (L : Nat) (x : Nat → ℝ) : Nat → ℝ := fun n => if n < L then x n else 0

/-- All frames of bin `f`: the complete ones and, if samples are left over, one more that is filled up
with zeros. -/
def SigData.allFrames (c : SigData S) (f : Nat) : List (NetCh S → ℂ) :=
  (List.range (numComplete c.len c.N c.Ns + if c.Ns ∣ c.len - c.N then 0 else 1)).map
    fun (t : Nat) a => winSpectrum c.win c.Ns (zeroExt c.len (c.y a)) t f

/-- The batch problem that is solved in bin `f`. -/
def SigBatch.problem (c : SigBatch S) (f : Nat) : BatchCfg S where
  frames := c.allFrames f
  vad := c.vad
  upd := c.upd
  ext := c.ext
  nodeUpdating := c.nodeUpdating

/-- The batch problem that TI-DANSE solves in bin `f`. -/
def TiSigBatch.problem (c : TiSigBatch S) (f : Nat) : TiBatchCfg S where
  frames := c.allFrames f
  vad := c.vad
  upd := c.upd
  ext := c.ext
  seq := c.seq
  sim := c.sim

/-- Sensible settings: a window with positive sum, an overlap, recordings of at least one frame. -/
structure SigData.Ok (c : SigData S) : Prop where
  sum : 0 < c.win.sum
  shift : 0 < c.Ns
  overlap : c.Ns ≤ c.N
  long : c.N ≤ c.len

/-- Number of complete frames in the recordings. -/
def SigData.complete (c : SigData S) : Nat := numComplete c.len c.N c.Ns

/-- The signal `x` is that of `len` samples made of the complete frames with the spectra `X`, followed
by zeros where there is no complete frame. -/
def SigData.Made (c : SigData S) (X : Nat → Nat → ℂ) (x : List ℝ) : Prop :=
  x.length = c.len ∧ ∀ n < c.len, x[n]? = some (olaSample c.win c.Ns c.complete X n)

end
end Danse
