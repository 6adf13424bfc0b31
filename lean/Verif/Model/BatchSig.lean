import Verif.Model.Batch
import Verif.Model.BatchTI
import Verif.Model.Stoi

/-!
# From recordings to enhanced signals in batch mode

The signal path around the per-bin models of `Model/Batch.lean` and `Model/BatchTI.lean`: the
short-time Fourier transform of the recordings (`get_stft`, d_base.py 2284-2338, a loop over the
channels around `scipy.signal.stft` with `boundary=None`), the frames that enter the estimates, the
inverse transform (`get_istft`, d_base.py 2341-2364, `scipy.signal.istft`), the costs, and the "best
possible performance" run (d_core.py 602-627, d_classes.py 378-476, d_batch.py 80-114).

Numbers are exact. In particular the overlap `int((1 - Ns / N) * N)` is `N - Ns`. A window whose sum
is zero gives NaN in the code; see the hypotheses of the theorems. All nodes have recordings of the
same length (others fail when the arrays are concatenated), and an array of `len` samples is a
function on sample indices of which only the first `len` values are read.
-/

namespace Danse
open Matrix

noncomputable section

/-- Number of zeros that `scipy.signal.stft` appends (`padded=True`). -/
def stftPad (L N Ns : Nat) : Nat := ((-((L : Int) - N)) % Ns % N).toNat

/-- Number of frames (`_fft_helper` of SciPy), given that the overlap is `N - Ns`. -/
def stftCount (L N Ns : Nat) : Nat := (L + stftPad L N Ns + Ns - N) / Ns

/-- Sum of the window. -/
def winSum (win : List ℝ) : ℝ := win.sum

/-- Factor that SciPy applies (`scaling='spectrum'`: `sqrt(1 / sum(win)**2)`), times the compensation
of d_classes.py 447 and 929. -/
def stftScale (win : List ℝ) : ℝ := Real.sqrt (1 / winSum win ^ 2) * winSum win

/-- `get_stft` of one channel, frame by frame, each frame a function of the bin (d_base.py 2284-2338;
the `N / 2 + 1` bins are read). SciPy rejects a signal shorter than the window, and an overlap not
smaller than the window. -/
def stft (win : List ℝ) (Ns L : Nat) (x : Nat → ℝ) : Except PyErr (List (Nat → ℂ)) :=
  let N := win.length
  if L < N then .error .valueError
  else if Ns = 0 then .error .valueError
  else .ok ((List.range (stftCount L N Ns)).map fun (t : Nat) (f : Nat) =>
    (stftScale win : ℂ) * rfftBin N ((List.range N).map fun (n : Nat) =>
      win.getD n 0 * if t * Ns + n < L then x (t * Ns + n) else 0) f)

/-- Sample `t` of `irfft(X, n=N)`: the spectrum is extended to a conjugate-symmetric one; the imaginary
parts of the bin 0 (and of bin `N/2` for an even `N`) are ignored. -/
def irfft (N : Nat) (X : Nat → ℂ) (t : Nat) : ℝ :=
  (∑ k ∈ Finset.range N, ((if 2 * k ≤ N then X k else star (X (N - k))) *
    Complex.exp (2 * Real.pi * Complex.I / N) ^ (k * t)).re) / N

/-- `scipy.signal.istft` without boundary (through `get_istft`, d_base.py 2341-2364): every frame is
transformed back, multiplied by the sum of the window and by the window, and added to the output at
its position; the result is divided by the sum of the squared windows, where that exceeds `1e-10`. -/
def istft (win : List ℝ) (Ns : Nat) (fr : List (Nat → ℂ)) : List ℝ :=
  let N := win.length
  (List.range (N + (fr.length - 1) * Ns)).map fun (n : Nat) =>
    let hit (t : Nat) : Bool := decide (t * Ns ≤ n) && decide (n < t * Ns + N)
    let num : ℝ := ∑ t ∈ Finset.range fr.length, if hit t then
      irfft N (fr.getD t 0) (n - t * Ns) * winSum win * win.getD (n - t * Ns) 0 else 0
    let nrm : ℝ := ∑ t ∈ Finset.range fr.length, if hit t then win.getD (n - t * Ns) 0 ^ 2 else 0
    num / (if nrm > 1e-10 then nrm else 1)

/-- `nIter` (d_classes.py 389, 492), for recordings that are not shorter than the window. -/
def numIter (L N Ns : Nat) : Nat := (L - N) / Ns + 1

/-- Assignment of the estimated frames to `dhat[:, :, k]`, which has `nIter` frames (d_batch.py 43,
62, 133): NumPy repeats a single frame and rejects any other number. -/
def assignFrames (nIter : Nat) (rows : List (Nat → ℂ)) : Except PyErr (List (Nat → ℂ)) :=
  if rows.length = nIter then .ok rows
  else if rows.length = 1 then .ok (List.replicate nIter (rows.getD 0 0))
  else .error .valueError

/-- `BatchDANSEvariables.get_istft` and the division by the sum of the window (d_batch.py 144-179,
139-140): zeros are appended up to the length of the recordings. -/
def batchOut (win : List ℝ) (Ns L : Nat) (fr : List (Nat → ℂ)) : List ℝ :=
  let x := istft win Ns fr
  (if x.length < L then x ++ List.replicate (L - x.length) 0 else x).map (· / winSum win)

variable {K : Nat} {S : Fin K → Type} [∀ k, Fintype (S k)] [∀ k, DecidableEq (S k)]

/-- Recordings of all sensors and the settings of the transform. -/
structure SigData {K : Nat} (S : Fin K → Type) where
  /-- `winWOLAanalysis` -/
  win : List ℝ
  Ns : Nat
  /-- number of samples of all recordings -/
  len : Nat
  /-- `yin`, sensor by sensor -/
  y : NetCh S → Nat → ℝ

/-- DFT size. -/
def SigData.N (c : SigData S) : Nat := c.win.length

/-- Number of bins (`nPosFreqs`, d_classes.py 386, 490). -/
def SigData.F (c : SigData S) : Nat := c.N / 2 + 1

/-- Number of frames of the transform. -/
def SigData.T (c : SigData S) : Nat := stftCount c.len c.N c.Ns

/-- `nIter` and `yinSTFT`, all channels (d_classes.py 389, 437-451, 492, 918-935). An error in any
channel is an error in all, since it only depends on the lengths. A zero `Ns` already fails in
`nIter`. -/
def SigData.transform (c : SigData S) : Except PyErr (NetCh S → List (Nat → ℂ)) :=
  if c.Ns = 0 then .error .zeroDivisionError
  else if c.len < c.N then .error .valueError
  else .ok fun a => match stft c.win c.Ns c.len (c.y a) with | .ok X => X | .error _ => []

/-- The observations of one bin, frame by frame, all sensors. -/
def SigData.binFrames (c : SigData S) (X : NetCh S → List (Nat → ℂ)) (f : Nat) :
    List (NetCh S → ℂ) :=
  (List.range c.T).map fun (t : Nat) a => (X a).getD t 0 f

/-- What `batch_estimate` does with the estimates of all bins (d_batch.py 128-142): `d f` are the
estimates of bin `f`, for all frames but the last. -/
def SigData.estimate (c : SigData S) (d : Nat → List ℂ) : Except PyErr (List ℝ) := do
  let fr ← assignFrames (numIter c.len c.N c.Ns)
    ((List.range (c.T - 1)).map fun (t : Nat) (f : Nat) => (d f).getD t 0)
  return batchOut c.win c.Ns c.len fr

/-- Recordings and settings of a batch run of fully connected DANSE. -/
structure SigBatch {K : Nat} (S : Fin K → Type) extends SigData S where
  /-- `oVADframes` -/
  vad : Fin K → List Bool
  /-- filter update of node `k` -/
  upd : ∀ k, Matrix (ObsCh S k) (ObsCh S k) ℂ → Matrix (ObsCh S k) (ObsCh S k) ℂ →
    Except PyErr (ObsCh S k → ℂ)
  /-- centralised filter update with the reference sensor of node `k` -/
  updC : Fin K → Matrix (NetCh S) (NetCh S) ℂ → Matrix (NetCh S) (NetCh S) ℂ →
    Except PyErr (NetCh S → ℂ)
  ext : ∀ k, ExtCfg (S k → ℂ) ℂ ℝ
  nodeUpdating : String

/-- The batch problem of bin `f`. -/
def SigBatch.bin (c : SigBatch S) (X : NetCh S → List (Nat → ℂ)) (f : Nat) : BatchCfg S where
  frames := c.binFrames X f
  vad := c.vad
  upd := c.upd
  ext := c.ext
  nodeUpdating := c.nodeUpdating

/-- The enhanced signals of `danse_batch` (d_core.py 286-330 with d_batch.py 128-142): all bins are
processed, node by node the estimated frames are stored and transformed back. The output is that of
the last batch update; without any, it is the initial zero signal. Which of several exceptions of
one run comes first is not modelled. -/
def SigBatch.run (c : SigBatch S) (st0 : Nat → BatchSt S) (B : Nat) :
    Except PyErr (Fin K → List ℝ) := do
  let X ← c.transform
  let sts ← (List.range c.F).mapM fun f => batchRun (c.bin X f) (st0 f) B
  if B = 0 ∨ (c.nodeUpdating ≠ "seq" ∧ c.nodeUpdating ≠ "sim" ∧ c.nodeUpdating ≠ "asy") then
    return fun _ => List.replicate c.len 0
  else
    let out ← (List.finRange K).mapM fun k =>
      c.estimate fun f => (sts[f]?.map fun st => st.dhat k).getD []
    return fun k => out.getD k.val []

/-- The centralised signals of batch mode (d_batch.py 35-52). -/
def SigBatch.centr (c : SigBatch S) : Except PyErr (Fin K → List ℝ) := do
  let X ← c.transform
  let out ← (List.finRange K).mapM fun k => do
    let ds ← (List.range c.F).mapM fun f => batchCentr (c.bin X f) (c.updC k)
    c.estimate fun f => (ds[f]?.map fun r => r.2).getD []
  return fun k => out.getD k.val []

/-- Recordings and settings of a batch run of TI-DANSE. -/
structure TiSigBatch {K : Nat} (S : Fin K → Type) extends SigData S where
  vad : Fin K → List Bool
  upd : ∀ k, Matrix (TiCh S k) (TiCh S k) ℂ → Matrix (TiCh S k) (TiCh S k) ℂ →
    Except PyErr (TiCh S k → ℂ)
  ext : ∀ k, ExtCfg (TiCh S k → ℂ) ℂ ℝ
  seq : Bool
  sim : Bool

/-- The batch problem of bin `f`. -/
def TiSigBatch.bin (c : TiSigBatch S) (X : NetCh S → List (Nat → ℂ)) (f : Nat) : TiBatchCfg S where
  frames := c.binFrames X f
  vad := c.vad
  upd := c.upd
  ext := c.ext
  seq := c.seq
  sim := c.sim

/-- The enhanced signals of `tidanse_batch` (d_core.py 388-435), as `SigBatch.run`. -/
def TiSigBatch.run (c : TiSigBatch S) (st0 : Nat → TiBatchSt S) (B : Nat) :
    Except PyErr (Fin K → List ℝ) := do
  let X ← c.transform
  let sts ← (List.range c.F).mapM fun f => tiBatchRun (c.bin X f) (st0 f) B
  if B = 0 ∨ (c.seq = false ∧ c.sim = false) then
    return fun _ => List.replicate c.len 0
  else
    let out ← (List.finRange K).mapM fun k =>
      c.estimate fun f => (sts[f]?.map fun st => st.dhat k).getD []
    return fun k => out.getD k.val []

/-- Frames that `get_centralized_estimates` uses (d_batch.py 101-105): all of them if there are
`nIter`, all but the last if there is one more; otherwise `indicesFrame` is unbound. -/
def bestFrames (nIter T : Nat) : Except PyErr Nat :=
  if T = nIter then .ok T
  else if T = nIter + 1 then .ok (T - 1)
  else .error .unboundLocalError

/-- Filter of node `k` in bin `f` (d_batch.py 91-101): given, or computed from the covariance matrices of
the bin. -/
def SigBatch.bestFilter (c : SigBatch S) (given : Option (Nat → Fin K → NetCh S → ℂ))
    (covs : List (Cov Unit (NetCh S) ℂ × Cov Unit (NetCh S) ℂ)) (k : Fin K) (f : Nat) :
    Except PyErr (NetCh S → ℂ) :=
  match given with
  | some w => .ok (w f k)
  | none => match covs[f]? with
    | some r => c.updC k (r.1 ()) (r.2 ())
    | none => .ok 0

/-- `get_best_perf` (d_core.py 602-627): initialisation (d_classes.py 378-476, the covariance matrices
are computed even when filters are given) and `get_centralized_estimates` (d_batch.py 80-114).
`given f k` are the filters passed as `wCentr`. Returns the filters and the signals of all nodes. -/
def SigBatch.best (c : SigBatch S) (given : Option (Nat → Fin K → NetCh S → ℂ)) :
    Except PyErr ((Nat → Fin K → NetCh S → ℂ) × (Fin K → List ℝ)) := do
  let X ← c.transform
  let covs ← (List.range c.F).mapM fun f =>
    covBatch (F := Unit) ((c.bin X f).frames.map fun y _ => y) (centrVad c.vad)
  let ws ← (List.finRange K).mapM fun k => (List.range c.F).mapM (c.bestFilter given covs k)
  let w : Nat → Fin K → NetCh S → ℂ := fun f k => (ws.getD k.val []).getD f 0
  let used ← bestFrames (numIter c.len c.N c.Ns) c.T
  let out := fun k => batchOut c.win c.Ns c.len ((List.range used).map fun (t : Nat) (f : Nat) =>
    star (w f k) ⬝ᵥ fun a => (X a).getD t 0 f)
  return (w, out)

/-- Mean of a list; `none` stands for the NaN of an empty one. -/
def meanOpt (l : List ℝ) : Option ℝ := if l = [] then none else some (l.sum / l.length)

/-- `mmseCostInit`, `mmseCostLocal`, `mmseCostCentr` (d_batch.py 14-17, 70-78, 110-114): over all
samples. -/
def costWhole (target d : List ℝ) : Option ℝ :=
  meanOpt (List.zipWith (fun a b => |a - b| ^ 2) target d)

/-- `get_mmse_cost` (d_batch.py 181-199) with the number of samples left out at either end as a
parameter (at least 1). -/
def costTruncAt (m : Nat) (target d : List ℝ) : Option ℝ :=
  costWhole (pySlice target m (-m)) (pySlice d m (-m))

/-- `get_mmse_cost`: the first and last 1000 samples are left out. -/
def costTrunc (target d : List ℝ) : Option ℝ := costTruncAt 1000 target d

end
end Danse
