import Mathlib.Analysis.SpecialFunctions.Complex.Circle
import Mathlib.Data.Rat.Floor
import Verif.Model.Py
import Verif.Model.Dft

/-!
# Model of the online SRO estimator package

Models `dxcpphat/delay_buffer.py`, `dxcpphat/online_resampler.py` and
`dxcpphat/sro_estimation.py`. Indices and accumulated shifts are exact (`ℤ`, `ℚ`), signals are real,
spectra complex; floating-point rounding is not modelled.
-/

namespace Danse

/-! ## `DelayBuffer` (delay_buffer.py 8-27) -/

/-- The ring buffer: `data` has `length` entries (one frame each). -/
structure DelayBuf (α : Type) where
  data : List α
  pointer : Nat

/-- `__init__` (delay_buffer.py 10-16) and `clear` (delay_buffer.py 25-27): `L` zero frames. -/
def DelayBuf.init {α : Type} (zero : α) (L : Nat) : DelayBuf α := ⟨List.replicate L zero, 0⟩

/-- `write` (delay_buffer.py 18-20). -/
def DelayBuf.write {α : Type} (b : DelayBuf α) (x : α) : DelayBuf α :=
  ⟨b.data.set b.pointer x, (b.pointer + 1) % b.data.length⟩

/-- `read` (delay_buffer.py 22-23): a NumPy view, i.e. a reference to one entry of the array. -/
def DelayBuf.read {α : Type} (b : DelayBuf α) : Nat := b.pointer

/-- The present contents of a view returned by `read`. -/
def DelayBuf.deref {α : Type} (b : DelayBuf α) (ref : Nat) : Option α := b.data[ref]?

/-- `clear` (delay_buffer.py 25-27). -/
def DelayBuf.clear {α : Type} (zero : α) (b : DelayBuf α) : DelayBuf α :=
  DelayBuf.init zero b.data.length

/-! ## `OnlineResampler` (online_resampler.py 4-77) -/

/-- `np.round`: half to even. -/
def roundHE (x : ℚ) : Int :=
  let f := ⌊x⌋
  let r := x - f
  if r < 1 / 2 then f else if 1 / 2 < r then f + 1 else if f % 2 = 0 then f else f + 1

/-- `hann(2*B, sym=False)[n]` (online_resampler.py 24). -/
noncomputable def hannP (B n : Nat) : ℝ := 1 / 2 - 1 / 2 * Real.cos (2 * Real.pi * n / (2 * B : ℕ))

/-- Entry `j` of `np.fft.fftshift(np.arange(-F/2, F/2))` (online_resampler.py 23). -/
def fftK (F j : Nat) : Int := if j < F / 2 then j else (j : Int) - F

/-- `np.real(np.fft.ifft(np.fft.fft(x, F) * np.exp(-1j*2*np.pi*k/F*rest)))`
(online_resampler.py 70-74). -/
noncomputable def fracDelay (F : Nat) (rest : ℝ) (x : List ℝ) : List ℝ :=
  let ζ : ℂ := Complex.exp (2 * Real.pi * Complex.I / F)
  let X := dft ζ F (x.map Complex.ofReal)
  let Y := X.zipIdx.map fun (v, j) =>
    v * Complex.exp (-Complex.I * 2 * Real.pi * (fftK F j : ℂ) / F * rest)
  (idft ζ F Y).map Complex.re

/-- `overflowWarned` (online_resampler.py 28). -/
inductive Warned where
  | none | left | right
  deriving DecidableEq, Repr

/-- State of the resampler. -/
structure Resampler where
  B : Nat
  shift : ℚ
  inBuf : List ℝ
  outBuf : List ℝ
  warned : Warned

/-- `__init__` (online_resampler.py 19-28). -/
def Resampler.init (B : Nat) : Resampler :=
  ⟨B, 0, List.replicate (4 * B) 0, List.replicate (3 * B) 0, .none⟩

/-- The window selection of one call (online_resampler.py 45-68). -/
structure Selection where
  start : Int
  stop : Int
  shift : ℚ      -- `self.shift` after the call
  rest : ℚ       -- `rest_shift`
  warned : Warned
  printed : Bool -- a warning is printed
  deriving DecidableEq, Repr

/-- Selection of the two blocks to transform (online_resampler.py 45-68). -/
def selectWin (B : Nat) (shift : ℚ) (warned : Warned) (sro sto : ℚ) : Selection :=
  let sh := shift + sro * (1 / 1000000) * B
  let acc := sh + sto
  let int := roundHE acc
  let rest := (int : ℚ) - acc
  let start : Int := B + int
  let stop : Int := (B + 2 * B) + int
  if start < 0 then
    ⟨0, stop - start, sh - sro * (1 / 1000000) * B, rest, .left, warned ≠ .left⟩
  else if stop ≥ 4 * B then
    ⟨start - (stop - 4 * B), 4 * B, sh - sro * (1 / 1000000) * B, rest, .right, warned ≠ .right⟩
  else ⟨start, stop, sh, rest, .none, false⟩

/-- `process` (online_resampler.py 31-77): the new state and the returned block (which is a view of
the first `B` entries of the output buffer). A block of another length makes the assignment to the
input buffer raise. Simplification: NumPy would broadcast a block of length 1. -/
noncomputable def Resampler.process (s : Resampler) (block : List ℝ) (sro sto : ℚ) :
    Except PyErr (Resampler × List ℝ) :=
  if block.length ≠ s.B then .error .valueError
  else
    let inBuf := s.inBuf.drop s.B ++ block
    let sel := selectWin s.B s.shift s.warned sro sto
    let blocks := pySlice inBuf sel.start sel.stop
    let wx := blocks.zipIdx.map fun (v, n) => hannP s.B n * v
    let y := (fracDelay (4 * s.B) sel.rest wx).take (2 * s.B)
    -- overlap-add into the 2nd and 3rd block, then shift by one block
    let out1 := s.outBuf.take s.B ++ List.zipWith (· + ·) (s.outBuf.drop s.B) y
    let out2 := out1.drop s.B ++ List.replicate s.B 0
    .ok ({ s with shift := sel.shift, inBuf := inBuf, outBuf := out2, warned := sel.warned },
      out2.take s.B)

/-- Processing a sequence of `(block, sro, sto)`: final state and returned blocks. -/
noncomputable def Resampler.run (s : Resampler) :
    List (List ℝ × ℚ × ℚ) → Except PyErr (Resampler × List (List ℝ))
  | [] => .ok (s, [])
  | (b, sro, sto) :: r => do
    let (s1, o) ← s.process b sro sto
    let (s2, os) ← s1.run r
    .ok (s2, o :: os)

/-! ## Controllers (sro_estimation.py 12-114) -/

/-- State of the simple controller (sro_estimation.py 83-89). -/
structure SimpleCtl where
  dSRO : ℚ := 0
  SRO : ℚ := 0
  deriving DecidableEq, Repr

/-- State update of `CL_DXCPPhaT_Simple.process` (sro_estimation.py 105-111) for the residual
estimate `res` and the activity value `acs`. -/
def SimpleCtl.step (s : SimpleCtl) (res acs : ℚ) : SimpleCtl :=
  let d := (1 - acs) * s.dSRO + acs * res
  let e := s.SRO + 1 / 100 * d
  ⟨d, if e < -100 then -100 else if e > 100 then 100 else e⟩

/-- State of the IMC controller (sro_estimation.py 26-41). -/
structure ImcCtl where
  startDelay : Int
  dSRO : ℚ × ℚ × ℚ := (0, 0, 0)
  SRO : ℚ × ℚ × ℚ := (0, 0, 0)
  cur : ℚ := 0   -- `SRO_est_curr`
  ell : Nat := 0
  deriving DecidableEq, Repr

/-- Numerator of the IMC controller (sro_estimation.py 34). -/
def kNom : ℚ × ℚ × ℚ := (0, 251941968627353 / 10 ^ 16, -(249422548941180 / 10 ^ 16))

/-- Denominator without its leading 1 (sro_estimation.py 35). -/
def kDen : ℚ × ℚ := (-(196825464010938 / 10 ^ 14), 968254640109407 / 10 ^ 15)

/-- State update of `CL_DXCPPhaT.process` (sro_estimation.py 60-70). `SRO_est_op` is 0. -/
def ImcCtl.step (s : ImcCtl) (res acs : ℚ) : ImcCtl :=
  let d0 : ℚ := if acs = 1 then res else 0
  let d : ℚ := if (s.ell : Int) ≤ s.startDelay then 0 else d0
  let ds : ℚ × ℚ × ℚ := (d, s.dSRO.1, s.dSRO.2.1)
  let old : ℚ × ℚ := (s.SRO.1, s.SRO.2.1)
  let y := (kNom.1 * ds.1 + kNom.2.1 * ds.2.1 + kNom.2.2 * ds.2.2) -
    (kDen.1 * old.1 + kDen.2 * old.2)
  { s with dSRO := ds, SRO := (y, old.1, old.2), cur := y + 0, ell := s.ell + 1 }

/-- The simple controller over a history of `(residual, activity)` pairs. -/
def SimpleCtl.run (s : SimpleCtl) (h : List (ℚ × ℚ)) : SimpleCtl :=
  h.foldl (fun s p => s.step p.1 p.2) s

/-- Running the controller over a history of `(residual, activity)`. -/
def ImcCtl.run (s : ImcCtl) (h : List (ℚ × ℚ)) : ImcCtl := h.foldl (fun s p => s.step p.1 p.2) s

/-! ## `DXCPPhaT`: buffering and scheduling (sro_estimation.py 117-230, 242-277, 343-345) -/

/-- Parameters that govern the scheduling. -/
structure DxParams where
  fftSize : Nat
  frame : Nat
  fftShift : Nat
  contNum : Nat
  inv : Nat
  addWait : Nat
  settle : Nat
  deriving DecidableEq, Repr

/-- The signal processing, abstracted: `gcsd` the normalised cross-spectrum of the buffered samples
(concretely `phat` below), `smooth1`/`smooth2` the recursive averages (the second includes the
zeroing of bins outside the band), `cross` the product of the last and the conjugated first entry of
the container, `peak` the estimate from the second average. -/
structure DxFuns (α A C E : Type) where
  gcsd : List α → A
  smooth1 : A → A → A
  cross : A → A → C
  smooth2 : C → C → C
  peak : C → E

/-- State (sro_estimation.py 191-205). `updates` counts the executions of `_stateupdate`: it is a
ghost variable of the model. -/
structure DxSt (α A C E : Type) where
  buf : List α
  exec : Nat
  ell : Nat
  initiated : Bool
  avg : A
  cont : List A
  avg2 : C
  est : E
  updates : Nat

/-- Initial state: zeros (sro_estimation.py 191-205). -/
def DxSt.init {α A C E : Type} [Zero α] [Zero A] [Zero C] [Zero E] (p : DxParams) :
    DxSt α A C E :=
  ⟨List.replicate p.fftSize 0, 1, 1, false, 0, List.replicate p.contNum 0, 0, 0, 0⟩

/-- First update at which the second cross-spectrum is computed (sro_estimation.py 252). -/
def DxParams.first2 (p : DxParams) : Int := p.contNum + ((p.inv : Int) - 1) + p.addWait

/-- `_stateupdate` (sro_estimation.py 230-299, 343-345), without the STO estimation. The container
always has `contNum` entries: the shift keeps the last `contNum - 1` and appends the new average. -/
def DxSt.update {α A C E : Type} (p : DxParams) (f : DxFuns α A C E) (s : DxSt α A C E) :
    DxSt α A C E :=
  let act := f.gcsd s.buf
  let avg := if s.initiated then f.smooth1 s.avg act else act
  let cont := s.cont.drop 1 ++ [avg]
  let avg2 := if (s.ell : Int) ≥ p.first2 then
      let act2 := f.cross (cont.getLastD avg) (cont.headD avg)
      if s.initiated then f.smooth2 s.avg2 act2 else act2
    else s.avg2
  let est := if (s.ell : Int) ≥ p.first2 + p.settle then f.peak avg2 else s.est
  { s with avg := avg, cont := cont, avg2 := avg2, est := est, ell := s.ell + 1,
           initiated := true, updates := s.updates + 1 }

/-- `process_data` (sro_estimation.py 208-227): the state and the reported estimate. A frame of
another length makes the assignment raise. -/
def DxSt.process {α A C E : Type} (p : DxParams) (f : DxFuns α A C E) (s : DxSt α A C E)
    (x : List α) : Except PyErr (DxSt α A C E × E) :=
  if x.length ≠ p.frame then .error .valueError
  else
    let s1 := { s with buf := s.buf.drop p.frame ++ x }
    let s2 := if s1.exec = p.fftShift / p.frame then
        DxSt.update p f { s1 with exec := 0 } else s1
    let s3 := { s2 with exec := s2.exec + 1 }
    .ok (s3, s3.est)

/-- Processing a sequence of frames: final state and reported estimates. -/
def DxSt.run {α A C E : Type} (p : DxParams) (f : DxFuns α A C E) (s : DxSt α A C E) :
    List (List α) → Except PyErr (DxSt α A C E × List E)
  | [] => .ok (s, [])
  | x :: r => do
    let (s1, e) ← s.process p f x
    let (s2, es) ← s1.run p f r
    .ok (s2, e :: es)

/-- `AccumTime_B_NumFr = int(AccumTime_B_sec // (1 / (fs / FFTshift)))` (sro_estimation.py 177). -/
def accumFrames (fs accum : ℚ) (fftShift : Nat) : Int := ⌊accum / (1 / (fs / fftShift))⌋

/-- `Lambda = int(((B_smpls * SROmax_abs_ppm) // 1e6) + 1)` (sro_estimation.py 180). -/
def lambdaOf (bSmpls : Int) (sroMax : ℚ) : Int := ⌊(bSmpls : ℚ) * sroMax / 1000000⌋ + 1

/-- The derived scheduling parameters (sro_estimation.py 177-182); `FFTsize/FFTshift` is truncated. -/
def DxParams.derive (fs accum : ℚ) (fftSize frame fftShift addWait settle : Nat) : DxParams :=
  ⟨fftSize, frame, fftShift, (accumFrames fs accum fftShift).toNat + 1, fftSize / fftShift,
    addWait, settle⟩

/-! ## Phase transform (sro_estimation.py 238-245) -/

/-- One bin of `X_12_act / X_12_act_abs` with the magnitude bounded below (sro_estimation.py
238-241). -/
noncomputable def phatBin (minAbs : ℝ) (x1 x2 : ℂ) : ℂ :=
  let x := x1 * star x2
  x / ((if ‖x‖ < minAbs then minAbs else ‖x‖ : ℝ) : ℂ)

/-- The recursive average (sro_estimation.py 242-245). -/
noncomputable def phatAvg (alpha : ℝ) : List ℂ → ℂ
  | [] => 0
  | x :: r => r.foldl (fun a v => (alpha : ℂ) * a + ((1 - alpha : ℝ) : ℂ) * v) x

/-! ## Peak search (sro_estimation.py 279-298, 325-337) -/

/-- `argmax`: index of the first maximum. -/
def argmaxFirst (y : List ℚ) : Nat :=
  (y.zipIdx.foldl (fun (best : ℚ × Nat) (v : ℚ × Nat) => if v.1 > best.1 then v else best)
    (y.headD 0, 0)).2

/-- The fractional part from three points (sro_estimation.py 292-294, 333-336): NaN or infinity
when the three points are on a line. -/
def parabolaFrac (y0 y1 y2 : ℚ) : Except PyErr ℚ :=
  if 2 * y1 - y2 - y0 = 0 then .error .nan
  else .ok ((y2 - y0) / 2 / (2 * y1 - y2 - y0))

/-- Fraction around the maximum of `y`, 0 at the borders (sro_estimation.py 284-294). -/
def peakFrac (y : List ℚ) : Except PyErr ℚ :=
  let i := argmaxFirst y
  if i = 0 ∨ i = y.length - 1 then .ok 0
  else do
    let y0 ← pyGet y ((i : Int) - 1)
    let y1 ← pyGet y i
    let y2 ← pyGet y ((i : Int) + 1)
    parabolaFrac y0 y1 y2

/-- The SRO estimate in ppm from the upsampled correlation `y` (sro_estimation.py 279-298). -/
def sroOfPeak (lam p : Nat) (bSmpls : ℚ) (y : List ℚ) : Except PyErr ℚ := do
  let frac ← peakFrac y
  .ok ((-(lam : ℚ) + argmaxFirst y / p + frac / p) / bSmpls * 1000000)

/-- The STO estimate in samples from the averaged shifted correlation magnitudes
(sro_estimation.py 325-339): the correction by the time difference of arrival is only applied when
the maximum is not at the border. -/
def stoOfPeak (ups : Nat) (tdoa fs : ℚ) (y : List ℚ) : Except PyErr ℚ :=
  let i := argmaxFirst y
  if i = 0 ∨ i = 2 * ups then .ok ((i : ℚ) - ups)
  else do
    let frac ← peakFrac y
    .ok ((i : ℚ) - ups + frac + tdoa * fs)

/-! ## Closed loop (sro_estimation.py 44-72, 91-114) -/

/-- The two controllers share this structure: `ctl` is the state of the controller, `sro` the
estimate used by the resampler, `stepC` the controller update with the estimator output. -/
structure LoopSt (S E : Type) where
  res : Resampler
  zj : DelayBuf (List ℝ)
  est : E
  ctl : S

/-- What one call returns: the synchronised second channel, and the caller's array after the call
(both columns are overwritten in place). -/
structure LoopOut where
  zi : List ℝ
  col0 : List ℝ
  col1 : List ℝ

/-- One call of `process` (sro_estimation.py 52-72, 97-114). `sroOf` reads the current SRO estimate
off the controller, `estStep` is `DXCPPhaT.process_data`, `ctlStep` the controller update. -/
noncomputable def LoopSt.process {S E : Type} (sroOf : S → ℚ)
    (estStep : E → List ℝ → List ℝ → Except PyErr (E × ℚ)) (ctlStep : S → ℚ → S)
    (s : LoopSt S E) (x0 x1 : List ℝ) : Except PyErr (LoopSt S E × LoopOut) := do
  let (res, zi) ← s.res.process x1 (-(sroOf s.ctl)) 0
  let zj := s.zj.write x0
  let (est, r) ← estStep s.est ((zj.deref zj.read).getD []) zi
  .ok (⟨res, zj, est, ctlStep s.ctl r⟩, ⟨zi, (zj.deref zj.read).getD [], zi⟩)

/-- A run of the closed loop. -/
noncomputable def LoopSt.run {S E : Type} (sroOf : S → ℚ)
    (estStep : E → List ℝ → List ℝ → Except PyErr (E × ℚ)) (ctlStep : S → ℚ → S)
    (s : LoopSt S E) : List (List ℝ × List ℝ) → Except PyErr (LoopSt S E × List LoopOut)
  | [] => .ok (s, [])
  | (x0, x1) :: r => do
    let (s1, o) ← s.process sroOf estStep ctlStep x0 x1
    let (s2, os) ← s1.run sroOf estStep ctlStep r
    .ok (s2, o :: os)

end Danse
