import Mathlib.Analysis.SpecialFunctions.Log.Base
import Mathlib.Analysis.SpecialFunctions.Sqrt
import Verif.Model.Py

/-!
# Evaluation of a simulated synchronisation (dxcpphat/demo_utils.py 52-204)

`compute_node_snr` and the parts of `evaluate_simulation_results` that are about one asynchronous node: the
error of the rate estimates over time, the settling time, the residual time offset, and the
signal-to-synchronisation-noise ratio. Arithmetic is exact (real numbers). `gen_offset` (492-542) is the
parameter `G`. The processes and the queue (161-186) only gather the results of `compute_node_snr` and are
not modelled.
-/

namespace Danse

/-- `mse_t[fr, n]` (demo_utils.py 112-119) for the estimates `est` and the true rate offset `tr` of a node. -/
noncomputable def mseT (est : Nat → ℝ) (tr : ℝ) : Nat → ℝ
  | 0 => (est 0 - tr) ^ 2
  | t + 1 => 0.9 * mseT est tr t + 0.1 * (est (t + 1) - tr) ^ 2

/-- `rmse_t[fr, n]` (demo_utils.py 120). -/
noncomputable def rmseT (est : Nat → ℝ) (tr : ℝ) (t : Nat) : ℝ := Real.sqrt (mseT est tr t)

open Classical in
/-- `np.argwhere(rmse_t[:, n] > 1)` (demo_utils.py 131). -/
noncomputable def unsettled (est : Nat → ℝ) (tr : ℝ) (nFrames : Nat) : List Nat :=
  (List.range nFrames).filter fun t => rmseT est tr t > 1

/-- `Tc[n]` (demo_utils.py 129-134): `-1` or the time of the last frame with an error above 1 ppm. The frame
length is written as `2**11`, whatever `frame_len` is. -/
noncomputable def settlingTime (est : Nat → ℝ) (tr fs : ℝ) (nFrames : Nat) : ℝ :=
  match (unsettled est tr nFrames).getLast? with
  | none => -1
  | some t => (t : ℝ) * 2 ^ 11 / fs

/-- `int(x)` for a Python float. -/
noncomputable def pyIntR (x : ℝ) : Int := if 0 ≤ x then ⌊x⌋ else ⌈x⌉

/-- `k_max` (demo_utils.py 125). -/
noncomputable def rtoFrame (nFrames : Nat) (tMax fs frameLen : ℝ) : Int :=
  if (nFrames : Int) < ⌊tMax * fs / frameLen⌋ then (nFrames : Int) - 1 else ⌊tMax * fs / frameLen⌋ - 1

/-- `rto` (demo_utils.py 123-126) for a non-negative `k_max`:
`np.sum(SRO_est[k_max, n] - SRO_est[:k_max, n]) * 1e-6 * frame_len`. -/
noncomputable def residualOffset (est : Nat → ℝ) (kMax : Nat) (frameLen : ℝ) : ℝ :=
  (∑ t ∈ Finset.range kMax, (est kMax - est t)) * 1e-6 * frameLen

/-- `np.var`. -/
noncomputable def npVar (x : List ℝ) : ℝ :=
  (x.map fun v => (v - x.sum / x.length) ^ 2).sum / x.length

/-- `signals[:, :, n+1].flatten()[a:b]` etc. and the SSNR of one node (demo_utils.py 140-159): `ref` is the
synchronous signal (`signals_sync`), `num` the signal whose variance is the numerator (`signals_sync` after,
`signals` before synchronisation), `x` the signal to rate; `tc` is the settling time. `None` if no SSNR can be
computed (`synced` is `signals_synced`, of which the length is tested). -/
noncomputable def ssnrOf (G : List ℝ → ℝ → List ℝ) (ref num x synced : List ℝ) (tc fs tMax rto : ℝ) : Option ℝ :=
  if tc = -1 ∨ (pySlice synced (pyIntR (tc * fs)) (pyIntR (tMax * fs))).length < 2 ^ 13 then none
  else
    let a := pyIntR (tc * fs)
    let s := G (pySlice x a x.length) rto
    let s := if (s.length : ℝ) > tMax * fs then pySlice s 0 (pyIntR (tMax * fs)) else s
    let cutRef := pySlice ref a (s.length + a)
    let cutNum := pySlice num a (s.length + a)
    some (10 * Real.logb 10 (npVar cutNum / npVar (List.zipWith (· - ·) cutRef s)))

/-- `sig_var` (demo_utils.py 67-71): smoothed power, not below the noise power `nv`; `alpha` is `0.999`. The
conditional expression covers the whole right-hand side: the first entry is 0 before the lower limit. -/
noncomputable def sigVar (alpha nv : ℝ) (sig : Nat → ℝ) : Nat → ℝ
  | 0 => if (0 : ℝ) < nv then nv else 0
  | t + 1 =>
    let v := alpha * sigVar alpha nv sig t + (1 - alpha) * sig (t + 1) ^ 2
    if v < nv then nv else v

open Classical in
/-- `node_snr` (demo_utils.py 74, 76-77); `none` is `-inf`. -/
noncomputable def nodeSnr (alpha nv : ℝ) (sig : Nat → ℝ) (t : Nat) : Option ℝ :=
  let s := sigVar alpha nv sig t - nv
  if s = 0 then none else some (10 * Real.logb 10 (s / nv))

/-- `signal.convolve(sig_var, np.ones(W), mode='same') / W` (demo_utils.py 73) for `n` samples: the full
convolution from index `(W - 1) // 2` on. -/
noncomputable def sigVarSmoothed (W n : Nat) (v : Nat → ℝ) (t : Nat) : ℝ :=
  (∑ u ∈ (Finset.range n).filter (fun u => u ≤ t + (W - 1) / 2 ∧ t + (W - 1) / 2 < u + W), v u) / W

open Classical in
/-- `node_snr_smoothed` (demo_utils.py 75, 78-79); `none` is `-inf`. -/
noncomputable def nodeSnrSmoothed (alpha nv : ℝ) (W n : Nat) (sig : Nat → ℝ) (t : Nat) : Option ℝ :=
  let s := sigVarSmoothed W n (sigVar alpha nv sig) t - nv
  if s ≤ 0 then none else some (10 * Real.logb 10 (s / nv))

end Danse
