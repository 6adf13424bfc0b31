import Verif.Proofs.Dxcp6

/-!
# Properties C50–C53: delay buffer, online resampler, controllers, estimator scheduling
-/

namespace Danse

/-! ## C50 -/

/-- The effect of one operation on the buffer. -/
def DelayBuf.apply {α : Type} (zero : α) (b : DelayBuf α) : DelayOp α → DelayBuf α
  | .write x => b.write x
  | .clear => b.clear zero

/-- C50: after any history of writes and clears, reading returns the item written `L - 1` writes
before the last one, counting from the last clear, and zero if there have been fewer than `L`
writes. -/
theorem C50_delay {α : Type} (zero : α) {L : Nat} (hL : 0 < L) (ops : List (DelayOp α)) :
    let b := ops.foldl (DelayBuf.apply zero) (DelayBuf.init zero L)
    let w := sinceClear ops
    b.deref b.read = if w.length < L then some zero else w[w.length - 1 - (L - 1)]? := by
  have key : ∀ ops : List (DelayOp α), ops.foldl (DelayBuf.apply zero) (DelayBuf.init zero L) =
      (sinceClear ops).foldl DelayBuf.write (DelayBuf.init zero L) := by
    intro ops
    induction ops using List.reverseRecOn with
    | nil => rfl
    | append_singleton ops o ih =>
      rw [List.foldl_append]
      unfold sinceClear at *
      rw [List.foldl_append]
      simp only [List.foldl_cons, List.foldl_nil]
      rw [ih]
      cases o with
      | write x =>
        simp only [DelayBuf.apply]
        rw [List.foldl_append]; rfl
      | clear =>
        simp only [DelayBuf.apply, DelayBuf.clear, List.foldl_nil]
        rw [(delay_inv zero hL _).1]
  simp only
  rw [key]
  obtain ⟨h1, h2, h3⟩ := delay_inv zero hL (sinceClear ops)
  unfold DelayBuf.deref DelayBuf.read
  rw [h2]
  have := h3 0 hL
  rw [Nat.add_zero] at this
  rw [this]
  split
  · next h => rw [List.getElem?_append_left (by simpa using h), List.getElem?_replicate, if_pos h]
  · next h =>
    rw [List.getElem?_append_right (by simpa using h), List.length_replicate]
    congr 1
    omega

example : (fun b : DelayBuf Nat => b.deref b.read) (List.foldl (DelayBuf.apply 0) (DelayBuf.init 0 3)
    [.write 7, .clear, .write 1, .write 2, .write 3, .write 4]) = some 2 := by decide

/-- C50, refuted part: what `read` returns is not a value but a view: the very next write replaces
its contents by the frame just written. -/
theorem C50_refuted_read_is_stable {α : Type} (zero : α) {L : Nat} (hL : 0 < L) (ws : List α)
    (x : α) :
    let b := ws.foldl DelayBuf.write (DelayBuf.init zero L)
    (b.write x).deref b.read = some x := by
  obtain ⟨h1, h2, h3⟩ := delay_inv zero hL ws
  simp only [DelayBuf.deref, DelayBuf.read, DelayBuf.write]
  rw [List.getElem?_set_self]
  rw [h1, h2]
  exact Nat.mod_lt _ hL

/-! ## C51 -/

/-- C51 (a): for every state and every SRO and STO, the selected window lies inside the input buffer
of four blocks and has exactly two blocks; the remaining fractional shift is at most half a
sample. -/
theorem C51_window (B : Nat) (shift : ℚ) (w : Warned) (sro sto : ℚ) :
    0 ≤ (selectWin B shift w sro sto).start ∧
    (selectWin B shift w sro sto).stop = (selectWin B shift w sro sto).start + 2 * B ∧
    (selectWin B shift w sro sto).stop ≤ 4 * B ∧ |(selectWin B shift w sro sto).rest| ≤ 1 / 2 := by
  obtain ⟨h1, h2, h3⟩ := selectWin_window B shift w sro sto
  refine ⟨h1, h2, h3, ?_⟩
  have hb := roundHE_bounds (shift + sro * (1 / 1000000) * B + sto)
  have e : (selectWin B shift w sro sto).rest =
      (roundHE (shift + sro * (1 / 1000000) * B + sto) : ℚ) -
        (shift + sro * (1 / 1000000) * B + sto) := by
    unfold selectWin
    simp only
    split_ifs <;> rfl
  rw [e, abs_le]
  constructor <;> linarith

/-- C51 (b): when no warning is due, the window position and the fractional part together realise
exactly the accumulated shift; the accumulated shift has grown by `sro·1e-6·B`. -/
theorem C51_exact_shift (B : Nat) (shift : ℚ) (w : Warned) (sro sto : ℚ)
    (h : (selectWin B shift w sro sto).warned = .none) :
    (selectWin B shift w sro sto).shift = shift + sro * (1 / 1000000) * B ∧
    ((selectWin B shift w sro sto).start : ℚ) - (selectWin B shift w sro sto).rest =
      B + (selectWin B shift w sro sto).shift + sto := by
  unfold selectWin at *
  simp only at *
  split_ifs at * with h1 h2
  · refine ⟨rfl, ?_⟩
    push_cast; ring

/-- C51 (c): saturation: otherwise the accumulated shift stays as it was, and the window is the
first or the last two blocks of the buffer. -/
theorem C51_saturated (B : Nat) (shift : ℚ) (w : Warned) (sro sto : ℚ)
    (h : (selectWin B shift w sro sto).warned ≠ .none) :
    (selectWin B shift w sro sto).shift = shift ∧
    ((selectWin B shift w sro sto).start = 0 ∨ (selectWin B shift w sro sto).start = 2 * B) := by
  unfold selectWin at *
  simp only at *
  split_ifs at * with h1 h2
  · exact ⟨by simp only; ring, Or.inl rfl⟩
  · refine ⟨by simp only; ring, Or.inr ?_⟩; simp only; ring
  · exact absurd rfl h

/-- C51 (d): a warning is printed exactly when saturation begins on a side. -/
theorem C51_warns_once (B : Nat) (shift : ℚ) (w : Warned) (sro sto : ℚ) :
    (selectWin B shift w sro sto).printed = true ↔
      (selectWin B shift w sro sto).warned ≠ .none ∧ (selectWin B shift w sro sto).warned ≠ w := by
  unfold selectWin
  simp only
  split_ifs
  · cases w <;> simp
  · cases w <;> simp
  · simp

/-- The accumulated shift along a history of SROs. -/
def shiftAfter (B : Nat) (sros : List ℚ) : ℚ × Warned :=
  sros.foldl (fun s r => ((selectWin B s.1 s.2 r 0).shift, (selectWin B s.1 s.2 r 0).warned))
    (0, .none)

/-- C51 (e): whatever the history of SRO estimates, the accumulated shift stays within one block
(plus the rounding of half a sample). -/
theorem C51_shift_bounded {B : Nat} (hB : 0 < B) (sros : List ℚ) :
    -(B : ℚ) - 1 / 2 ≤ (shiftAfter B sros).1 ∧ (shiftAfter B sros).1 ≤ B - 1 / 2 := by
  have hb : (1 : ℚ) ≤ B := by exact_mod_cast hB
  induction sros using List.reverseRecOn with
  | nil => simp only [shiftAfter, List.foldl_nil]; constructor <;> linarith
  | append_singleton l r ih =>
    unfold shiftAfter at *
    rw [List.foldl_append]
    simp only [List.foldl_cons, List.foldl_nil]
    set s := l.foldl (fun s r => ((selectWin B s.1 s.2 r 0).shift, (selectWin B s.1 s.2 r 0).warned))
      (0, Warned.none) with hs
    have hr := roundHE_bounds (s.1 + r * (1 / 1000000) * B + 0)
    unfold selectWin
    simp only
    split_ifs with h1 h2
    · simp only; constructor <;> linarith [ih.1, ih.2]
    · simp only; constructor <;> linarith [ih.1, ih.2]
    · push Not at h1 h2
      have a : (0 : ℚ) ≤ B + (roundHE (s.1 + r * (1 / 1000000) * B + 0) : ℚ) := by exact_mod_cast h1
      have b : (roundHE (s.1 + r * (1 / 1000000) * B + 0) : ℚ) ≤ B - 1 := by
        have : roundHE (s.1 + r * (1 / 1000000) * B + 0) ≤ B - 1 := by omega
        exact_mod_cast this
      simp only
      constructor <;> linarith

/-- C51 (f): a constant integer time offset `d` of less than one block is compensated exactly: the
output is the input signal delayed by two blocks and advanced by `d` samples, for any signal and
any number of blocks. In particular (`d = 0`) without offsets the output is the input two blocks
earlier. -/
theorem C51_integer_offset {B : Nat} (hB : 0 < B) {x : Int → ℝ} (hx : ∀ t < 0, x t = 0) {d : Int}
    (h1 : -(B : Int) ≤ d) (h2 : d < B) (n : Nat) :
    ∃ s, (Resampler.init B).run
        ((List.range n).map fun (j : Nat) => (seg x ((j : Int) * B) B, 0, (d : ℚ))) =
      .ok (s, (List.range n).map fun (j : Nat) => seg x (((j : Int) - 2) * B + d) B) := by
  obtain ⟨s, h, _⟩ := resampler_offset hB h1 h2 n 0 _ (resInv_init hx h2)
  refine ⟨s, ?_⟩
  simpa using h

/-- A concrete instance of the hypotheses of C51 (f): a ramp from time 0, offset of 100 samples. -/
example : ∃ x : Int → ℝ, (∀ t < 0, x t = 0) ∧ x 5 = 5 ∧ -((2048 : ℕ) : Int) ≤ 100 ∧
    (100 : Int) < (2048 : ℕ) :=
  ⟨fun t => if t < 0 then 0 else (t : ℝ), fun t ht => if_pos ht, by norm_num, by norm_num, by norm_num⟩

/-- C51 (g): the resampler is linear for a given history of SROs and STOs: resampling `a + c·b` gives
the resampled `a` plus `c` times the resampled `b`, block by block. -/
theorem C51_linear {B : Nat} (c : ℝ) (h : List (List ℝ × List ℝ × ℚ × ℚ))
    (hl : ∀ p ∈ h, p.1.length = B ∧ p.2.1.length = B) :
    ∃ s t u oa ob, (Resampler.init B).run (h.map fun p => (p.1, p.2.2)) = .ok (s, oa) ∧
      (Resampler.init B).run (h.map fun p => (p.2.1, p.2.2)) = .ok (t, ob) ∧
      (Resampler.init B).run (h.map fun p => (lin c p.1 p.2.1, p.2.2)) =
        .ok (u, List.zipWith (lin c) oa ob) ∧ oa.length = h.length ∧ ob.length = h.length :=
  run_lin h (linRel_init c B) hl

/-- C51, refuted part: a positive shift of exactly one block, for which the selected window would
end exactly at the end of the buffer, is rejected as too large (for every block size), whereas a
negative shift of one block is accepted. -/
theorem C51_refuted_full_block (B : Nat) (w : Warned) :
    (selectWin B 0 w 0 (B : ℚ)).warned = .right ∧ (selectWin B 0 w 0 (-(B : ℚ))).warned ≠ .left := by
  unfold selectWin
  have e1 : (0 : ℚ) + 0 * (1 / 1000000) * B + (B : ℚ) = ((B : Int) : ℚ) := by push_cast; ring
  have e2 : (0 : ℚ) + 0 * (1 / 1000000) * B + -(B : ℚ) = ((-(B : Int) : Int) : ℚ) := by push_cast; ring
  simp only [e1, e2, roundHE_int]
  constructor
  · rw [if_neg (by omega), if_pos (by omega)]
  · rw [if_neg (by omega)]
    split_ifs <;> simp

/-! ## C52 -/

/-- C52 (a): the estimate of the simple controller is within ±100 ppm after every history. -/
theorem C52_simple_clamped (h : List (ℚ × ℚ)) :
    -100 ≤ (SimpleCtl.run {} h).SRO ∧ (SimpleCtl.run {} h).SRO ≤ 100 := by
  induction h using List.reverseRecOn with
  | nil => constructor <;> (simp [SimpleCtl.run])
  | append_singleton l p _ =>
    unfold SimpleCtl.run
    rw [List.foldl_append]
    exact simple_step_bounds _ _ _

/-- C52 (a'): while the bound is not hit, each call adds exactly a hundredth of the (activity
weighted) residual. -/
theorem C52_simple_integrates (s : SimpleCtl) (r a : ℚ)
    (h1 : -100 ≤ s.SRO + 1 / 100 * ((1 - a) * s.dSRO + a * r))
    (h2 : s.SRO + 1 / 100 * ((1 - a) * s.dSRO + a * r) ≤ 100) :
    (s.step r a).SRO = s.SRO + 1 / 100 * ((1 - a) * s.dSRO + a * r) := by
  unfold SimpleCtl.step
  simp only
  rw [if_neg (by linarith), if_neg (by linarith)]

example : (SimpleCtl.run {} [(500, 1), (500, 1), (-20, 1)]).SRO = 49 / 5 := by decide +kernel

/-- C52 (b): the IMC controller's estimate is zero for the first `start_delay + 2` calls, whatever
the residuals, and as long as the activity value is not 1. -/
theorem C52_imc_frozen (sd : Int) (h : List (ℚ × ℚ)) :
    ((h.length : Int) ≤ sd + 2 → (ImcCtl.run { startDelay := sd } h).cur = 0) ∧
    ((∀ p ∈ h, p.2 ≠ 1) → (ImcCtl.run { startDelay := sd } h).cur = 0) :=
  ⟨imc_frozen2 sd h, fun ha => (imc_inactive sd h ha).2.2⟩

/-- C52 (b'): the delay is tight: a residual at call number `start_delay + 2` (counted from 1) moves
the estimate at the following call. -/
theorem C52_imc_reacts :
    (ImcCtl.run { startDelay := 0 } [(9, 1), (10, 1), (0, 1)]).cur = 10 * kNom.2.1 := by
  decide +kernel

/-- C52 (c): the IMC controller is stable: bounded residuals give bounded estimates, for histories
of any length, with any start delay and any pattern of activity. -/
theorem C52_imc_stable (sd : Int) (U : ℚ) (hU : 0 ≤ U) (h : List (ℚ × ℚ))
    (hb : ∀ p ∈ h, |p.1| ≤ U) :
    |(ImcCtl.run { startDelay := sd } h).cur| ≤ imcGain * U :=
  imc_bounded sd U hU h hb

/-- C52, refuted part: the IMC controller has no bound of 100 ppm (the attribute `maxDelta` is never
used): after 40 frames with a residual of 1000 ppm the estimate exceeds 100 ppm. -/
theorem C52_refuted_imc_clamped :
    100 < (ImcCtl.run { startDelay := 0 } (List.replicate 40 (1000, 1))).cur := by decide +kernel

/-- C52, refuted part: the activity value 0 does not hold the estimate of the simple controller:
it keeps integrating the last residual. -/
theorem C52_refuted_simple_hold (s : SimpleCtl) (r : ℚ) (h1 : -100 ≤ s.SRO + 1 / 100 * s.dSRO)
    (h2 : s.SRO + 1 / 100 * s.dSRO ≤ 100) :
    (s.step r 0).dSRO = s.dSRO ∧ (s.step r 0).SRO = s.SRO + 1 / 100 * s.dSRO := by
  have := C52_simple_integrates s r 0 (by linarith) (by linarith)
  refine ⟨?_, by rw [this]; ring⟩
  unfold SimpleCtl.step
  simp

example : (SimpleCtl.run {} ((50, 1) :: List.replicate 5 (0, 0))).SRO = 3 := by decide +kernel

/-! ## C53 -/

section
set_option linter.unusedSectionVars false
variable {α A C E : Type} [Zero α] [Zero A] [Zero C] [Zero E]

/-- C53 (a): after any sequence of frames of the right length the estimator has run without error,
its buffer holds the most recent FFT-size samples (zeros before the beginning), and the estimation
step has been executed exactly once per FFT shift worth of frames. The estimate reported after each
frame is the one defined from the input history alone: averages of spectra taken at every FFT shift,
compared with the average exactly `contNum - 1` estimation steps earlier, zero until the container is
filled and the second average has settled. -/
theorem C53_refines {p : DxParams} (hc : 2 ≤ p.contNum) (hi : 1 ≤ p.inv) (hF : p.frame ≤ p.fftSize)
    (hR : 0 < p.fftShift / p.frame) (f : DxFuns α A C E) (frames : List (List α))
    (hl : ∀ x ∈ frames, x.length = p.frame) :
    ∃ s, (DxSt.init p).run p f frames = .ok (s, (List.range frames.length).map fun j =>
        specEst f (fun m => latest p.fftSize frames (p.fftShift / p.frame * m))
          (p.contNum + (p.inv - 1) + p.addWait) (p.contNum - 1)
          (p.contNum + (p.inv - 1) + p.addWait + p.settle) ((j + 1) / (p.fftShift / p.frame))) ∧
      s.buf = latest p.fftSize frames frames.length ∧
      s.updates = frames.length / (p.fftShift / p.frame) := by
  obtain ⟨s, h1, h2⟩ := dx_run hc hi hF hR f frames hl frames 0 _ rfl (dxInv_init hc hi f frames)
  have hf : p.contNum + (p.inv - 1) + p.addWait = p.first2.toNat := by
    unfold DxParams.first2; omega
  rw [hf]
  refine ⟨s, ?_, ?_, ?_⟩
  · simpa using h1
  · simpa using h2.buf
  · simpa using h2.upd.upd

/-- C53 (b): until enough frames have arrived every reported estimate is zero; how many is given by
the container size, the FFT overlap, the additional waiting and the settling time. -/
theorem C53_initial_zero {p : DxParams} (hc : 2 ≤ p.contNum) (hi : 1 ≤ p.inv)
    (hF : p.frame ≤ p.fftSize) (hR : 0 < p.fftShift / p.frame) (f : DxFuns α A C E)
    (frames : List (List α)) (hl : ∀ x ∈ frames, x.length = p.frame)
    (hn : frames.length < (p.fftShift / p.frame) * (p.contNum + (p.inv - 1) + p.addWait + p.settle)) :
    ∃ s, (DxSt.init p).run p f frames = .ok (s, List.replicate frames.length 0) := by
  obtain ⟨s, h, _⟩ := C53_refines hc hi hF hR f frames hl
  refine ⟨s, ?_⟩
  rw [h]
  congr 2
  apply List.eq_replicate_iff.2
  refine ⟨by simp, ?_⟩
  intro b hb
  obtain ⟨j, hj, rfl⟩ := List.mem_map.1 hb
  rw [List.mem_range] at hj
  unfold specEst
  rw [if_neg]
  have : (j + 1) / (p.fftShift / p.frame) < p.contNum + (p.inv - 1) + p.addWait + p.settle := by
    apply Nat.div_lt_of_lt_mul
    omega
  omega

/-- C53, refuted part: nothing checks that a frame is not longer than the FFT shift: if it is, the
estimator is never executed and reports 0 forever. -/
theorem C53_refuted_long_frames {p : DxParams} (hR : p.fftShift < p.frame) (f : DxFuns α A C E)
    (frames : List (List α)) (hl : ∀ x ∈ frames, x.length = p.frame) :
    ∃ s, (DxSt.init p).run p f frames = .ok (s, List.replicate frames.length 0) ∧ s.updates = 0 :=
  dx_never (Nat.div_eq_of_lt hR) f frames _ hl (by simp [DxSt.init]) rfl rfl

/-- C53, refuted part: the second average is not initialised with its first value (the flag is
already set by then): its first value is the smoothing of zero. -/
theorem C53_refuted_second_average_start {p : DxParams} (hc : 2 ≤ p.contNum) (hi : 1 ≤ p.inv)
    (f : DxFuns α A C E) (bufs : Nat → List α) :
    specAvg2 f bufs p.first2.toNat (p.contNum - 1) p.first2.toNat =
      f.smooth2 0 (f.cross (specAvg f bufs p.first2.toNat)
        (specAvg f bufs (p.first2.toNat - (p.contNum - 1)))) := by
  have hf : (p.contNum : Int) ≤ p.first2 := by unfold DxParams.first2; omega
  obtain ⟨m, hm⟩ : ∃ m, p.first2.toNat = m + 1 := ⟨p.first2.toNat - 1, by omega⟩
  rw [hm, specAvg2, if_pos le_rfl, specAvg2_zero _ _ (by omega)]
end

/-- The default parameters: 40 averages in the container, i.e. comparisons over 39 FFT shifts; the
first estimate is due at frame 47. -/
example : DxParams.derive 16000 5 8192 2048 2048 0 4 = ⟨8192, 2048, 2048, 40, 4, 0, 4⟩ ∧
    (DxParams.derive 16000 5 8192 2048 2048 0 4).first2 + 4 = 47 ∧
    lambdaOf (39 * 2048) 1000 = 80 := by
  refine ⟨by decide +kernel, by decide +kernel, by decide +kernel⟩

end Danse
