import Verif.Proofs.Metrics

/-!
# Properties C47–C49, C66: metrics and audio export
-/

namespace Danse

open Real

/-! ## C47 -/

/-- C47 (a): if no sample is below `-2` times the (positive) maximum, the exported 16-bit values
are the scaled samples themselves: no wrap-around, and the maximum becomes 16383. -/
theorem C47_no_clipping {x : List ℚ} (hne : x ≠ []) (hpos : 0 < amax x)
    (hbal : ∀ v ∈ x, -2 * amax x ≤ v) :
    normalizeToInt16 x = .ok (x.map (toInt16Raw (amax x))) ∧
    (∀ v ∈ x, -32767 ≤ toInt16Raw (amax x) v ∧ toInt16Raw (amax x) v ≤ 16383) ∧
    toInt16Raw (amax x) (amax x) = 16383 := by
  have hb : ∀ v ∈ x, -32767 ≤ toInt16Raw (amax x) v ∧ toInt16Raw (amax x) v ≤ 16383 :=
    fun v hv => raw_bounds hpos (hbal v hv) (le_amax hv)
  refine ⟨?_, hb, raw_amax hpos⟩
  unfold normalizeToInt16
  rw [if_neg hne, if_neg (ne_of_gt hpos)]
  congr 1
  apply List.map_congr_left
  intro v hv
  exact wrap16_id (by have := hb v hv; omega) (by have := hb v hv; omega)

example : normalizeToInt16 [1/2, -1, 1/4, 0] = .ok [16383, -32767, 8191, 0] := by decide +kernel

/-- C47 (b): louder samples stay louder (the export is monotone) when nothing wraps around. -/
theorem C47_monotone {m : ℚ} (hm : 0 < m) {u v : ℚ} (h : u ≤ v) :
    toInt16Raw m u ≤ toInt16Raw m v := raw_mono hm h

/-- C47 (c): exactly which signals with a positive maximum are exported without wrap-around: those
with no sample at or below `-(65538/32767)` times the maximum. -/
theorem C47_exact_iff {x : List ℚ} (hne : x ≠ []) (hpos : 0 < amax x) :
    normalizeToInt16 x = .ok (x.map (toInt16Raw (amax x))) ↔
      ∀ v ∈ x, -(65538 / 32767) * amax x < v := by
  unfold normalizeToInt16
  rw [if_neg hne, if_neg (ne_of_gt hpos)]
  constructor
  · intro h v hv
    injection h with h
    have h := List.map_inj_left.1 h v hv
    by_contra hc
    rw [not_lt] at hc
    exact wrap_of_low hpos hc h
  · intro h
    congr 1
    apply List.map_congr_left
    intro v hv
    exact wrap16_id (raw_low hpos (h v hv)) (by
      have := raw_high hpos (le_amax hv); omega)

/-- C47, refuted part: a signal whose negative peak is three times its positive peak wraps
around: its lowest sample is exported as a positive value. -/
theorem C47_refuted_wraps :
    normalizeToInt16 [1, -3] = .ok [16383, 16386] := by decide +kernel

/-- C47, refuted part: a signal with only negative samples is exported with its sign inverted. -/
theorem C47_refuted_negative_signal :
    normalizeToInt16 [-1, -2] = .ok [16383, 32767] := by decide +kernel

/-- C47, refuted part: an all-zero (silent) signal does not give a silent file but NaN. -/
theorem C47_refuted_silence (n : Nat) :
    normalizeToInt16 (List.replicate (n + 1) 0) = .error .nan := by
  unfold normalizeToInt16
  rw [if_neg (by simp), if_pos]
  exact amax_replicate_zero n

/-! ## C48 -/

/-- C48, refuted: whatever exponent the user chooses, the metric is computed with exponent 0.2 and
the user's value is used as frame overlap. -/
theorem C48_refuted_gamma (fLen gamma : ℚ) :
    fwUsed fLen gamma "gamma" = some (1 / 5) ∧ fwUsed fLen gamma "overlap" = some gamma ∧
      fwUsed fLen gamma "frameLen" = some fLen := by
  refine ⟨?_, ?_, ?_⟩ <;> rfl

/-- C48, refuted: with the defaults (`fLen = 0.03`, `gamma = 0.2`, 16 kHz) consecutive frames are
384 samples apart instead of the documented 75 % overlap (120 samples). -/
theorem C48_refuted_hop :
    fwSkip (1 / 5) (3 / 100) 16000 = 384 ∧ fwSkip (3 / 4) (3 / 100) 16000 = 120 := by
  constructor <;> decide +kernel

/-- C48, refuted: an exponent of 1 or more makes the hop zero or negative, so that the number of
frames is undefined. -/
theorem C48_refuted_large_gamma (fLen gamma fs : ℚ) (hf : 0 < fLen) (hs : 0 < fs) (hg : 1 ≤ gamma)
    {o : ℚ} (ho : fwUsed fLen gamma "overlap" = some o) : fwSkip o fLen fs ≤ 0 := by
  rw [(C48_refuted_gamma fLen gamma).2.1] at ho
  injection ho with ho
  subst ho
  unfold fwSkip
  rw [← Int.floor_zero (R := ℚ)]
  apply Int.floor_le_floor
  have : 0 ≤ fLen * fs := by positivity
  nlinarith

/-- C48 (what holds): every frame value is finally within 0 and 35 dB, values already inside are
unchanged, and so is the mean over any non-empty set of frames. -/
theorem C48_bounded (d : List ℚ) (hd : d ≠ []) :
    (∀ v ∈ d.map fwClamp, 0 ≤ v ∧ v ≤ 35) ∧ (∀ v, 0 ≤ v → v ≤ 35 → fwClamp v = v) ∧
      0 ≤ (d.map fwClamp).sum / d.length ∧ (d.map fwClamp).sum / d.length ≤ 35 := by
  have hb : ∀ v ∈ d.map fwClamp, 0 ≤ v ∧ v ≤ 35 := by
    intro v hv
    obtain ⟨u, _, rfl⟩ := List.mem_map.1 hv
    exact fwClamp_bounds u
  have hl : (0 : ℚ) < d.length := by
    have := List.length_pos_of_ne_nil hd
    exact_mod_cast this
  obtain ⟨h1, h2⟩ := sum_bounds (d.map fwClamp) hb
  rw [List.length_map] at h2
  refine ⟨hb, fwClamp_id, div_nonneg h1 hl.le, ?_⟩
  rw [div_le_iff₀ hl]
  linarith

example : fwClamp (-7) = 0 ∧ fwClamp 12 = 12 ∧ fwClamp 80 = 35 := by
  refine ⟨?_, ?_, ?_⟩ <;> decide +kernel

/-! ## C49 -/

/-- C49 (a): when the chunk overlap is zero or at least one sample, the computation terminates
without error; it evaluates the metric exactly on the chunks `[i0, i0+N)`, `i0 = int(c·N·(1-ovlp))`,
`c = 0, 1, …` that lie inside the signal, in order, and the result has one entry per chunk followed
by zeros. -/
theorem C49_visits {M : Type} (L N : Nat) (ovlp : ℚ) (hN : 0 < N) (h0 : 0 ≤ ovlp) (h1 : ovlp < 1)
    (hov : ovlp = 0 ∨ 1 ≤ N * ovlp) (f : Int → Int → M) (zero : M) :
    ∃ (n : Nat), (∀ c : Nat, c < n ↔ dynStart N ovlp c + N ≤ L) ∧
      (n : Int) ≤ dynNChunks L N ovlp ∧
      ∀ fuel, n < fuel → dynMetric L N ovlp f zero fuel = some (.ok
        ((List.range n).map (fun c => f (dynStart N ovlp c) (dynStart N ovlp c + N)) ++
          List.replicate ((dynNChunks L N ovlp).toNat - n) zero)) := by
  obtain ⟨n, hn⟩ := dyn_count L N ovlp hN h1
  have hbound : ∀ c, c < n → (c : Int) + 1 ≤ dynNChunks L N ovlp :=
    fun c hc => dyn_bound hN h0 h1 hov ((hn c).1 hc)
  refine ⟨n, hn, ?_, ?_⟩
  · cases n with
    | zero => exact dynNChunks_nonneg L N ovlp h1
    | succ m => have := hbound m (by omega); push_cast; exact this
  · intro fuel hfuel
    unfold dynMetric
    have := dynLoop_eq (f := f) hn hbound fuel 0 [] (by omega) (by omega)
    rw [this]
    simp [List.range_eq_range']

example : dynMetric 10 4 (1/2) (fun i0 i1 => (i0, i1)) (0, 0) 100 =
    some (.ok [(0, 4), (2, 6), (4, 8), (6, 10), (0, 0)]) := by decide +kernel

/-- C49 (b): chunk starts never go backwards and are at most one hop (rounded up) apart, so no
part of the signal before the last chunk is skipped. -/
theorem C49_starts (N : Nat) (ovlp : ℚ) (h0 : 0 ≤ ovlp) (h1 : ovlp < 1) (c : Nat) :
    dynStart N ovlp c ≤ dynStart N ovlp (c + 1) ∧ dynStart N ovlp (c + 1) ≤ dynStart N ovlp c + N :=
  dynStart_step N ovlp h0 h1 c

/-- C49 (c): without overlap there is exactly one entry per complete chunk. -/
theorem C49_no_overlap_count {M : Type} (L N : Nat) (hN : 0 < N) (f : Int → Int → M) (zero : M)
    (fuel : Nat) (hf : L / N < fuel) :
    dynMetric L N 0 f zero fuel = some (.ok
      ((List.range (L / N)).map fun c => f ((c * N : Nat) : Int) ((c * N + N : Nat) : Int))) := by
  obtain ⟨n, hn, hle, hrun⟩ := C49_visits L N 0 hN le_rfl (by norm_num) (Or.inl rfl) f zero
  have hs : ∀ c, dynStart N 0 c = ((c * N : Nat) : Int) := dynStart_zero N
  have hn' : n = L / N := by
    have key : ∀ c, c < n ↔ c < L / N := by
      intro c
      rw [hn c, hs c, Nat.lt_iff_add_one_le, Nat.le_div_iff_mul_le hN]
      rw [add_mul, one_mul]
      norm_cast
    have a := key n
    have b := key (L / N)
    omega
  have hc : dynNChunks L N 0 = ((L / N : Nat) : Int) := dynNChunks_zero L N
  rw [hrun fuel (by omega), hn', hc]
  simp [hs]

/-- C49, refuted part: with 50 % overlap and a signal made of whole hops, the array has one entry
more than there are chunks: the last reported value is always the spurious initial 0, for every
metric. -/
theorem C49_refuted_trailing_zero {M : Type} (h k : Nat) (hh : 0 < h) (f : Int → Int → M) (zero : M)
    (fuel : Nat) (hfuel : k + 2 ≤ fuel) :
    dynMetric ((k + 2) * h) (2 * h) (1 / 2) f zero fuel = some (.ok
      ((List.range (k + 1)).map (fun c => f ((c * h : Nat) : Int) ((c * h + 2 * h : Nat) : Int)) ++
        [zero])) := by
  obtain ⟨n, hn, hle, hrun⟩ := C49_visits ((k + 2) * h) (2 * h) (1 / 2) (by omega) (by norm_num)
    (by norm_num) (Or.inr (by push_cast; have : (1:ℚ) ≤ h := by exact_mod_cast hh
                              linarith)) f zero
  have hs : ∀ c, dynStart (2 * h) (1 / 2) c = ((c * h : Nat) : Int) := dynStart_half h
  have hn' : n = k + 1 := by
    have key : ∀ c, c < n ↔ c < k + 1 := by
      intro c
      rw [hn c, hs c]
      constructor
      · intro h'
        have h' : c * h + 2 * h ≤ (k + 2) * h := by exact_mod_cast h'
        rw [← add_mul] at h'
        have := Nat.le_of_mul_le_mul_right h' hh
        omega
      · intro h'
        have : (c + 2) * h ≤ (k + 2) * h := Nat.mul_le_mul_right h (by omega)
        rw [add_mul] at this
        exact_mod_cast this
    have a := key n
    have b := key (k + 1)
    omega
  have hc : dynNChunks ((k + 2) * h) (2 * h) (1 / 2) = ((k + 2 : Nat) : Int) := dynNChunks_half h k hh
  rw [hrun fuel (by omega), hn', hc]
  have hrep : ((k + 2 : Nat) : Int).toNat - (k + 1) = 1 := by omega
  rw [hrep]
  simp only [hs, List.replicate_one]
  norm_cast

/-- C49, refuted part: with a positive overlap of less than one sample the computation can fail
with an `IndexError`. -/
theorem C49_refuted_index_error :
    dynMetric 31999 16000 (1 / 100000) (fun i0 _ => i0) 0 10 = some (.error .indexError) := by
  decide +kernel

/-- C49, refuted part: there are not as many time stamps as values (here 4 stamps for 5 values). -/
theorem C49_refuted_time_stamps :
    dynNChunks 10 4 (1 / 2) = 5 ∧ dynNStamps 10 2 2 (1 / 2) = 4 := by
  constructor <;> decide +kernel

/-- C49, refuted part: the dynamic SNR is not a signal-to-noise ratio: on a chunk where speech is
always active it is just the power of the noisy signal, whatever the noise. -/
theorem C49_refuted_snr (noisy : List ℝ) (i0 i1 : Int) (vad : List Bool)
    (hv : ∀ b ∈ pySlice vad i0 i1, b = true)
    (hl : (pySlice vad i0 i1).length = (pySlice noisy i0 i1).length)
    (hne : pySlice noisy i0 i1 ≠ []) :
    dynSnr noisy vad i0 i1 = 10 * Real.logb 10 (avgPow (pySlice noisy i0 i1)) := by
  unfold dynSnr getSnr
  have e1 : (pySlice vad i0 i1).map (fun b => if b then (1 : ℝ) else 0) =
      List.replicate (pySlice noisy i0 i1).length 1 := by
    rw [← hl]
    apply List.eq_replicate_iff.2
    refine ⟨by simp, ?_⟩
    intro b hb
    obtain ⟨c, hc, rfl⟩ := List.mem_map.1 hb
    rw [hv c hc]; rfl
  rw [e1]
  simp only [maskSel_true, maskSel_replicate]
  have : avgPow (List.replicate (pySlice noisy i0 i1).length (1 : ℝ)) = 1 := by
    unfold avgPow
    have hp : 0 < (pySlice noisy i0 i1).length := List.length_pos_of_ne_nil hne
    have hq : (((pySlice noisy i0 i1).length : Nat) : ℝ) ≠ 0 := by exact_mod_cast (by omega : (pySlice noisy i0 i1).length ≠ 0)
    simp only [List.map_replicate, abs_one, one_pow, List.sum_replicate, List.length_replicate,
      nsmul_eq_mul, mul_one]
    exact div_self hq
  rw [this, div_one]

/-! ## C66 -/

/-- C66 (a): the reported SNR is `10 log10` of the ratio of the mean powers over the whole
evaluation window; the voice-activity flags have no influence. -/
theorem C66_snr_value (clean noise filtS filtN : List ℝ) (l c : Option (List ℝ × List ℝ))
    (vad : List Bool) (a b : Int)
    (h1 : clean.length = noise.length) (h2 : filtS.length = filtN.length) :
    (snrMetrics clean noise filtS filtN l c vad a (some b)).before =
      10 * Real.logb 10 (avgPow (pySlice clean a b) / avgPow (pySlice noise a b)) ∧
    (snrMetrics clean noise filtS filtN l c vad a (some b)).after =
      10 * Real.logb 10 (avgPow (pySlice filtS a b) / avgPow (pySlice filtN a b)) := by
  have k1 := snr_bypass (pySlice clean a b) (pySlice noise a b) (pySlice vad a b)
    (pySlice_length_congr h1 a b)
  have k2 := snr_bypass (pySlice filtS a b) (pySlice filtN a b) (pySlice vad a b)
    (pySlice_length_congr h2 a b)
  unfold snrMetrics
  constructor
  · rw [← k1]
    cases c <;> cases l <;> rfl
  · rw [← k2]
    cases c <;> cases l <;> rfl

/-- C66 (a'): the same for the local and the centralised estimates when they are given; they are 0
when they are not. -/
theorem C66_local_centralised_value (clean noise filtS filtN : List ℝ)
    (l c : Option (List ℝ × List ℝ)) (vad : List Bool) (a b : Int)
    (hl : ∀ p, l = some p → p.1.length = p.2.length)
    (hc : ∀ p, c = some p → p.1.length = p.2.length) :
    (snrMetrics clean noise filtS filtN l c vad a (some b)).afterLocal =
      (match l with
      | none => 0
      | some p => 10 * Real.logb 10 (avgPow (pySlice p.1 a b) / avgPow (pySlice p.2 a b))) ∧
    (snrMetrics clean noise filtS filtN l c vad a (some b)).afterCentr =
      (match c with
      | none => 0
      | some p => 10 * Real.logb 10 (avgPow (pySlice p.1 a b) / avgPow (pySlice p.2 a b))) := by
  unfold snrMetrics
  constructor
  · cases l with
    | none => cases c <;> rfl
    | some p =>
      have k := snr_bypass (pySlice p.1 a b) (pySlice p.2 a b) (pySlice vad a b)
        (pySlice_length_congr (hl p rfl) a b)
      simp only
      rw [← k]
      cases c <;> rfl
  · cases c with
    | none => cases l <;> rfl
    | some p =>
      have k := snr_bypass (pySlice p.1 a b) (pySlice p.2 a b) (pySlice vad a b)
        (pySlice_length_congr (hc p rfl) a b)
      simp only
      rw [← k]
      cases l <;> rfl

/-- C66 (a''): without an end index the window extends to the end of the clean signal. -/
theorem C66_default_end (clean noise filtS filtN : List ℝ) (l c : Option (List ℝ × List ℝ))
    (vad : List Bool) (a : Int) :
    snrMetrics clean noise filtS filtN l c vad a none =
      snrMetrics clean noise filtS filtN l c vad a (some clean.length) := rfl

/-- C66 (b): the SNR improvement is the difference between the SNR after and before. -/
theorem C66_diff (clean noise filtS filtN : List ℝ) (l c : Option (List ℝ × List ℝ))
    (vad : List Bool) (a : Int) (b : Option Int) :
    (snrMetrics clean noise filtS filtN l c vad a b).diff =
      (snrMetrics clean noise filtS filtN l c vad a b).after -
        (snrMetrics clean noise filtS filtN l c vad a b).before := by
  unfold snrMetrics
  cases c <;> cases l <;> rfl

/-- C66 (c): applying the same non-zero gain to speech and noise changes no SNR: the reported
improvement is then exactly 0. -/
theorem C66_common_gain (g : ℝ) (hg : g ≠ 0) (clean noise : List ℝ) (l c : Option (List ℝ × List ℝ))
    (vad : List Bool) (a b : Int) (h1 : clean.length = noise.length) :
    (snrMetrics clean noise (clean.map (g * ·)) (noise.map (g * ·)) l c vad a (some b)).diff = 0 := by
  rw [C66_diff]
  obtain ⟨e1, e2⟩ := C66_snr_value clean noise (clean.map (g * ·)) (noise.map (g * ·)) l c vad a b h1
    (by simpa using h1)
  rw [e1, e2, pySlice_map, pySlice_map, avgPow_gain, avgPow_gain]
  have : (g ^ 2 * avgPow (pySlice clean a b)) / (g ^ 2 * avgPow (pySlice noise a b)) =
      avgPow (pySlice clean a b) / avgPow (pySlice noise a b) := by
    rw [mul_div_mul_left]
    positivity
  rw [this, sub_self]

/-- C66 (d): at equal speech power, less residual noise power means a higher reported SNR. -/
theorem C66_monotone (clean noise s n1 n2 : List ℝ) (l c : Option (List ℝ × List ℝ))
    (vad : List Bool) (a b : Int) (h1 : clean.length = noise.length) (hs1 : s.length = n1.length)
    (hs2 : s.length = n2.length) (hs : 0 < avgPow (pySlice s a b))
    (hn : 0 < avgPow (pySlice n1 a b))
    (hlt : avgPow (pySlice n1 a b) < avgPow (pySlice n2 a b)) :
    (snrMetrics clean noise s n2 l c vad a (some b)).diff <
      (snrMetrics clean noise s n1 l c vad a (some b)).diff := by
  rw [C66_diff, C66_diff]
  obtain ⟨e1, e2⟩ := C66_snr_value clean noise s n1 l c vad a b h1 hs1
  obtain ⟨e3, e4⟩ := C66_snr_value clean noise s n2 l c vad a b h1 hs2
  rw [e1, e2, e3, e4]
  have : Real.logb 10 (avgPow (pySlice s a b) / avgPow (pySlice n2 a b)) <
      Real.logb 10 (avgPow (pySlice s a b) / avgPow (pySlice n1 a b)) := by
    apply Real.logb_lt_logb (by norm_num)
    · exact div_pos hs (lt_trans hn hlt)
    · exact div_lt_div_of_pos_left hs hn hlt
  linarith

example : avgPow (pySlice [1, 2, 2] 0 2) = (5 / 2 : ℝ) := by
  have : pySlice [(1 : ℝ), 2, 2] 0 2 = [1, 2] := rfl
  rw [this]
  unfold avgPow
  norm_num

/-- The hypotheses of C66 (d) on a concrete case: speech of power 5/2, residual noises of power
1/2 and 2. -/
example : (snrMetrics [1, 1] [1, 1] [1, 2] [1, 0] none none [] 0 (some 2)).diff >
    (snrMetrics [1, 1] [1, 1] [1, 2] [2, 0] none none [] 0 (some 2)).diff := by
  apply C66_monotone [1, 1] [1, 1] [1, 2] [1, 0] [2, 0] none none [] 0 2 rfl rfl rfl
  · change 0 < avgPow [1, 2]; unfold avgPow; norm_num
  · change 0 < avgPow [1, 0]; unfold avgPow; norm_num
  · change avgPow [1, 0] < avgPow [2, 0]; unfold avgPow; norm_num

/-- C66, refuted part: the improvements of the local and the centralised estimates are never
filled in: they are reported as 0 whatever the estimates. -/
theorem C66_refuted_local_centralised_diff (clean noise filtS filtN : List ℝ)
    (l c : Option (List ℝ × List ℝ)) (vad : List Bool) (a : Int) (b : Option Int) :
    (snrMetrics clean noise filtS filtN l c vad a b).diffLocal = 0 ∧
      (snrMetrics clean noise filtS filtN l c vad a b).diffCentr = 0 := by
  unfold snrMetrics
  cases c <;> cases l <;> exact ⟨rfl, rfl⟩

end Danse
