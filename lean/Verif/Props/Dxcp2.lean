import Verif.Proofs.Dxcp6

/-!
# Properties C67–C69: peak search, phase transform, closed loop
-/

namespace Danse

/-! ## C67 -/

/-- C67 (a): the position of the maximum is the first one, and the refined position is always
defined (never NaN), for every non-empty correlation. -/
theorem C67_defined {y : List ℚ} (hy : y ≠ []) :
    (∃ m, y[argmaxFirst y]? = some m ∧ (∀ v ∈ y, v ≤ m) ∧
      ∀ (j : Nat), j < argmaxFirst y → ∀ v, y[j]? = some v → v < m) ∧
    ∃ r, peakFrac y = .ok r ∧ -(1 / 2) ≤ r ∧ r ≤ 1 / 2 := by
  refine ⟨argmaxFirst_spec hy, ?_⟩
  obtain ⟨r, h1, h2, h3, _⟩ := peakFrac_ok hy
  exact ⟨r, h1, h2, h3⟩

/-- C67 (b): the interpolation is exact for parabolas: if the correlation near its maximum is
`c - a·(x - v)²`, the refinement is `v`. -/
theorem C67_exact_on_parabola (a c v : ℚ) (ha : 0 < a) :
    parabolaFrac (c - a * (-1 - v) ^ 2) (c - a * (0 - v) ^ 2) (c - a * (1 - v) ^ 2) = .ok v := by
  unfold parabolaFrac
  have e : 2 * (c - a * (0 - v) ^ 2) - (c - a * (1 - v) ^ 2) - (c - a * (-1 - v) ^ 2) = 2 * a := by ring
  rw [e, if_neg (by positivity)]
  congr 1
  field_simp
  ring

/-- C67 (c): the SRO estimate is always defined and lies within the searched range: between
`-Λ` and `Λ + 1 - 1/p` samples over the accumulation time. -/
theorem C67_sro_range (lam p : Nat) (hp : 0 < p) (b : ℚ) (hb : 0 < b) (y : List ℚ)
    (hl : y.length = (2 * lam + 1) * p) :
    ∃ e, sroOfPeak lam p b y = .ok e ∧ -(lam : ℚ) / b * 1000000 ≤ e ∧
      e ≤ ((lam : ℚ) + 1 - 1 / p) / b * 1000000 := by
  have hpos : 0 < y.length := by rw [hl]; positivity
  have hy : y ≠ [] := List.ne_nil_of_length_pos hpos
  obtain ⟨r, h1, h2, h3, h4⟩ := peakFrac_ok hy
  obtain ⟨m, g1, _, _⟩ := argmaxFirst_spec hy
  have hlt : argmaxFirst y < y.length := by
    by_contra hge
    rw [List.getElem?_eq_none (by omega)] at g1
    cases g1
  unfold sroOfPeak
  rw [h1]
  refine ⟨_, rfl, ?_, ?_⟩
  · have hpq : (0 : ℚ) < p := by exact_mod_cast hp
    have hkey : (0 : ℚ) ≤ argmaxFirst y / p + r / p := by
      rw [← add_div]
      apply div_nonneg _ hpq.le
      by_cases h0 : argmaxFirst y = 0
      · rw [h4 (Or.inl h0), h0]; simp
      · have : (1 : ℚ) ≤ argmaxFirst y := by exact_mod_cast (by omega : 1 ≤ argmaxFirst y)
        linarith
    apply mul_le_mul_of_nonneg_right _ (by norm_num)
    apply div_le_div_of_nonneg_right _ hb.le
    linarith
  · have hpq : (0 : ℚ) < p := by exact_mod_cast hp
    have hN : (y.length : ℚ) = (2 * lam + 1) * p := by rw [hl]; push_cast; ring
    have hkey : (argmaxFirst y : ℚ) + r ≤ (2 * lam + 1) * p - 1 := by
      rw [← hN]
      by_cases h0 : argmaxFirst y = y.length - 1
      · rw [h4 (Or.inr h0), h0]
        have : ((y.length - 1 : Nat) : ℚ) = y.length - 1 := by
          rw [Nat.cast_sub (by omega)]; simp
        rw [this]; linarith
      · have : (argmaxFirst y : ℚ) ≤ y.length - 2 := by
          have h5 : argmaxFirst y + 2 ≤ y.length := by omega
          have : ((argmaxFirst y + 2 : Nat) : ℚ) ≤ y.length := by exact_mod_cast h5
          push_cast at this
          linarith
        linarith
    apply mul_le_mul_of_nonneg_right _ (by norm_num)
    apply div_le_div_of_nonneg_right _ hb.le
    have : (argmaxFirst y : ℚ) / p + r / p ≤ (2 * lam + 1) - 1 / p := by
      rw [← add_div, div_le_iff₀ hpq]
      have : ((2 * (lam : ℚ) + 1) - 1 / p) * p = (2 * lam + 1) * p - 1 := by field_simp
      rw [this]; exact hkey
    linarith

example : sroOfPeak 1 2 79872 [0, 1, 3, 5, 2, 1] = .ok (1000000 * (9 / 20) / 79872) := by
  decide +kernel

/-- There are correlations of every length with the maximum in the last bin. -/
theorem argmax_last (n : Nat) : ∃ y : List ℚ, y.length = n + 1 ∧ argmaxFirst y = n := by
  refine ⟨List.replicate n 0 ++ [1], by simp, ?_⟩
  obtain ⟨m, h1, h2, h3⟩ := argmaxFirst_spec (y := List.replicate n (0 : ℚ) ++ [1]) (by simp)
  have hm : 1 ≤ m := h2 1 (by simp)
  by_contra hc
  rcases Nat.lt_or_gt_of_ne hc with hlt | hgt
  · rw [List.getElem?_append_left (by simpa using hlt), List.getElem?_replicate, if_pos hlt] at h1
    injection h1 with h1
    linarith
  · rw [List.getElem?_eq_none (by simp; omega)] at h1
    cases h1

/-- C67, refuted part: the estimate is not bounded by the maximum absolute SRO given by the user:
with the default parameters (1000 ppm, hence Λ = 80) a correlation with its maximum in the last bin
gives more than 1000 ppm, and the range is not symmetric. -/
theorem C67_refuted_max_sro :
    lambdaOf 79872 1000 = 80 ∧
    ((((80 : ℕ) : ℚ) + 1 - 1 / ((4 : ℕ) : ℚ)) / 79872 * 1000000 > 1010) ∧
    ∃ y : List ℚ, y.length = (2 * 80 + 1) * 4 ∧
      sroOfPeak 80 4 79872 y = .ok ((((80 : ℕ) : ℚ) + 1 - 1 / ((4 : ℕ) : ℚ)) / 79872 * 1000000) := by
  obtain ⟨y, hy, hlast⟩ := argmax_last 643
  refine ⟨by decide +kernel, by norm_num, y, hy, ?_⟩
  unfold sroOfPeak peakFrac
  simp only [hlast, hy]
  rw [if_pos (Or.inr (by norm_num))]
  change Except.ok _ = _
  norm_num

/-- C67 (d): the STO estimate is always defined and, without a time difference of arrival, within
`±Υ` samples. -/
theorem C67_sto_range (ups : Nat) (fs : ℚ) (y : List ℚ) (hl : y.length = 2 * ups + 1) :
    ∃ e, stoOfPeak ups 0 fs y = .ok e ∧ -(ups : ℚ) ≤ e ∧ e ≤ ups := by
  have hy : y ≠ [] := List.ne_nil_of_length_pos (by omega)
  obtain ⟨r, h1, h2, h3, h4⟩ := peakFrac_ok hy
  obtain ⟨m, g1, _, _⟩ := argmaxFirst_spec hy
  have hlt : argmaxFirst y < y.length := by
    by_contra hge
    rw [List.getElem?_eq_none (by omega)] at g1
    cases g1
  unfold stoOfPeak
  simp only
  by_cases hc : argmaxFirst y = 0 ∨ argmaxFirst y = 2 * ups
  · rw [if_pos hc]
    refine ⟨_, rfl, ?_, ?_⟩
    · have : (0 : ℚ) ≤ argmaxFirst y := by positivity
      linarith
    · have : (argmaxFirst y : ℚ) ≤ 2 * ups := by exact_mod_cast (by omega : argmaxFirst y ≤ 2 * ups)
      linarith
  · rw [if_neg hc, h1]
    push Not at hc
    refine ⟨_, rfl, ?_, ?_⟩
    · have : (1 : ℚ) ≤ argmaxFirst y := by exact_mod_cast (by omega : 1 ≤ argmaxFirst y)
      linarith
    · have : ((argmaxFirst y + 1 : Nat) : ℚ) ≤ (2 * ups : Nat) := by
        exact_mod_cast (by omega : argmaxFirst y + 1 ≤ 2 * ups)
      push_cast at this
      linarith

/-- C67, refuted part: the correction by the time difference of arrival is dropped when the maximum
is at the border. -/
theorem C67_refuted_tdoa :
    stoOfPeak 1 (1 / 1000) 16000 [3, 2, 1] = .ok (-1) ∧
    stoOfPeak 1 (1 / 1000) 16000 [2, 3, 2] = .ok 16 := by
  constructor <;> decide +kernel

/-! ## C68 -/

/-- C68 (a): every bin of the phase-transformed cross-spectrum is within the unit disc, and on the
unit circle as soon as the product of the spectra reaches the minimum magnitude; so are all
recursive averages (for smoothing constants between 0 and 1). -/
theorem C68_unit {mn : ℝ} (hm : 0 < mn) :
    (∀ x1 x2 : ℂ, ‖phatBin mn x1 x2‖ ≤ 1) ∧
    (∀ x1 x2 : ℂ, mn ≤ ‖x1 * star x2‖ → ‖phatBin mn x1 x2‖ = 1) ∧
    ∀ (al : ℝ), 0 ≤ al → al ≤ 1 → ∀ h : List (ℂ × ℂ),
      ‖phatAvg al (h.map fun p => phatBin mn p.1 p.2)‖ ≤ 1 := by
  refine ⟨phat_norm_le hm, fun _ _ h => phat_norm_eq hm h, ?_⟩
  intro al h0 h1 h
  apply phatAvg_norm h0 h1
  intro v hv
  obtain ⟨p, _, rfl⟩ := List.mem_map.1 hv
  exact phat_norm_le hm _ _

/-- C68 (b): the phase transform does not depend on the levels of the two channels (above the
minimum magnitude). -/
theorem C68_level_invariant {mn : ℝ} {g1 g2 : ℝ} (h1 : 0 < g1) (h2 : 0 < g2) {x1 x2 : ℂ}
    (ha : mn ≤ ‖x1 * star x2‖) (hb : mn ≤ ‖(g1 * x1) * star ((g2 : ℂ) * x2)‖) :
    phatBin mn (g1 * x1) (g2 * x2) = phatBin mn x1 x2 := phat_gain h1 h2 ha hb

/-- C68 (c): exchanging the channels conjugates the spectrum (the estimated delay changes sign). -/
theorem C68_swap (mn : ℝ) (x1 x2 : ℂ) : phatBin mn x2 x1 = star (phatBin mn x1 x2) :=
  phat_swap mn x1 x2

/-- A concrete case: a pure phase difference is kept. -/
example : phatBin (1 / 10) (2 * Complex.I) 3 = Complex.I := by
  unfold phatBin
  have : (2 * Complex.I) * star (3 : ℂ) = 6 * Complex.I := by
    have : star (3 : ℂ) = 3 := by
      exact Complex.conj_ofReal 3
    rw [this]; ring
  simp only [this]
  have hn : ‖6 * Complex.I‖ = 6 := by simp
  rw [hn, if_neg (by norm_num)]
  push_cast
  field_simp

/-- C68, refuted part: below the minimum magnitude the levels do matter. -/
theorem C68_refuted_quiet : phatBin 1 (1 / 2) 1 = 1 / 2 ∧ phatBin 1 (2 * (1 / 2)) 1 = 1 := by
  unfold phatBin
  constructor
  · simp only [star_one, mul_one]
    rw [if_pos (by norm_num)]; norm_num
  · simp only [star_one, mul_one]
    rw [if_neg (by norm_num)]; norm_num

/-! ## C69 -/

section
variable {S E : Type} {sroOf : S → ℚ} {estStep : E → List ℝ → List ℝ → Except PyErr (E × ℚ)}
  {ctlStep : S → ℚ → S}

/-- C69 (a): in the closed loop the reference channel is delayed by exactly two frames (zeros for the
first two), whatever the estimator and the controller do. -/
theorem C69_reference_delayed {B : Nat} (e0 : E) (c0 : S) (frames : List (List ℝ × List ℝ))
    (s' : LoopSt S E) (os : List LoopOut)
    (h : LoopSt.run sroOf estStep ctlStep
      ⟨Resampler.init B, DelayBuf.init (List.replicate B 0) 3, e0, c0⟩ frames = .ok (s', os)) :
    os.length = frames.length ∧ ∀ (j : Nat) (o : LoopOut), os[j]? = some o →
      o.col0 = earlier B 2 (frames.map (·.1)) j := by
  obtain ⟨h1, h2⟩ := loop_col0 (B := B) frames [] _ _ _ rfl h
  refine ⟨h1, ?_⟩
  intro j o hj
  simpa using h2 j o hj

/-- C69 (b): with the IMC controller the two channels stay exactly aligned as long as its estimate
is zero, i.e. during the first `start_delay + 3` frames: both are the input frames of two calls
earlier. -/
theorem C69_aligned {B : Nat} (hB : 0 < B) (sd : Int) (e0 : E) (acs : ℚ)
    (frames : List (List ℝ × List ℝ)) (hl : ∀ p ∈ frames, p.2.length = B)
    (hn : (frames.length : Int) ≤ sd + 3) (s' : LoopSt ImcCtl E) (os : List LoopOut)
    (h : LoopSt.run (fun c : ImcCtl => c.cur) estStep (fun c r => c.step r acs)
      ⟨Resampler.init B, DelayBuf.init (List.replicate B 0) 3, e0, { startDelay := sd }⟩ frames =
        .ok (s', os)) :
    ∀ (j : Nat) (o : LoopOut), os[j]? = some o →
      o.zi = earlier B 2 (frames.map (·.2)) j ∧ o.col1 = o.zi ∧
      o.col0 = earlier B 2 (frames.map (·.1)) j := by
  intro j o hj
  have hl' : ∀ b ∈ frames.map (·.2), b.length = B := by
    intro b hb
    obtain ⟨p, hp, rfl⟩ := List.mem_map.1 hb
    exact hl p hp
  have hz := loop_zi hB hl'
    (fun n (c : ImcCtl) => ∃ hist : List (ℚ × ℚ), hist.length = n ∧
      c = ImcCtl.run { startDelay := sd } hist)
    (by
      rintro n c hnn ⟨hist, rfl, rfl⟩
      rw [List.length_map] at hnn
      refine ⟨imc_frozen2 sd hist (by omega), ?_⟩
      intro r
      exact ⟨hist ++ [(r, acs)], by simp, by rw [imc_run_snoc]⟩)
    frames 0 _ _ _ (by simp) (resInv_init (sigOf_neg _ _) (by exact_mod_cast hB)) ⟨[], rfl, rfl⟩ h j o hj
  rw [Nat.zero_add] at hz
  exact ⟨hz.1, hz.2, (C69_reference_delayed e0 _ frames s' os h).2 j o hj⟩

/-- A concrete run to which the theorems apply: a trivial estimator, three frames. -/
example : ∃ s' os, LoopSt.run (fun c : ImcCtl => c.cur) (fun (e : Unit) _ _ => .ok (e, 7))
    (fun c r => c.step r 1) ⟨Resampler.init 1, DelayBuf.init (List.replicate 1 0) 3, (),
      { startDelay := 0 }⟩ [([1], [4]), ([2], [5]), ([3], [6])] = .ok (s', os) := by
  unfold LoopSt.run LoopSt.run LoopSt.run LoopSt.run LoopSt.process Resampler.process
  simp [Resampler.init, ImcCtl.step, kNom, bind, Except.bind]

/-- C69, refuted part: the caller's frame is not left alone: on the first call both columns of the
caller's array are replaced by zeros, whatever it contained. -/
theorem C69_refuted_input_unchanged {B : Nat} (hB : 0 < B) (sd : Int) (e0 : E) (acs : ℚ)
    (x0 x1 : List ℝ) (hl : x1.length = B) (hsd : 0 ≤ sd) (s' : LoopSt ImcCtl E) (os : List LoopOut)
    (h : LoopSt.run (fun c : ImcCtl => c.cur) estStep (fun c r => c.step r acs)
      ⟨Resampler.init B, DelayBuf.init (List.replicate B 0) 3, e0, { startDelay := sd }⟩ [(x0, x1)] =
        .ok (s', os)) :
    ∃ o, os = [o] ∧ o.col0 = List.replicate B 0 ∧ o.col1 = List.replicate B 0 := by
  have hlen := (C69_reference_delayed e0 _ _ s' os h).1
  obtain ⟨o, rfl⟩ : ∃ o, os = [o] := List.length_eq_one_iff.1 hlen
  have := C69_aligned hB sd e0 acs [(x0, x1)] (by simpa using hl) (by simp; omega) s' [o] h 0 o rfl
  refine ⟨o, rfl, ?_, ?_⟩
  · rw [this.2.2]; unfold earlier; rw [if_pos (by omega)]
  · rw [this.2.1, this.1]; unfold earlier; rw [if_pos (by omega)]

/-- C69, refuted part: the returned synchronised frame is a view of the resampler's output buffer:
after the next call it no longer holds the returned samples but those of the next call. -/
theorem C69_refuted_returned_frame_stable {s s1 s2 : Resampler} {b1 b2 o1 o2 : List ℝ}
    {r1 r2 t1 t2 : ℚ} (_h1 : s.process b1 r1 t1 = .ok (s1, o1))
    (h2 : s1.process b2 r2 t2 = .ok (s2, o2)) :
    o1 = s1.outBuf.take s1.B ∧ s2.outBuf.take s2.B = o2 :=
  ⟨process_returns _h1, (process_returns h2).symm⟩
end

end Danse
