import Mathlib.Analysis.SpecialFunctions.Complex.Arg
import Mathlib.Analysis.SpecialFunctions.Complex.Log
import Verif.Proofs.Sro3

/-! # Lemmas for the coherence-drift estimator -/

namespace Danse

theorem resProd_length {wPos wPri : List ℂ} {P : Nat} (h1 : wPos.length = P) (h2 : wPri.length = P) :
    (resProd wPos wPri).length = 2 * (P - 1) := by
  simp [resProd, h1, h2]; omega

/-- The product at bin `κ`. -/
noncomputable def prodAt (wPos wPri : List ℂ) (κ : Nat) : ℂ := at0 wPos κ * star (at0 wPri κ)

theorem at0_resProd {wPos wPri : List ℂ} {P : Nat} (h1 : wPos.length = P) (h2 : wPri.length = P)
    {j : Nat} (hj : j < 2 * (P - 1)) :
    at0 (resProd wPos wPri) j = if j < P - 1 then prodAt wPos wPri j
      else star (prodAt wPos wPri (2 * (P - 1) - j)) := by
  unfold resProd prodAt
  simp only
  set r := List.zipWith (fun a b => a * star b) wPos wPri with hr
  have hrl : r.length = P := by simp [hr, h1, h2]
  have hget : ∀ m (h : m < P), at0 r m = at0 wPos m * star (at0 wPri m) := by
    intro m h
    rw [hr]
    simp only [at0, List.getD_eq_getElem?_getD, List.getElem?_zipWith,
      List.getElem?_eq_getElem (show m < wPos.length by omega),
      List.getElem?_eq_getElem (show m < wPri.length by omega)]
    simp
  rw [at0_append]
  have hdl : r.dropLast.length = P - 1 := by simp [hrl]
  rw [hdl]
  by_cases hjp : j < P - 1
  · rw [if_pos hjp, if_pos hjp, List.dropLast_eq_take, at0_take (by omega), hget j (by omega)]
  · rw [if_neg hjp, if_neg hjp, List.dropLast_eq_take, at0_take (by simp [hrl]; omega),
      at0_reverse (by simp [hrl]; omega), at0_map (by simp), List.length_map, hrl,
      hget _ (by omega)]
    rw [show P - 1 - (j - (P - 1)) = 2 * (P - 1) - j by omega]

theorem at0_flagRotate (d : ℝ) (r : List ℂ) (n : Nat) :
    at0 (flagRotate d r) n = at0 r n * Complex.exp (Complex.I * 2 * Real.pi / r.length * n * d) := by
  unfold flagRotate at0
  simp only [List.getD_eq_getElem?_getD, List.getElem?_map, List.getElem?_zipIdx]
  cases r[n]? <;> simp

theorem flagRotate_length (d : ℝ) (r : List ℂ) : (flagRotate d r).length = r.length := by
  simp [flagRotate]

/-- The unit impulse. -/
def impulse (N : Nat) : List ℂ := 1 :: List.replicate (N - 1) 0

theorem at0_impulse (N t : Nat) : at0 (impulse N) t = if t = 0 then 1 else 0 := by
  unfold impulse at0
  cases t with
  | zero => simp
  | succ t =>
    simp only [List.getD_eq_getElem?_getD, List.getElem?_cons_succ, List.getElem?_replicate]
    split <;> simp

theorem dft_impulse {ζ : ℂ} {N : Nat} (hN : 0 < N) : dft ζ N (impulse N) = List.replicate N 1 := by
  unfold dft
  apply List.ext_getElem
  · simp
  intro i h1 h2
  simp only [List.getElem_map, List.getElem_range, List.getElem_replicate, at0_impulse]
  rw [Finset.sum_eq_single 0]
  · simp
  · intro b _ hb; simp [hb]
  · intro h; exact absurd (Finset.mem_range.mpr hN) h

theorem drift_spectrum {N P : Nat} (hP : 2 ≤ P) (hN : N = 2 * (P - 1)) {wPos wPri : List ℂ}
    (h1 : wPos.length = P) (h2 : wPri.length = P) {d D : Int}
    (h : ∀ κ < P, prodAt wPos wPri κ = phaseFactor N κ (d : ℝ)) :
    flagRotate (D : ℝ) (resProd wPos wPri) =
      dft (Complex.exp (2 * Real.pi * Complex.I / N)) N (circDelay N (d - D) (impulse N)) := by
  have hN0 : 0 < N := by omega
  set ζ := Complex.exp (2 * Real.pi * Complex.I / N) with hζ
  have r : DftRoot ζ N := dft_root N hN0
  have hl : (resProd wPos wPri).length = N := by rw [resProd_length h1 h2, hN]
  apply at0_ext
  · rw [flagRotate_length, hl, dft_length]
  · intro j hj
    rw [flagRotate_length, hl] at hj
    rw [at0_flagRotate, at0_resProd h1 h2 (by omega), dft_shift r, dft_impulse hN0]
    have e1 : Complex.exp (Complex.I * 2 * Real.pi / (resProd wPos wPri).length * j * (D : ℝ)) =
        ζ ^ ((j : Int) * D) := by
      rw [hl, hζ, ← Complex.exp_int_mul]
      congr 1; push_cast; ring
    have e2 : at0 ((List.replicate N (1 : ℂ)).zipIdx.map fun p => p.1 * ζ ^ (-((p.2 : Int) * (d - D)))) j =
        ζ ^ (-((j : Int) * (d - D))) := by
      unfold at0
      simp [List.getD_eq_getElem?_getD, List.getElem?_replicate, hj]
    rw [e1, e2]
    have e3 : (if j < P - 1 then prodAt wPos wPri j else star (prodAt wPos wPri (2 * (P - 1) - j))) =
        ζ ^ (-((j : Int) * d)) := by
      by_cases hjp : j < P - 1
      · rw [if_pos hjp, h j (by omega), phaseFactor_zpow]
      · rw [if_neg hjp, h _ (by omega), phaseFactor_zpow, ← hζ, star_zpow₀, r.unit, inv_zpow', neg_neg]
        apply zpow_congr_mod r
        refine ⟨d, ?_⟩
        rw [← hN, Nat.cast_sub (by omega)]
        ring
    rw [e3, ← zpow_add₀ r.ne]
    congr 1; ring

theorem pure_drift {N P : Nat} (hP : 2 ≤ P) (hN : N = 2 * (P - 1)) {wPos wPri : List ℂ}
    (h1 : wPos.length = P) (h2 : wPri.length = P) {d D : Int}
    (h : ∀ κ < P, prodAt wPos wPri κ = phaseFactor N κ (d : ℝ)) :
    idft (Complex.exp (2 * Real.pi * Complex.I / N)) N (flagRotate (D : ℝ) (resProd wPos wPri)) =
      circDelay N (d - D) (impulse N) := by
  rw [drift_spectrum hP hN h1 h2 h]
  exact idft_dft (dft_root N (by omega)) (circDelay_length _ _)

theorem coherence_norm {y0 yq : ℂ} (h0 : y0 ≠ 0) (hq : yq ≠ 0) : ‖coherence y0 yq‖ = 1 := by
  unfold coherence
  have h1 : 0 < ‖y0‖ * ‖yq‖ := mul_pos (norm_pos_iff.mpr h0) (norm_pos_iff.mpr hq)
  rw [norm_div, norm_mul, norm_star, Complex.norm_real, ← mul_pow, Real.sqrt_sq h1.le,
    Real.norm_of_nonneg h1.le, div_self h1.ne']

theorem coherence_eq (a h : ℂ) (p : ℂ) (hp : ‖p‖ = 1) (ha : a ≠ 0) (hh : h ≠ 0) :
    coherence a (h * a * p) = star h / (‖h‖ : ℂ) * star p := by
  unfold coherence
  have hna : ‖a‖ ≠ 0 := norm_ne_zero_iff.mpr ha
  have hnh : ‖h‖ ≠ 0 := norm_ne_zero_iff.mpr hh
  have e : ‖a‖ ^ 2 * ‖h * a * p‖ ^ 2 = (‖h‖ * ‖a‖ ^ 2) ^ 2 := by
    rw [norm_mul, norm_mul, hp]; ring
  rw [e, Real.sqrt_sq (by positivity)]
  have e2 : a * star a = ((‖a‖ ^ 2 : ℝ) : ℂ) := by
    have := Complex.mul_conj a
    rw [Complex.normSq_eq_norm_sq] at this
    exact this
  have hc1 : ((‖a‖ ^ 2 : ℝ) : ℂ) ≠ 0 := by exact_mod_cast pow_ne_zero 2 hna
  have hc2 : (‖h‖ : ℂ) ≠ 0 := by exact_mod_cast hnh
  rw [star_mul, star_mul, show a * (star p * (star a * star h)) = star h * star p * (a * star a) by ring,
    e2, Complex.ofReal_mul]
  field_simp

/-! ### Sums -/

theorem sum_id (m : Nat) : (∑ κ ∈ Finset.range m, (κ : ℝ)) = m * (m - 1) / 2 := by
  induction m with
  | zero => simp
  | succ m ih => rw [Finset.sum_range_succ, ih]; push_cast; ring

theorem sum_sq (m : Nat) : (∑ κ ∈ Finset.range m, (κ : ℝ) * κ) = (m - 1) * m * (2 * m - 1) / 6 := by
  induction m with
  | zero => simp
  | succ m ih => rw [Finset.sum_range_succ, ih]; push_cast; ring

theorem arg_exp_small {t : ℝ} (h1 : -Real.pi < t) (h2 : t ≤ Real.pi) :
    Complex.arg (Complex.exp (t * Complex.I)) = t := by
  rw [Complex.exp_mul_I]
  exact Complex.arg_cos_add_sin_mul_I ⟨h1, h2⟩

theorem ls_exact {N P ld Ns : Nat} (hP : 2 ≤ P) (hN : N = 2 * (P - 1)) (hld : 0 < ld) (hNs : 0 < Ns)
    {wPos wPri : List ℂ} (h1 : wPos.length = P) (h2 : wPri.length = P) {D : ℝ} (hD : |D| < 1)
    (h : ∀ κ < P, prodAt wPos wPri κ = phaseFactor N κ D) :
    lsEstimate ld Ns P (resProd wPos wPri) =
      .ok (-(D / (ld * Ns)) * (2 * P * (P + 1) / ((P - 1) * (2 * P - 1)))) := by
  have hl : (resProd wPos wPri).length = N := by rw [resProd_length h1 h2, hN]
  unfold lsEstimate
  simp only
  have hPr : (2 : ℝ) ≤ P := by exact_mod_cast hP
  have hldr : (0 : ℝ) < ld := by exact_mod_cast hld
  have hNsr : (0 : ℝ) < Ns := by exact_mod_cast hNs
  have hNr : (N : ℝ) = 2 * (P - 1) := by rw [hN]; push_cast [Nat.cast_sub (show 1 ≤ P by omega)]; ring
  have hN0 : (0 : ℝ) < N := by rw [hNr]; linarith
  have hpi := Real.pi_pos
  -- denominator
  have hden : (∑ κ ∈ Finset.range P, Real.pi * κ * (ld * Ns) / (P * 2) * (Real.pi * κ * (ld * Ns) / (P * 2))) =
      (Real.pi * (ld * Ns) / (P * 2)) ^ 2 * ((P - 1) * P * (2 * P - 1) / 6) := by
    rw [← sum_sq, Finset.mul_sum]
    apply Finset.sum_congr rfl
    intro κ _; ring
  have hdpos : (0 : ℝ) < (Real.pi * (ld * Ns) / (P * 2)) ^ 2 * ((P - 1) * P * (2 * P - 1) / 6) := by
    have : (0 : ℝ) < P - 1 := by linarith
    have : (0 : ℝ) < 2 * P - 1 := by linarith
    have : (0 : ℝ) < P := by linarith
    positivity
  rw [hden, if_neg hdpos.ne']
  congr 1
  -- angles
  have hang : ∀ κ, 1 ≤ κ → κ < P →
      ((pySlice (resProd wPos wPri) (-(P : Int)) (resProd wPos wPri).length).map Complex.arg).getD κ 0 =
        2 * Real.pi * (P - κ) * D / N := by
    intro κ hk1 hk2
    have hs : pySlice (resProd wPos wPri) (-(P : Int)) (resProd wPos wPri).length =
        (resProd wPos wPri).drop (N - P) := by
      unfold pySlice pySliceBound
      rw [if_pos (by omega), if_neg (by omega), hl]
      rw [List.take_of_length_le (by rw [List.length_drop, hl]; simp)]
      congr 1; omega
    rw [hs]
    have hlt : N - P + κ < N := by omega
    have hv : ((resProd wPos wPri).drop (N - P))[κ]? = some (at0 (resProd wPos wPri) (N - P + κ)) := by
      rw [List.getElem?_drop, at0, List.getD_eq_getElem?_getD, List.getElem?_eq_getElem (by omega)]
      rfl
    rw [List.getD_eq_getElem?_getD, List.getElem?_map, hv, Option.map_some, Option.getD_some,
      at0_resProd h1 h2 (by omega), if_neg (by omega), h _ (by omega)]
    rw [show 2 * (P - 1) - (N - P + κ) = P - κ by omega]
    have hstar : star (phaseFactor N (P - κ) D) =
        Complex.exp (((2 * Real.pi * (P - κ) * D / N : ℝ) : ℂ) * Complex.I) := by
      unfold phaseFactor
      change (starRingEnd ℂ) _ = _
      rw [← Complex.exp_conj]
      congr 1
      simp only [map_mul, map_div₀, map_neg, map_one, Complex.conj_I, Complex.conj_ofReal, map_natCast,
        map_ofNat]
      rw [Nat.cast_sub hk2.le]
      push_cast
      ring
    rw [hstar]
    have hkr : (1 : ℝ) ≤ κ := by exact_mod_cast hk1
    have hkr2 : (κ : ℝ) < P := by exact_mod_cast hk2
    have hb : |2 * Real.pi * (P - κ) * D / N| < Real.pi := by
      rw [abs_div, abs_mul, abs_of_pos (show (0 : ℝ) < 2 * Real.pi * (P - κ) by
        apply mul_pos; linarith; linarith), abs_of_pos hN0, div_lt_iff₀ hN0, hNr]
      have h3 : 2 * Real.pi * (P - κ) * |D| < 2 * Real.pi * (P - κ) * 1 := by
        apply mul_lt_mul_of_pos_left hD
        apply mul_pos; linarith; linarith
      nlinarith
    rw [abs_lt] at hb
    exact arg_exp_small hb.1 hb.2.le
  have hnum : (∑ κ ∈ Finset.range P, Real.pi * κ * (ld * Ns) / (P * 2) *
      ((pySlice (resProd wPos wPri) (-(P : Int)) (resProd wPos wPri).length).map Complex.arg).getD κ 0) =
      Real.pi * (ld * Ns) / (P * 2) * (2 * Real.pi * D / N) * (P * (P * (P - 1) / 2) - (P - 1) * P * (2 * P - 1) / 6) := by
    rw [← sum_sq, ← sum_id, Finset.mul_sum, ← Finset.sum_sub_distrib, Finset.mul_sum]
    apply Finset.sum_congr rfl
    intro κ hκ
    have hκ := Finset.mem_range.mp hκ
    rcases Nat.eq_zero_or_pos κ with rfl | hpos
    · simp
    · rw [hang κ hpos hκ]; ring
  rw [hnum, hNr]
  have a1 : (P : ℝ) - 1 ≠ 0 := by linarith
  have a2 : (2 * (P : ℝ) - 1) ≠ 0 := by linarith
  have a3 : (P : ℝ) ≠ 0 := by linarith
  have a4 := hldr.ne'
  have a5 := hNsr.ne'
  field_simp
  ring

end Danse
