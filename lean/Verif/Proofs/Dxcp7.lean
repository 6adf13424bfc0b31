import Mathlib.Analysis.SpecialFunctions.Trigonometric.Basic
import Verif.Proofs.Dxcp6
import Verif.Proofs.Sro3

/-! # Fractional delay of sinusoids -/

namespace Danse

theorem fftK_low {F m : Nat} (he : 2 ∣ F) (h : 2 * m < F) : fftK F m = m := by
  unfold fftK; rw [if_pos (by omega)]

theorem fftK_high {F m : Nat} (he : 2 ∣ F) (h : 2 * m < F) : fftK F ((F - m) % F) = -(m : Int) := by
  unfold fftK
  rcases Nat.eq_zero_or_pos m with rfl | hm
  · rw [Nat.sub_zero, Nat.mod_self, if_pos (by omega)]; simp
  · rw [Nat.mod_eq_of_lt (by omega), if_neg (by omega)]; omega

theorem fracDelay_cos {F m : Nat} (he : 2 ∣ F) (h : 2 * m < F) (φ r : ℝ) :
    fracDelay F r ((List.range F).map fun (t : Nat) => Real.cos (2 * Real.pi * m * t / F + φ)) =
      (List.range F).map fun (i : Nat) => Real.cos (2 * Real.pi * m * (i - r) / F + φ) := by
  have hF : 0 < F := by omega
  have hFc : (F : ℂ) ≠ 0 := by exact_mod_cast hF.ne'
  rw [fracDelay_eq]
  apply List.map_congr_left
  intro i hi
  set ζ := Complex.exp (2 * Real.pi * Complex.I / F) with hζ
  have R : DftRoot ζ F := dft_root F hF
  set m' := (F - m) % F with hm'
  have hm'F : m' < F := Nat.mod_lt _ hF
  -- the sinusoid as two exponentials
  have hx : ∀ t < F, at0 (((List.range F).map fun (t : Nat) =>
      Real.cos (2 * Real.pi * m * t / F + φ)).map Complex.ofReal) t =
      (Complex.exp (φ * Complex.I) * ζ ^ (t * m) + Complex.exp (-(φ * Complex.I)) * ζ ^ (t * m')) / 2 := by
    intro t ht
    rw [List.map_map, at0_range_map ht, Function.comp_apply, Complex.ofReal_cos, Complex.cos]
    have e1 : ζ ^ (t * m') = ζ ^ (-((t : Int) * m)) := by
      rw [← zpow_natCast]
      apply zpow_congr_mod R
      rw [hm']
      rcases Nat.eq_zero_or_pos m with rfl | hm0
      · simp
      · rw [Nat.mod_eq_of_lt (by omega)]
        push_cast [Nat.cast_sub (show m ≤ F by omega)]
        exact ⟨t, by ring⟩
    have e2 : ζ ^ (t * m) = Complex.exp (2 * Real.pi * m * t / F * Complex.I) := by
      rw [hζ, ← Complex.exp_nat_mul]; congr 1; push_cast; ring
    have e3 : ζ ^ (-((t : Int) * m)) = Complex.exp (-(2 * Real.pi * m * t / F * Complex.I)) := by
      rw [hζ, ← Complex.exp_int_mul]; congr 1; push_cast; ring
    rw [e1, e2, e3, ← Complex.exp_add, ← Complex.exp_add]
    congr 2
    · congr 1; push_cast; ring
    · congr 1; push_cast; ring
  -- its spectrum
  have hX : ∀ k < F, (∑ t ∈ Finset.range F, at0 (((List.range F).map fun (t : Nat) =>
      Real.cos (2 * Real.pi * m * t / F + φ)).map Complex.ofReal) t * (ζ⁻¹) ^ (k * t)) =
      Complex.exp (φ * Complex.I) / 2 * (if m = k then (F : ℂ) else 0) +
      Complex.exp (-(φ * Complex.I)) / 2 * (if m' = k then (F : ℂ) else 0) := by
    intro k hk
    rw [← ortho R (show m < F by omega) hk, ← ortho R hm'F hk, Finset.mul_sum, Finset.mul_sum,
      ← Finset.sum_add_distrib]
    apply Finset.sum_congr rfl
    intro t ht
    rw [hx t (Finset.mem_range.mp ht), Nat.mul_comm k t]
    ring
  have hsum : (∑ k ∈ Finset.range F, (∑ t ∈ Finset.range F, at0 (((List.range F).map fun (t : Nat) =>
      Real.cos (2 * Real.pi * m * t / F + φ)).map Complex.ofReal) t * (ζ⁻¹) ^ (k * t)) *
      Complex.exp (-Complex.I * 2 * Real.pi * (fftK F k : ℂ) / F * r) * ζ ^ (k * i)) / F =
      Complex.cos ((2 * Real.pi * m * (i - r) / F + φ : ℝ) : ℂ) := by
    rw [Finset.sum_congr rfl (fun k hk => by rw [hX k (Finset.mem_range.mp hk)])]
    have hsplit : ∀ k, (Complex.exp (φ * Complex.I) / 2 * (if m = k then (F : ℂ) else 0) +
        Complex.exp (-(φ * Complex.I)) / 2 * (if m' = k then (F : ℂ) else 0)) *
        Complex.exp (-Complex.I * 2 * Real.pi * (fftK F k : ℂ) / F * r) * ζ ^ (k * i) =
        (if m = k then Complex.exp (φ * Complex.I) / 2 * F *
          Complex.exp (-Complex.I * 2 * Real.pi * (fftK F k : ℂ) / F * r) * ζ ^ (k * i) else 0) +
        (if m' = k then Complex.exp (-(φ * Complex.I)) / 2 * F *
          Complex.exp (-Complex.I * 2 * Real.pi * (fftK F k : ℂ) / F * r) * ζ ^ (k * i) else 0) := by
      intro k
      split_ifs <;> ring
    rw [Finset.sum_congr rfl (fun k _ => hsplit k), Finset.sum_add_distrib, Finset.sum_ite_eq,
      Finset.sum_ite_eq, if_pos (Finset.mem_range.mpr (by omega)),
      if_pos (Finset.mem_range.mpr hm'F), fftK_low he h, fftK_high he h, Complex.cos]
    have e1 : ζ ^ (m' * i) = ζ ^ (-((m : Int) * i)) := by
      rw [← zpow_natCast]
      apply zpow_congr_mod R
      rw [hm']
      rcases Nat.eq_zero_or_pos m with rfl | hm0
      · simp
      · rw [Nat.mod_eq_of_lt (by omega)]
        push_cast [Nat.cast_sub (show m ≤ F by omega)]
        exact ⟨i, by ring⟩
    have e2 : ζ ^ (m * i) = Complex.exp (2 * Real.pi * m * i / F * Complex.I) := by
      rw [hζ, ← Complex.exp_nat_mul]; congr 1; push_cast; ring
    have e3 : ζ ^ (-((m : Int) * i)) = Complex.exp (-(2 * Real.pi * m * i / F * Complex.I)) := by
      rw [hζ, ← Complex.exp_int_mul]; congr 1; push_cast; ring
    rw [e1, e2, e3]
    have f1 : Complex.exp (((2 * Real.pi * m * (i - r) / F + φ : ℝ) : ℂ) * Complex.I) =
        Complex.exp (φ * Complex.I) *
          Complex.exp (-Complex.I * 2 * Real.pi * ((m : Int) : ℂ) / F * r) *
          Complex.exp (2 * Real.pi * m * i / F * Complex.I) := by
      rw [← Complex.exp_add, ← Complex.exp_add]; congr 1; push_cast; ring
    have f2 : Complex.exp (-((2 * Real.pi * m * (i - r) / F + φ : ℝ) : ℂ) * Complex.I) =
        Complex.exp (-(φ * Complex.I)) *
          Complex.exp (-Complex.I * 2 * Real.pi * ((-(m : Int) : Int) : ℂ) / F * r) *
          Complex.exp (-(2 * Real.pi * m * i / F * Complex.I)) := by
      rw [← Complex.exp_add, ← Complex.exp_add]; congr 1; push_cast; ring
    rw [f1, f2]
    field_simp
  rw [hsum, ← Complex.ofReal_cos, Complex.ofReal_re]

end Danse
