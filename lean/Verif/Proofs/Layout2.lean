import Verif.Proofs.Layout

/-!
# Lemmas for C96: turning an array towards a vector
-/

namespace Danse
open Matrix

/-- The rotation that takes the vertical axis to the unit vector `b`; `w = 1 / (1 + b 2)`. -/
def turnMat (b0 b1 b2 w : ℝ) : Matrix (Fin 3) (Fin 3) ℝ :=
  !![1 - w * b0 ^ 2, -(w * b0 * b1), b0; -(w * b0 * b1), 1 - w * b1 ^ 2, b1; -b0, -b1, b2]

theorem turn_orth {b0 b1 b2 w : ℝ} (h : w * (b0 ^ 2 + b1 ^ 2) = 1 - b2) (hw : w * (1 + b2) = 1) :
    Orthogonal (turnMat b0 b1 b2 w) := by
  unfold Orthogonal turnMat
  have hs : b0 ^ 2 + b1 ^ 2 = (1 - b2) * (1 + b2) := by
    linear_combination (1 + b2) * h - (b0 ^ 2 + b1 ^ 2) * hw
  ext i j
  fin_cases i <;> fin_cases j <;>
    simp [Matrix.mul_apply, Fin.sum_univ_three, Matrix.transpose_apply]
  · linear_combination (w * b0 ^ 2) * h - b0 ^ 2 * hw
  · linear_combination (w * b0 * b1) * h - b0 * b1 * hw
  · linear_combination (-b0) * h
  · linear_combination (w * b0 * b1) * h - b0 * b1 * hw
  · linear_combination (w * b1 ^ 2) * h - b1 ^ 2 * hw
  · linear_combination (-b1) * h
  · linear_combination (-b0) * h
  · linear_combination (-b1) * h
  · linear_combination hs

theorem norm3_sq (a : Pt) : norm3 a ^ 2 = a 0 ^ 2 + a 1 ^ 2 + a 2 ^ 2 := by
  rw [norm3_three, Real.sq_sqrt (by positivity)]

theorem yxMatrix_turn {t : Pt} (ht : ¬ (t 0 = 0 ∧ t 1 = 0)) :
    ∃ w, 0 < norm3 t ∧ yxMatrix t = turnMat (t 0 / norm3 t) (t 1 / norm3 t) (t 2 / norm3 t) w ∧
      w * ((t 0 / norm3 t) ^ 2 + (t 1 / norm3 t) ^ 2) = 1 - t 2 / norm3 t ∧ w * (1 + t 2 / norm3 t) = 1 := by
  have hpos : 0 < t 0 ^ 2 + t 1 ^ 2 := by
    rcases not_and_or.mp ht with h | h
    · have := sq_pos_of_ne_zero h; positivity
    · have := sq_pos_of_ne_zero h; positivity
  have hn : 0 < norm3 t := by
    rw [norm3_three]
    apply Real.sqrt_pos.mpr
    positivity
  have hsq := norm3_sq t
  have hM : yxMatrix t = turnMat (t 0 / norm3 t) (t 1 / norm3 t) (t 2 / norm3 t)
      ((1 - t 2 / norm3 t) / ((t 0 / norm3 t) ^ 2 + (t 1 / norm3 t) ^ 2)) := by
    have hs : 0 < (t 0 / norm3 t) ^ 2 + (t 1 / norm3 t) ^ 2 := by
      rw [div_pow, div_pow, ← add_div]
      positivity
    have hb : (t 0 / norm3 t) ^ 2 + (t 1 / norm3 t) ^ 2 + (t 2 / norm3 t) ^ 2 = 1 := by
      rw [div_pow, div_pow, div_pow, ← add_div, ← add_div, ← hsq, div_self (by positivity)]
    unfold yxMatrix
    simp only
    have hv : cross3 ![0, 0, 1] (fun i => t i / norm3 t) = ![-(t 1 / norm3 t), t 0 / norm3 t, 0] := by
      unfold cross3
      simp
    rw [hv]
    have hnv : norm3 ![-(t 1 / norm3 t), t 0 / norm3 t, 0] ^ 2 = (t 0 / norm3 t) ^ 2 + (t 1 / norm3 t) ^ 2 := by
      rw [norm3_sq]
      simp
      ring
    rw [hnv]
    have hc : ∑ i, (![0, 0, 1] : Pt) i * (t i / norm3 t) = t 2 / norm3 t := by
      rw [Fin.sum_univ_three]
      simp
    rw [hc]
    generalize t 0 / norm3 t = b0 at *
    generalize t 1 / norm3 t = b1 at *
    generalize t 2 / norm3 t = b2 at *
    have hw : (1 - b2) / (b0 ^ 2 + b1 ^ 2) * (b0 ^ 2 + b1 ^ 2) = 1 - b2 := by
      rw [div_mul_cancel₀ _ hs.ne']
    generalize (1 - b2) / (b0 ^ 2 + b1 ^ 2) = w at *
    unfold turnMat
    ext i j
    fin_cases i <;> fin_cases j <;>
      simp [Matrix.mul_apply, Fin.sum_univ_three]
    · ring
    · ring
    · ring
    · ring
    · linear_combination -hw
  have hb : (t 0 / norm3 t) ^ 2 + (t 1 / norm3 t) ^ 2 + (t 2 / norm3 t) ^ 2 = 1 := by
    rw [div_pow, div_pow, div_pow, ← add_div, ← add_div, ← hsq, div_self (by positivity)]
  have hs : 0 < (t 0 / norm3 t) ^ 2 + (t 1 / norm3 t) ^ 2 := by
    rw [div_pow, div_pow, ← add_div]
    positivity
  refine ⟨_, hn, hM, div_mul_cancel₀ _ hs.ne', ?_⟩
  rw [div_mul_eq_mul_div, div_eq_one_iff_eq hs.ne']
  linear_combination -hb

/-- The turned array lies in planes perpendicular to the target where the array lies in horizontal planes. -/
theorem yx_plane {t : Pt} (ht : ¬ (t 0 = 0 ∧ t 1 = 0)) (v : Pt) :
    ∑ i, (yxMatrix t *ᵥ v) i * t i = norm3 t * v 2 := by
  obtain ⟨w, hn, hM, h1, h2⟩ := yxMatrix_turn ht
  rw [hM, Fin.sum_univ_three]
  have e : ∀ i, t i = t i / norm3 t * norm3 t := fun i => (div_mul_cancel₀ _ hn.ne').symm
  have hb : (t 0 / norm3 t) ^ 2 + (t 1 / norm3 t) ^ 2 = (1 - t 2 / norm3 t) * (1 + t 2 / norm3 t) := by
    linear_combination (1 + t 2 / norm3 t) * h1 - ((t 0 / norm3 t) ^ 2 + (t 1 / norm3 t) ^ 2) * h2
  generalize h0 : t 0 / norm3 t = b0 at *
  generalize h1' : t 1 / norm3 t = b1 at *
  generalize h2' : t 2 / norm3 t = b2 at *
  rw [e 0, e 1, e 2, h0, h1', h2']
  unfold turnMat
  simp [Matrix.mulVec, dotProduct, Fin.sum_univ_three]
  linear_combination (-b0 * norm3 t * v 0 - b1 * norm3 t * v 1) * h1 + norm3 t * v 2 * hb

end Danse
