import Verif.Spec.Mwf
import Mathlib.LinearAlgebra.Matrix.PosDef
import Mathlib.LinearAlgebra.Matrix.Rank
import Mathlib.Analysis.Complex.Order
import Mathlib.Tactic

namespace Danse
open Matrix

section
variable {n K : Type} [Fintype n] [DecidableEq n] [Field K] [DecidableEq K]

theorem updateW_ok {Ryy Rnn : Matrix n n K} {ref : n} {w : n → K}
    (h : updateW Ryy Rnn ref = .ok w) :
    Ryy.det ≠ 0 ∧ w = Ryy⁻¹ *ᵥ ((Ryy - Rnn) *ᵥ Pi.single ref 1) := by
  unfold updateW npInv at h
  by_cases hd : Ryy.det = 0
  · rw [if_pos hd] at h; cases h
  · rw [if_neg hd] at h
    refine ⟨hd, ?_⟩
    have h' := Except.ok.inj h
    rw [← h']
    congr 2
    funext i
    rw [Pi.single_apply]

theorem updateW_of_det {Ryy Rnn : Matrix n n K} {ref : n} (h : Ryy.det ≠ 0) :
    updateW Ryy Rnn ref = .ok (Ryy⁻¹ *ᵥ ((Ryy - Rnn) *ᵥ Pi.single ref 1)) := by
  unfold updateW npInv
  rw [if_neg h]
  have : (fun i : n => if i = ref then (1 : K) else 0) = Pi.single ref 1 := by
    funext i; rw [Pi.single_apply]
  rw [this]; rfl

theorem updateW_normal {Ryy Rnn : Matrix n n K} {ref : n} {w : n → K}
    (h : updateW Ryy Rnn ref = .ok w) : Ryy *ᵥ w = (Ryy - Rnn) *ᵥ Pi.single ref 1 := by
  obtain ⟨h1, rfl⟩ := updateW_ok h
  rw [mulVec_mulVec, mul_nonsing_inv _ (Ne.isUnit h1), one_mulVec]

end

section
variable {n ι : Type} [Fintype n] [Fintype ι]

theorem wcov_apply (p : ι → ℝ) (y z : ι → n → ℂ) (a b : n) :
    wcov p y z a b = ∑ i, (p i : ℂ) * (y i a * star (z i b)) := by
  unfold wcov
  rw [Matrix.sum_apply]
  rfl

theorem sqErr_orth (p : ι → ℝ) (d : ι → ℂ) (y : ι → n → ℂ) (w v : n → ℂ)
    (h : ∀ a, ∑ i, (p i : ℂ) * (y i a * star (d i - star w ⬝ᵥ y i)) = 0) :
    sqErr p d y v = sqErr p d y w + ∑ i, p i * ‖star (v - w) ⬝ᵥ y i‖ ^ 2 := by
  have hpt : ∀ i, p i * ‖d i - star v ⬝ᵥ y i‖ ^ 2 = p i * ‖d i - star w ⬝ᵥ y i‖ ^ 2 +
      p i * ‖star (v - w) ⬝ᵥ y i‖ ^ 2 -
      2 * (p i * ((d i - star w ⬝ᵥ y i) * star (star (v - w) ⬝ᵥ y i)).re) := by
    intro i
    have e1 : d i - star v ⬝ᵥ y i = (d i - star w ⬝ᵥ y i) - star (v - w) ⬝ᵥ y i := by
      rw [star_sub, sub_dotProduct]; ring
    rw [e1, Complex.sq_norm, Complex.sq_norm, Complex.sq_norm, Complex.normSq_sub]
    have : (starRingEnd ℂ) (star (v - w) ⬝ᵥ y i) = star (star (v - w) ⬝ᵥ y i) := rfl
    rw [this]
    ring
  unfold sqErr
  rw [Finset.sum_congr rfl fun i _ => hpt i, Finset.sum_sub_distrib, Finset.sum_add_distrib,
    ← Finset.mul_sum]
  suffices hz : ∑ i, p i * ((d i - star w ⬝ᵥ y i) * star (star (v - w) ⬝ᵥ y i)).re = 0 by
    rw [hz]; ring
  have h1 : ∑ i, p i * ((d i - star w ⬝ᵥ y i) * star (star (v - w) ⬝ᵥ y i)).re =
      (∑ i, (p i : ℂ) * ((d i - star w ⬝ᵥ y i) * star (star (v - w) ⬝ᵥ y i))).re := by
    rw [Complex.re_sum]
    apply Finset.sum_congr rfl
    intro i _
    rw [Complex.re_ofReal_mul]
  rw [h1]
  have h2 : ∑ i, (p i : ℂ) * ((d i - star w ⬝ᵥ y i) * star (star (v - w) ⬝ᵥ y i)) =
      ∑ a, (v - w) a * star (∑ i, (p i : ℂ) * (y i a * star (d i - star w ⬝ᵥ y i))) := by
    simp_rw [star_sum, Finset.mul_sum]
    rw [Finset.sum_comm]
    apply Finset.sum_congr rfl
    intro i _
    have : star (star (v - w) ⬝ᵥ y i) = ∑ a, (v - w) a * star (y i a) := by
      rw [dotProduct, star_sum]
      apply Finset.sum_congr rfl
      intro a _
      rw [star_mul', Pi.star_apply, star_star]
    rw [this, Finset.mul_sum, Finset.mul_sum]
    apply Finset.sum_congr rfl
    intro a _
    rw [star_mul', star_mul', star_star]
    have : star ((p i : ℝ) : ℂ) = (p i : ℂ) := Complex.conj_ofReal _
    rw [this]
    ring
  rw [h2]
  have : ∑ a, (v - w) a * star (∑ i, (p i : ℂ) * (y i a * star (d i - star w ⬝ᵥ y i))) = 0 :=
    Finset.sum_eq_zero fun a _ => by rw [h a, star_zero, mul_zero]
  rw [this]; rfl

theorem quad_wcov (p : ι → ℝ) (y : ι → n → ℂ) (v : n → ℂ)
    (h : ∀ i, 0 ≤ p i) (h0 : ∑ i, p i * ‖star v ⬝ᵥ y i‖ ^ 2 = 0) :
    wcov p y y *ᵥ v = 0 := by
  have h1 : ∀ i, p i * ‖star v ⬝ᵥ y i‖ ^ 2 = 0 := by
    have := (Finset.sum_eq_zero_iff_of_nonneg
      (fun i _ => mul_nonneg (h i) (sq_nonneg _))).mp h0
    exact fun i => this i (Finset.mem_univ _)
  funext a
  rw [mulVec, dotProduct]
  simp_rw [wcov_apply, Finset.sum_mul]
  rw [Finset.sum_comm]
  apply Finset.sum_eq_zero
  intro i _
  have e : ∑ b, (p i : ℂ) * (y i a * star (y i b)) * v b =
      (p i : ℂ) * y i a * star (star v ⬝ᵥ y i) := by
    rw [dotProduct, star_sum, Finset.mul_sum]
    apply Finset.sum_congr rfl
    intro b _
    rw [star_mul', Pi.star_apply, star_star]
    ring
  rw [e]
  rcases mul_eq_zero.mp (h1 i) with h2 | h2
  · simp [h2]
  · have : star v ⬝ᵥ y i = 0 := by
      rw [← norm_eq_zero]; exact pow_eq_zero_iff (two_ne_zero) |>.mp h2
    rw [this]; simp

variable [DecidableEq n]
open Classical in
theorem updateW_orth (p : ι → ℝ) (s z : ι → n → ℂ) (ref : n) (hu : wcov p s z = 0)
    {w : n → ℂ}
    (hw : updateW (wcov p (fun i => s i + z i) fun i => s i + z i) (wcov p z z) ref = .ok w)
    (a : n) :
    ∑ i, (p i : ℂ) * ((s i + z i) a * star (s i ref - star w ⬝ᵥ (s i + z i))) = 0 := by
  have hn := congrFun (updateW_normal hw) a
  have hu' : ∑ i, (p i : ℂ) * (s i a * star (z i ref)) = 0 := by
    rw [← wcov_apply, hu]; rfl
  rw [mulVec_single_one] at hn
  simp only [col_apply, Matrix.sub_apply, wcov_apply] at hn
  rw [mulVec, dotProduct] at hn
  simp_rw [wcov_apply] at hn
  have e1 : ∀ i, (p i : ℂ) * ((s i + z i) a * star (s i ref - star w ⬝ᵥ (s i + z i))) =
      (p i : ℂ) * ((s i + z i) a * star ((s i + z i) ref)) -
      (p i : ℂ) * (z i a * star (z i ref)) - (p i : ℂ) * (s i a * star (z i ref)) -
      ∑ b, (p i : ℂ) * ((s i + z i) a * star ((s i + z i) b)) * w b := by
    intro i
    have : ∑ b, (p i : ℂ) * ((s i + z i) a * star ((s i + z i) b)) * w b =
        (p i : ℂ) * (s i + z i) a * star (star w ⬝ᵥ (s i + z i)) := by
      rw [dotProduct, star_sum, Finset.mul_sum]
      apply Finset.sum_congr rfl
      intro b _
      rw [star_mul', Pi.star_apply, star_star]
      ring
    rw [this]
    simp only [Pi.add_apply, star_sub, star_add]
    ring
  rw [Finset.sum_congr rfl fun i _ => e1 i, Finset.sum_sub_distrib, Finset.sum_sub_distrib,
    Finset.sum_sub_distrib, hu', sub_zero, ← hn, Finset.sum_comm]
  simp_rw [Finset.sum_mul]
  exact sub_self _

end

section
open Classical
variable {m : Nat}

/-- What the GEVD update computes, given the contract of the library. -/
theorem updateWGevd_eq (lib : LinAlg m) {A B X0 : Matrix (Fin m) (Fin m) ℂ} {s0 : Fin m → ℝ}
    (hl : lib.Ok A B s0 X0) (ref : Fin m) {rank : Nat} (hr : rank ≤ m) :
    ∃ (s : Fin m → ℝ) (X : Matrix (Fin m) (Fin m) ℂ), Antitone s ∧
      Xᴴ * A * X = diagonal (fun r => (s r : ℂ)) ∧ Xᴴ * B * X = 1 ∧ IsUnit X ∧
      updateWGevd lib A B ref rank = .ok ((X * diagonal (fun r : Fin m =>
        if r.val < rank then ((1 - 1 / s r : ℝ) : ℂ) else 0) * X⁻¹) *ᵥ Pi.single ref 1) := by
  obtain ⟨he, h1, h2, hi, hs⟩ := hl
  have hbij : Function.Bijective (fun r => lib.argsort s0 (Fin.rev r)) :=
    Finite.injective_iff_bijective.mp (hi.comp Fin.rev_injective)
  refine ⟨fun r => s0 (lib.argsort s0 (Fin.rev r)),
    Matrix.of fun i r => X0 i (lib.argsort s0 (Fin.rev r)), ?_, ?_, ?_, ?_, ?_⟩
  · intro a b hab
    exact hs (Fin.rev_le_rev.mpr hab)
  · ext i j
    have := congrFun (congrFun h1 (lib.argsort s0 (Fin.rev i))) (lib.argsort s0 (Fin.rev j))
    rw [diagonal_apply] at this ⊢
    have e : (lib.argsort s0 (Fin.rev i) = lib.argsort s0 (Fin.rev j)) ↔ i = j :=
      ⟨fun h => hbij.1 h, fun h => by rw [h]⟩
    simp only [e] at this
    rw [← this]
    rfl
  · ext i j
    have := congrFun (congrFun h2 (lib.argsort s0 (Fin.rev i))) (lib.argsort s0 (Fin.rev j))
    rw [one_apply] at this ⊢
    have e : (lib.argsort s0 (Fin.rev i) = lib.argsort s0 (Fin.rev j)) ↔ i = j :=
      ⟨fun h => hbij.1 h, fun h => by rw [h]⟩
    simp only [e] at this
    rw [← this]
    rfl
  · rw [Matrix.isUnit_iff_isUnit_det]
    have hd : IsUnit X0.det := by
      have := congrArg det h2
      rw [det_mul, det_mul, det_one] at this
      exact IsUnit.of_mul_eq_one_right _ this
    have e : (Matrix.of fun i r => X0 i (lib.argsort s0 (Fin.rev r))) =
        X0.submatrix (Equiv.refl _) (Equiv.ofBijective _ hbij) := rfl
    rw [e, ← Matrix.isUnit_iff_isUnit_det, Matrix.isUnit_submatrix_equiv,
      Matrix.isUnit_iff_isUnit_det]
    exact hd
  · have hu : IsUnit (Matrix.of fun i r => X0 i (lib.argsort s0 (Fin.rev r))).det := by
      have hd : IsUnit X0.det := by
        have := congrArg det h2
        rw [det_mul, det_mul, det_one] at this
        exact IsUnit.of_mul_eq_one_right _ this
      have e : (Matrix.of fun i r => X0 i (lib.argsort s0 (Fin.rev r))) =
          X0.submatrix (Equiv.refl _) (Equiv.ofBijective _ hbij) := rfl
      rw [e, ← Matrix.isUnit_iff_isUnit_det, Matrix.isUnit_submatrix_equiv,
        Matrix.isUnit_iff_isUnit_det]
      exact hd
    unfold updateWGevd
    rw [he]
    set X : Matrix (Fin m) (Fin m) ℂ :=
      Matrix.of fun i r => X0 i (lib.argsort s0 (Fin.rev r)) with hX
    have hdX : Xᴴ.det ≠ 0 := by
      rw [det_conjTranspose]
      exact star_ne_zero.mpr hu.ne_zero
    have hinv : npInv Xᴴ = .ok (Xᴴ)⁻¹ := by unfold npInv; rw [if_neg hdX]
    change (npInv Xᴴ >>= fun Q =>
      if m < rank then Except.error PyErr.indexError else
        (pure fun i => (X * (Matrix.of fun (i j : Fin m) => if i = j ∧ i.val < rank then
          (((1 - 1 / s0 (lib.argsort s0 (Fin.rev i)) : ℝ)) : ℂ) else 0) * Qᴴ) i ref)) = _
    rw [hinv]
    change (if m < rank then Except.error PyErr.indexError else _) = _
    rw [if_neg (by omega)]
    change Except.ok _ = _
    congr 1
    rw [mulVec_single_one]
    funext i
    rw [col_apply, ← conjTranspose_nonsing_inv, conjTranspose_conjTranspose]
    have hD : (Matrix.of fun (i j : Fin m) => if i = j ∧ i.val < rank then
          (((1 - 1 / s0 (lib.argsort s0 (Fin.rev i)) : ℝ)) : ℂ) else 0) =
        diagonal fun r : Fin m => if r.val < rank then
          ((1 - 1 / s0 (lib.argsort s0 (Fin.rev r)) : ℝ) : ℂ) else 0 := by
      ext a b
      rw [diagonal_apply, of_apply]
      by_cases hab : a = b
      · simp [hab]
      · simp [hab]
    rw [hD]

/-- Algebra behind the GEVD filter. -/
theorem gevd_algebra {A B X : Matrix (Fin m) (Fin m) ℂ} {s : Fin m → ℝ} (hX : IsUnit X)
    (h1 : Xᴴ * A * X = diagonal fun r => (s r : ℂ)) (h2 : Xᴴ * B * X = 1)
    (g : Fin m → ℂ) :
    A * (X * diagonal g * X⁻¹) =
      (X⁻¹)ᴴ * diagonal (fun r => (s r : ℂ) * g r) * X⁻¹ ∧
    A - B = (X⁻¹)ᴴ * diagonal (fun r => (s r : ℂ) - 1) * X⁻¹ := by
  have hd : IsUnit X.det := (Matrix.isUnit_iff_isUnit_det _).mp hX
  have i1 : X * X⁻¹ = 1 := mul_nonsing_inv _ hd
  have i2 : X⁻¹ * X = 1 := nonsing_inv_mul _ hd
  have i3 : (X⁻¹)ᴴ * Xᴴ = 1 := by rw [← conjTranspose_mul, i1, conjTranspose_one]
  have hA : A = (X⁻¹)ᴴ * diagonal (fun r => (s r : ℂ)) * X⁻¹ := by
    rw [← h1]
    calc A = ((X⁻¹)ᴴ * Xᴴ) * A * (X * X⁻¹) := by rw [i3, i1, Matrix.one_mul, Matrix.mul_one]
      _ = _ := by simp only [Matrix.mul_assoc]
  have hB : B = (X⁻¹)ᴴ * 1 * X⁻¹ := by
    rw [← h2]
    calc B = ((X⁻¹)ᴴ * Xᴴ) * B * (X * X⁻¹) := by rw [i3, i1, Matrix.one_mul, Matrix.mul_one]
      _ = _ := by simp only [Matrix.mul_assoc]
  constructor
  · rw [hA]
    calc (X⁻¹)ᴴ * diagonal (fun r => (s r : ℂ)) * X⁻¹ * (X * diagonal g * X⁻¹)
        = (X⁻¹)ᴴ * (diagonal (fun r => (s r : ℂ)) * (X⁻¹ * X) * diagonal g) * X⁻¹ := by
          simp only [Matrix.mul_assoc]
      _ = _ := by rw [i2, Matrix.mul_one, diagonal_mul_diagonal]
  · rw [hB]
    conv_lhs => rw [hA]
    rw [← Matrix.sub_mul, ← Matrix.mul_sub]
    congr 2
    rw [← diagonal_one, diagonal_sub]

theorem gevd_s_ne {A X : Matrix (Fin m) (Fin m) ℂ} {s : Fin m → ℝ} (hX : IsUnit X)
    (h1 : Xᴴ * A * X = diagonal fun r => (s r : ℂ)) (hA : A.det ≠ 0) (r : Fin m) : s r ≠ 0 := by
  intro h
  have := congrArg det h1
  rw [det_mul, det_mul, det_diagonal, det_conjTranspose,
    Finset.prod_eq_zero (Finset.mem_univ r) (by rw [h]; rfl)] at this
  have hd : X.det ≠ 0 := ((Matrix.isUnit_iff_isUnit_det _).mp hX).ne_zero
  exact mul_ne_zero (mul_ne_zero (star_ne_zero.mpr hd) hA) hd this

/-- Common core: the filter solves `A w = G e_ref`, `G` the truncated `A - B`. -/
theorem updateWGevd_solves (lib : LinAlg m) {A B X0 : Matrix (Fin m) (Fin m) ℂ} {s0 : Fin m → ℝ}
    (hl : lib.Ok A B s0 X0) (hA : A.det ≠ 0) (ref : Fin m) {rank : Nat} (hr : rank ≤ m) :
    ∃ (s : Fin m → ℝ) (X : Matrix (Fin m) (Fin m) ℂ) (w : Fin m → ℂ), Antitone s ∧
      Xᴴ * A * X = diagonal (fun r => (s r : ℂ)) ∧ Xᴴ * B * X = 1 ∧ IsUnit X ∧
      updateWGevd lib A B ref rank = .ok w ∧
      A *ᵥ w = ((X⁻¹)ᴴ * diagonal (fun r : Fin m =>
        if r.val < rank then ((s r - 1 : ℝ) : ℂ) else 0) * X⁻¹) *ᵥ Pi.single ref 1 := by
  obtain ⟨s, X, hs, h1, h2, hX, hw⟩ := updateWGevd_eq lib hl ref hr
  refine ⟨s, X, _, hs, h1, h2, hX, hw, ?_⟩
  rw [mulVec_mulVec, (gevd_algebra hX h1 h2 _).1]
  congr 4
  funext r
  by_cases h : r.val < rank
  · simp only [h, if_true]
    have := gevd_s_ne hX h1 hA r
    have h' : (s r : ℂ) ≠ 0 := by exact_mod_cast this
    push_cast
    field_simp
  · simp [h]

open scoped ComplexOrder

/-- Generalised eigenvalues past the rank of a positive semidefinite `A - B` are 1. -/
theorem gevd_tail {A B X : Matrix (Fin m) (Fin m) ℂ} {s : Fin m → ℝ} (hs : Antitone s)
    (hX : IsUnit X) (h1 : Xᴴ * A * X = diagonal fun r => (s r : ℂ)) (h2 : Xᴴ * B * X = 1)
    {rank : Nat} (hp : (A - B).PosSemidef) (hr : (A - B).rank ≤ rank) (r : Fin m)
    (hrr : rank ≤ r.val) : s r = 1 := by
  have hd : Xᴴ * (A - B) * X = diagonal fun r => ((s r - 1 : ℝ) : ℂ) := by
    rw [Matrix.mul_sub, Matrix.sub_mul, h1, h2, ← diagonal_one, diagonal_sub]
    congr 1; funext r; push_cast; rfl
  have hpd : (diagonal fun r => ((s r - 1 : ℝ) : ℂ)).PosSemidef := by
    rw [← hd]; exact hp.conjTranspose_mul_mul_same X
  have hge : ∀ r, 1 ≤ s r := by
    intro r
    have := posSemidef_diagonal_iff.mp hpd r
    rw [Complex.zero_le_real] at this
    linarith
  have hrk : (diagonal fun r => ((s r - 1 : ℝ) : ℂ)).rank ≤ rank := by
    rw [← hd, rank_mul_eq_left_of_isUnit_det X _ ((Matrix.isUnit_iff_isUnit_det _).mp hX)]
    exact le_trans (rank_mul_le_right _ _) hr
  rw [rank_diagonal] at hrk
  by_contra hne
  have hall : ∀ q : Fin m, q ≤ r → ((s q - 1 : ℝ) : ℂ) ≠ 0 := by
    intro q hq
    have h3 : 1 < s r := lt_of_le_of_ne (hge r) (Ne.symm hne)
    have h4 := hs hq
    have : s q - 1 ≠ 0 := by linarith
    exact_mod_cast this
  have hc : r.val + 1 ≤ Fintype.card { i : Fin m // ((s i - 1 : ℝ) : ℂ) ≠ 0 } := by
    have := Fintype.card_le_of_injective
      (fun q : Fin (r.val + 1) => (⟨⟨q.val, by omega⟩, hall _ (by
        rw [Fin.le_def]; have := q.isLt; dsimp only; omega)⟩ :
        { i : Fin m // ((s i - 1 : ℝ) : ℂ) ≠ 0 })) (by
        intro a b hab
        simp only [Subtype.mk.injEq, Fin.mk.injEq] at hab
        exact Fin.ext hab)
    simpa using this
  have e : Fintype.card { i : Fin m // ((s i - 1 : ℝ) : ℂ) ≠ 0 } ≤ rank := by
    convert hrk
  omega

end
end Danse
