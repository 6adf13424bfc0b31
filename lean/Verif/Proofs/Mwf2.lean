import Verif.Proofs.Mwf
import Mathlib.Analysis.Matrix.Spectrum
import Mathlib.Analysis.Matrix.PosDef
import Mathlib.Data.Fin.Tuple.Sort

namespace Danse
open Matrix
open scoped ComplexOrder

/-- Every Hermitian / positive definite pair has an exact generalised eigenvalue decomposition. -/
theorem exists_gevd {m : Nat} {A B : Matrix (Fin m) (Fin m) ℂ} (hA : A.IsHermitian)
    (hB : B.PosDef) : ∃ (s : Fin m → ℝ) (X : Matrix (Fin m) (Fin m) ℂ),
      Xᴴ * A * X = diagonal (fun r => (s r : ℂ)) ∧ Xᴴ * B * X = 1 := by
  have hBh := hB.isHermitian
  have spec : ∀ {M : Matrix (Fin m) (Fin m) ℂ} (hM : M.IsHermitian),
      ∃ (U : Matrix (Fin m) (Fin m) ℂ) (l : Fin m → ℝ), Uᴴ * U = 1 ∧ U * Uᴴ = 1 ∧
        Uᴴ * M * U = diagonal (fun r => (l r : ℂ)) ∧ l = hM.eigenvalues := by
    intro M hM
    refine ⟨(hM.eigenvectorUnitary : Matrix (Fin m) (Fin m) ℂ), hM.eigenvalues, ?_, ?_, ?_, rfl⟩
    · exact Unitary.coe_star_mul_self hM.eigenvectorUnitary
    · exact Unitary.coe_mul_star_self hM.eigenvectorUnitary
    · have := hM.conjStarAlgAut_star_eigenvectorUnitary
      rw [Unitary.conjStarAlgAut_star_apply] at this
      exact this
  obtain ⟨U, l, u1, u2, hU, hl⟩ := spec hBh
  have hpos : ∀ r, 0 < l r := by rw [hl]; exact hB.eigenvalues_pos
  set C : Matrix (Fin m) (Fin m) ℂ := U * diagonal fun r => ((1 / Real.sqrt (l r) : ℝ) : ℂ) with hC
  have hdh : (diagonal fun r => ((1 / Real.sqrt (l r) : ℝ) : ℂ))ᴴ =
      diagonal fun r => ((1 / Real.sqrt (l r) : ℝ) : ℂ) := by
    rw [diagonal_conjTranspose]
    congr 1
    funext r
    exact Complex.conj_ofReal _
  have hCB : Cᴴ * B * C = 1 := by
    rw [hC, conjTranspose_mul, hdh]
    calc _ = (diagonal fun r => ((1 / Real.sqrt (l r) : ℝ) : ℂ)) * (Uᴴ * B * U) *
          (diagonal fun r => ((1 / Real.sqrt (l r) : ℝ) : ℂ)) := by simp only [Matrix.mul_assoc]
      _ = 1 := by
        rw [hU, diagonal_mul_diagonal, diagonal_mul_diagonal, ← diagonal_one]
        congr 1
        funext r
        rw [← Complex.ofReal_mul, ← Complex.ofReal_mul]
        have h0 := Real.sqrt_pos.mpr (hpos r)
        have h1 := Real.mul_self_sqrt (hpos r).le
        have : 1 / Real.sqrt (l r) * l r * (1 / Real.sqrt (l r)) = 1 := by
          field_simp
          nlinarith
        rw [this]; rfl
  have hCA : (Cᴴ * A * C).IsHermitian := isHermitian_conjTranspose_mul_mul C hA
  obtain ⟨V, s, v1, v2, hV, -⟩ := spec hCA
  refine ⟨s, C * V, ?_, ?_⟩
  · rw [← hV, conjTranspose_mul]; simp only [Matrix.mul_assoc]
  · rw [conjTranspose_mul]
    calc _ = Vᴴ * (Cᴴ * B * C) * V := by simp only [Matrix.mul_assoc]
      _ = 1 := by rw [hCB, Matrix.mul_one, v1]

section
variable {m : Nat}

theorem gevd_G {A B X : Matrix (Fin m) (Fin m) ℂ} {s : Fin m → ℝ} (hX : IsUnit X)
    (h1 : Xᴴ * A * X = diagonal fun r => (s r : ℂ)) (h2 : Xᴴ * B * X = 1) (hs : Antitone s)
    {R : Nat} (hR : R ≤ m) :
    ((X⁻¹)ᴴ * diagonal (fun r : Fin m =>
        if r.val < R then ((s r - 1 : ℝ) : ℂ) else 0) * X⁻¹).IsHermitian ∧
    ((X⁻¹)ᴴ * diagonal (fun r : Fin m =>
        if r.val < R then ((s r - 1 : ℝ) : ℂ) else 0) * X⁻¹).rank ≤ R ∧
    Antitone s ∧ LinearIndependent ℂ (fun r => X.col r) ∧
    (∀ r, A *ᵥ X.col r = (s r : ℂ) • (B *ᵥ X.col r)) ∧
    (∀ r : Fin m, r.val < R → ((X⁻¹)ᴴ * diagonal (fun r : Fin m =>
        if r.val < R then ((s r - 1 : ℝ) : ℂ) else 0) * X⁻¹) *ᵥ X.col r = (A - B) *ᵥ X.col r) ∧
    (∀ r : Fin m, R ≤ r.val → ((X⁻¹)ᴴ * diagonal (fun r : Fin m =>
        if r.val < R then ((s r - 1 : ℝ) : ℂ) else 0) * X⁻¹) *ᵥ X.col r = 0) := by
  have hd : IsUnit X.det := (Matrix.isUnit_iff_isUnit_det _).mp hX
  have i1 : X * X⁻¹ = 1 := mul_nonsing_inv _ hd
  have i2 : X⁻¹ * X = 1 := nonsing_inv_mul _ hd
  have i3 : (X⁻¹)ᴴ * Xᴴ = 1 := by rw [← conjTranspose_mul, i1, conjTranspose_one]
  have hcol : ∀ r, X.col r = X *ᵥ Pi.single r 1 := fun r => (mulVec_single_one X r).symm
  have hG : ∀ (g : Fin m → ℂ) r, ((X⁻¹)ᴴ * diagonal g * X⁻¹) *ᵥ X.col r =
      (X⁻¹)ᴴ *ᵥ Pi.single r (g r) := by
    intro g r
    rw [hcol, mulVec_mulVec, Matrix.mul_assoc, i2, Matrix.mul_one, ← mulVec_mulVec,
      diagonal_mulVec_single, mul_one]
  have hAX : A * X = (X⁻¹)ᴴ * diagonal fun r => (s r : ℂ) := by
    rw [← h1, ← Matrix.mul_assoc, ← Matrix.mul_assoc, i3, Matrix.one_mul]
  have hBX : B * X = (X⁻¹)ᴴ := by
    have : (X⁻¹)ᴴ * (Xᴴ * B * X) = B * X := by
      rw [← Matrix.mul_assoc, ← Matrix.mul_assoc, i3, Matrix.one_mul]
    rw [← this, h2, Matrix.mul_one]
  refine ⟨?_, ?_, hs, ?_, ?_, ?_, ?_⟩
  · apply isHermitian_conjTranspose_mul_mul
    unfold IsHermitian
    rw [diagonal_conjTranspose]
    congr 1
    funext r
    rw [Pi.star_apply]
    split
    · exact Complex.conj_ofReal _
    · exact star_zero _
  · refine le_trans (rank_mul_le_left _ _) (le_trans (rank_mul_le_right _ _) ?_)
    rw [rank_diagonal]
    have : Fintype.card { i : Fin m //
        (if i.val < R then ((s i - 1 : ℝ) : ℂ) else 0) ≠ 0 } ≤ Fintype.card (Fin R) := by
      refine Fintype.card_le_of_injective (fun q => (⟨q.1.val, ?_⟩ : Fin R)) ?_
      · by_contra h
        exact q.2 (if_neg h)
      · intro a b hab
        simp only [Fin.mk.injEq] at hab
        exact Subtype.ext (Fin.ext hab)
    rw [Fintype.card_fin] at this
    convert this
  · exact (Matrix.linearIndependent_cols_iff_isUnit).mpr hX
  · intro r
    rw [hcol, mulVec_mulVec, mulVec_mulVec, hAX, hBX, ← mulVec_mulVec, diagonal_mulVec_single,
      mul_one, ← mulVec_smul]
    congr 1
    rw [← Pi.single_smul, smul_eq_mul, mul_one]
  · intro r h
    rw [hG, (gevd_algebra hX h1 h2 0).2, hG]
    simp only [h, if_true]
    push_cast; rfl
  · intro r h
    rw [hG, if_neg (by omega), Pi.single_zero, mulVec_zero]

open Classical in
theorem updateWGevd_err (lib : LinAlg m) {A B X : Matrix (Fin m) (Fin m) ℂ} {σ : Fin m → ℝ}
    (hl : lib.Ok A B σ X) (ref : Fin m) {R : Nat} (hR : m < R) :
    updateWGevd lib A B ref R = .error .indexError := by
  obtain ⟨s, X', -, -, -, -, h0⟩ := updateWGevd_eq lib hl ref (le_refl m)
  unfold updateWGevd at h0 ⊢
  rw [hl.eigh] at h0 ⊢
  change (npInv _ >>= fun Q => if m < m then Except.error PyErr.indexError else _) = _ at h0
  change (npInv _ >>= fun Q => if m < R then Except.error PyErr.indexError else _) = _
  generalize hq : npInv (Matrix.of fun i r =>
    X i (lib.argsort σ (Fin.rev r)) : Matrix (Fin m) (Fin m) ℂ)ᴴ = q at h0 ⊢
  cases q with
  | error e => cases h0
  | ok Q =>
    change (if m < R then Except.error PyErr.indexError else _) = _
    rw [if_pos hR]

end
end Danse
