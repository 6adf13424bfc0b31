import Verif.Proofs.Mwf2

/-!
# Properties C26-C27: the computed filters are the (rank-constrained) multichannel Wiener filters

`wcov p y z = Σ_i p_i y_i z_iᴴ`, `sqErr p d y w = Σ_i p_i |d_i - wᴴ y_i|²`.
-/

namespace Danse
open Matrix
open scoped ComplexOrder

section
variable {n ι : Type} [Fintype n] [DecidableEq n] [Fintype ι]
open Classical

/-- C26: the update fails (`LinAlgError`) exactly for a singular `Ryy`; otherwise its result is the
one solution of `Ryy w = (Ryy - Rnn) e_ref`. -/
theorem C26_normal_equations (Ryy Rnn : Matrix n n ℂ) (ref : n) :
    (Ryy.det = 0 → updateW Ryy Rnn ref = .error .linAlgError) ∧
    (Ryy.det ≠ 0 → ∃ w, updateW Ryy Rnn ref = .ok w ∧
      ∀ v, Ryy *ᵥ v = (Ryy - Rnn) *ᵥ Pi.single ref 1 ↔ v = w) := by
  constructor
  · intro h
    unfold updateW npInv
    rw [if_pos h]; rfl
  · intro h
    refine ⟨_, updateW_of_det h, fun v => ⟨fun hv => ?_, ?_⟩⟩
    · rw [← hv, mulVec_mulVec, nonsing_inv_mul _ (Ne.isUnit h), one_mulVec]
    · rintro rfl
      exact updateW_normal (updateW_of_det h)

/-- C26: let the observations be `y_i = s_i + z_i`, speech `s` and noise `z` uncorrelated under the
nonnegative weights `p`, and the covariance matrices exact. Then the computed filter is the one and
only linear filter with the least squared error in estimating the speech at the reference
sensor from `y`. -/
theorem C26_mmse (p : ι → ℝ) (hp : ∀ i, 0 ≤ p i) (s z : ι → n → ℂ) (ref : n)
    (hu : wcov p s z = 0) {w : n → ℂ}
    (hw : updateW (wcov p (fun i => s i + z i) fun i => s i + z i) (wcov p z z) ref = .ok w) :
    (∀ v, sqErr p (fun i => s i ref) (fun i => s i + z i) w ≤
      sqErr p (fun i => s i ref) (fun i => s i + z i) v) ∧
    (∀ v, sqErr p (fun i => s i ref) (fun i => s i + z i) v =
      sqErr p (fun i => s i ref) (fun i => s i + z i) w → v = w) := by
  have ho := fun v => sqErr_orth p (fun i => s i ref) (fun i => s i + z i) w v
    (updateW_orth p s z ref hu hw)
  constructor
  · intro v
    rw [ho v]
    have : 0 ≤ ∑ i, p i * ‖star (v - w) ⬝ᵥ (s i + z i)‖ ^ 2 :=
      Finset.sum_nonneg fun i _ => mul_nonneg (hp i) (sq_nonneg _)
    linarith
  · intro v hv
    rw [ho v] at hv
    have h0 : ∑ i, p i * ‖star (v - w) ⬝ᵥ (s i + z i)‖ ^ 2 = 0 := by linarith
    have hq := quad_wcov p (fun i => s i + z i) (v - w) hp h0
    have hd := (updateW_ok hw).1
    have : v - w = 0 := by
      have h2 := congrArg (fun u => (wcov p (fun i => s i + z i) fun i => s i + z i)⁻¹ *ᵥ u) hq
      simp only [mulVec_mulVec, nonsing_inv_mul _ (Ne.isUnit hd), one_mulVec, mulVec_zero] at h2
      exact h2
    exact sub_eq_zero.mp this

/-- C26: a common factor of both matrices (as the `1/M` of the online estimates) has no effect. -/
theorem C26_scale (c : ℂ) (hc : c ≠ 0) (Ryy Rnn : Matrix n n ℂ) (ref : n) :
    updateW (c • Ryy) (c • Rnn) ref = updateW Ryy Rnn ref := by
  by_cases h : Ryy.det = 0
  · rw [(C26_normal_equations _ _ _).1 h, (C26_normal_equations _ _ _).1]
    rw [det_smul, h, mul_zero]
  · have h' : (c • Ryy).det ≠ 0 := by
      rw [det_smul]; exact mul_ne_zero (pow_ne_zero _ hc) h
    obtain ⟨w, hw, hu⟩ := (C26_normal_equations Ryy Rnn ref).2 h
    obtain ⟨w', hw', hu'⟩ := (C26_normal_equations (c • Ryy) (c • Rnn) ref).2 h'
    rw [hw, hw']
    congr 1
    rw [← hu]
    have h3 := (hu' w').mpr rfl
    rw [← smul_sub, smul_mulVec, smul_mulVec] at h3
    exact smul_right_injective _ hc h3

/-- C26: without any speech the filter is zero; with no noise at all it selects the reference
sensor. -/
theorem C26_extremes (R : Matrix n n ℂ) (h : R.det ≠ 0) (ref : n) :
    updateW R R ref = .ok 0 ∧ updateW R 0 ref = .ok (Pi.single ref 1) := by
  constructor
  · rw [updateW_of_det h, sub_self, zero_mulVec, mulVec_zero]
  · rw [updateW_of_det h, sub_zero, mulVec_mulVec, nonsing_inv_mul _ (Ne.isUnit h), one_mulVec]

/-- One channel, two equally likely observations: speech 1 and 1, noise 1 and -1. Uncorrelated, and
the filter exists; it is 1/2. -/
example : ∃ w : Fin 1 → ℂ, wcov (ι := Fin 2) (n := Fin 1) (fun _ => 1) (fun _ _ => 1)
      (fun i _ => if i = 0 then 1 else -1) = 0 ∧
    updateW (wcov (ι := Fin 2) (fun _ => 1) (fun i => (fun _ => 1) + fun _ => if i = 0 then 1 else -1)
        (fun i => (fun _ => 1) + fun _ => if i = 0 then 1 else -1))
      (wcov (ι := Fin 2) (fun _ => 1) (fun i _ => if i = 0 then 1 else -1)
        (fun i _ => if i = 0 then 1 else -1)) 0 = .ok w ∧ w 0 = 1 / 2 := by
  have hy : wcov (ι := Fin 2) (n := Fin 1) (fun _ => 1)
      (fun i => (fun _ => 1) + fun _ => if i = 0 then 1 else -1)
      (fun i => (fun _ => 1) + fun _ => if i = 0 then 1 else -1) = !![4] := by
    ext a b
    fin_cases a; fin_cases b
    rw [wcov_apply, Fin.sum_univ_two]
    simp; norm_num
  have hd : (wcov (ι := Fin 2) (n := Fin 1) (fun _ => 1)
      (fun i => (fun _ => 1) + fun _ => if i = 0 then 1 else -1)
      (fun i => (fun _ => 1) + fun _ => if i = 0 then 1 else -1)).det ≠ 0 := by
    rw [hy, det_fin_one_of]; norm_num
  have hz : wcov (ι := Fin 2) (n := Fin 1) (fun _ => 1) (fun i _ => if i = 0 then 1 else -1)
      (fun i _ => if i = 0 then 1 else -1) = !![2] := by
    ext a b
    fin_cases a; fin_cases b
    rw [wcov_apply, Fin.sum_univ_two]
    simp; norm_num
  obtain ⟨w, hw, hu⟩ := (C26_normal_equations _ (wcov (ι := Fin 2) (n := Fin 1) (fun _ => 1)
    (fun i _ => if i = 0 then 1 else -1) (fun i _ => if i = 0 then 1 else -1)) 0).2 hd
  refine ⟨w, ?_, hw, ?_⟩
  · funext a b
    rw [wcov_apply, Fin.sum_univ_two]
    simp
  · have : (fun _ => 1 / 2 : Fin 1 → ℂ) = w := by
      rw [← hu, hy, hz, mulVec_single_one]
      funext a
      fin_cases a
      simp [mulVec, dotProduct]
      norm_num
    rw [← this]

end

section
open Classical
variable {m : Nat}

/-- C27: with the rank equal to the dimension the GEVD filter is the plain multichannel Wiener
filter. -/
theorem C27_full_rank (lib : LinAlg m) {Ryy Rnn X : Matrix (Fin m) (Fin m) ℂ} {σ : Fin m → ℝ}
    (hl : lib.Ok Ryy Rnn σ X) (hd : Ryy.det ≠ 0) (ref : Fin m) :
    updateWGevd lib Ryy Rnn ref m = updateW Ryy Rnn ref := by
  obtain ⟨s, X', w, -, h1, h2, hX, hw, hs⟩ := updateWGevd_solves lib hl hd ref le_rfl
  obtain ⟨w', hw', hu⟩ := (C26_normal_equations Ryy Rnn ref).2 hd
  rw [hw, hw']
  congr 1
  rw [← hu, hs, (gevd_algebra hX h1 h2 0).2]
  congr 4
  funext r
  rw [if_pos r.isLt]; push_cast; rfl

/-- C27: if the speech covariance `Ryy - Rnn` is positive semidefinite of rank at most `R` (at most
`R` sources), the rank-`R` GEVD filter is the plain multichannel Wiener filter as well. -/
theorem C27_matching_rank (lib : LinAlg m) {Ryy Rnn X : Matrix (Fin m) (Fin m) ℂ} {σ : Fin m → ℝ}
    (hl : lib.Ok Ryy Rnn σ X) (hd : Ryy.det ≠ 0) (ref : Fin m) {R : Nat} (hR : R ≤ m)
    (hp : (Ryy - Rnn).PosSemidef) (hr : (Ryy - Rnn).rank ≤ R) :
    updateWGevd lib Ryy Rnn ref R = updateW Ryy Rnn ref := by
  obtain ⟨s, X', w, ha, h1, h2, hX, hw, hs⟩ := updateWGevd_solves lib hl hd ref hR
  obtain ⟨w', hw', hu⟩ := (C26_normal_equations Ryy Rnn ref).2 hd
  rw [hw, hw']
  congr 1
  rw [← hu, hs, (gevd_algebra hX h1 h2 0).2]
  congr 4
  funext r
  by_cases h : r.val < R
  · rw [if_pos h]; push_cast; rfl
  · rw [if_neg h, gevd_tail ha hX h1 h2 hp hr r (by omega)]; simp

/-- C27, any rank: the filter solves `Ryy w = G e_ref` for a Hermitian matrix `G` of rank at most
`R` that acts as `Ryy - Rnn` on generalised eigenvectors of the `R` largest generalised eigenvalues
of (Ryy, Rnn) and vanishes on the others. -/
theorem C27_low_rank (lib : LinAlg m) {Ryy Rnn X : Matrix (Fin m) (Fin m) ℂ} {σ : Fin m → ℝ}
    (hl : lib.Ok Ryy Rnn σ X) (hd : Ryy.det ≠ 0) (ref : Fin m) {R : Nat} (hR : R ≤ m) :
    ∃ (w : Fin m → ℂ) (G : Matrix (Fin m) (Fin m) ℂ) (x : Fin m → Fin m → ℂ) (lam : Fin m → ℝ),
      updateWGevd lib Ryy Rnn ref R = .ok w ∧ Ryy *ᵥ w = G *ᵥ Pi.single ref 1 ∧
      G.IsHermitian ∧ G.rank ≤ R ∧ Antitone lam ∧ LinearIndependent ℂ x ∧
      (∀ r, Ryy *ᵥ x r = (lam r : ℂ) • (Rnn *ᵥ x r)) ∧
      (∀ r : Fin m, r.val < R → G *ᵥ x r = (Ryy - Rnn) *ᵥ x r) ∧
      (∀ r : Fin m, R ≤ r.val → G *ᵥ x r = 0) := by
  obtain ⟨s, X', w, ha, h1, h2, hX, hw, hs⟩ := updateWGevd_solves lib hl hd ref hR
  exact ⟨w, _, fun r => X'.col r, s, hw, hs, gevd_G hX h1 h2 ha hR⟩

/-- C27: a rank above the dimension is an `IndexError`. -/
theorem C27_rank_too_large (lib : LinAlg m) {Ryy Rnn X : Matrix (Fin m) (Fin m) ℂ} {σ : Fin m → ℝ}
    (hl : lib.Ok Ryy Rnn σ X) (ref : Fin m) {R : Nat} (hR : m < R) :
    updateWGevd lib Ryy Rnn ref R = .error .indexError :=
  updateWGevd_err lib hl ref hR

/-- C27: the contract assumed of the library routines can be met for every Hermitian `Ryy` and
positive definite `Rnn`, by exact decompositions and any sorting permutation. -/
theorem C27_contract_satisfiable {Ryy Rnn : Matrix (Fin m) (Fin m) ℂ} (hy : Ryy.IsHermitian)
    (hn : Rnn.PosDef) : ∃ (lib : LinAlg m) (σ : Fin m → ℝ) (X : Matrix (Fin m) (Fin m) ℂ),
      lib.Ok Ryy Rnn σ X := by
  obtain ⟨s, X, h1, h2⟩ := exists_gevd hy hn
  exact ⟨⟨fun _ _ => .ok (s, X), fun σ => Tuple.sort σ⟩, s, X, rfl, h1, h2,
    (Tuple.sort s).injective, Tuple.monotone_sort s⟩

/-- Two channels, one source: Ryy = diag(1,3), Rnn = 1, rank 1. -/
example : ∃ (lib : LinAlg 2) (Ryy Rnn X : Matrix (Fin 2) (Fin 2) ℂ) (σ : Fin 2 → ℝ),
    lib.Ok Ryy Rnn σ X ∧ Ryy.det ≠ 0 ∧ (Ryy - Rnn).PosSemidef ∧ (Ryy - Rnn).rank ≤ 1 ∧
    Ryy - Rnn ≠ 0 := by
  refine ⟨⟨fun _ _ => .ok (![1, 3], 1), fun _ => id⟩, diagonal ![1, 3], 1, 1, ![1, 3],
    ⟨rfl, ?_, ?_, fun _ _ h => h, ?_⟩, ?_, ?_, ?_, ?_⟩
  · rw [conjTranspose_one, Matrix.one_mul, Matrix.mul_one]
    congr 1; funext r; fin_cases r <;> simp
  · simp
  · intro a b hab
    fin_cases a <;> fin_cases b <;> simp_all
  · rw [det_diagonal]; simp
  · have : (diagonal ![1, 3] : Matrix (Fin 2) (Fin 2) ℂ) - 1 = diagonal ![0, 2] := by
      rw [← diagonal_one, diagonal_sub]; congr 1; funext r; fin_cases r <;> simp; norm_num
    rw [this, posSemidef_diagonal_iff]
    intro i; fin_cases i <;> simp
  · have : (diagonal ![1, 3] : Matrix (Fin 2) (Fin 2) ℂ) - 1 = vecMulVec ![0, 1] ![0, 2] := by
      ext i j; fin_cases i <;> fin_cases j <;> simp [vecMulVec_apply]; norm_num
    rw [this]
    exact rank_vecMulVec_le _ _
  · intro h
    have := congrFun (congrFun h 1) 1
    simp at this
    norm_num at this

end
end Danse
