import Verif.Proofs.Batch
import Verif.Spec.Batch
import Mathlib.Analysis.Matrix.Order
import Mathlib.Topology.Algebra.Order.LiminfLimsup
import Mathlib.Topology.Instances.Matrix

set_option linter.unusedSectionVars false

namespace Danse
open Matrix
open scoped ComplexOrder MatrixOrder Matrix.Norms.L2Operator

section
variable {K : Nat} {S : Fin K → Type} [∀ k, Fintype (S k)] [∀ k, DecidableEq (S k)]

theorem compress_mulVec (ext : ∀ q, S q → ℂ) (k : Fin K) (w : ObsCh S k → ℂ) :
    compress ext k *ᵥ w = netFilter ext k w := by
  funext a
  obtain ⟨p, s⟩ := a
  rw [mulVec, dotProduct, Fintype.sum_sum_type]
  simp only [compress, of_apply, netFilter]
  by_cases h : p = k
  · subst h
    rw [dif_pos rfl, Finset.sum_eq_single s]
    · rw [Finset.sum_eq_zero]
      · simp
      · intro q _
        rw [if_neg (fun e => q.2 e.symm), zero_mul]
    · intro t _ ht
      rw [if_neg, zero_mul]
      intro e
      exact ht (by cases e; rfl)
    · simp
  · rw [dif_neg h, Finset.sum_eq_zero, Finset.sum_eq_single ⟨p, h⟩]
    · simp [mul_comm]
    · intro q _ hq
      rw [if_neg (fun e => hq (Subtype.ext e.symm)), zero_mul]
    · simp
    · intro t _
      rw [if_neg, zero_mul]
      intro e
      exact h (congrArg Sigma.fst e)

theorem netFilter_output (ext : ∀ q, S q → ℂ) (k : Fin K) (w : ObsCh S k → ℂ) (y : NetCh S → ℂ) :
    star w ⬝ᵥ yTildeB ext k y = star (netFilter ext k w) ⬝ᵥ y := by
  rw [← compress_mul, ← compress_mulVec, star_mulVec, dotProduct_mulVec]

theorem compress_single (ext : ∀ q, S q → ℂ) (k : Fin K) (s : S k) :
    compress ext k *ᵥ Pi.single (Sum.inl s) 1 = Pi.single ⟨k, s⟩ 1 := by
  funext a
  rw [mulVec_single_one, col_apply]
  simp [compress, Pi.single_apply]

/-- Orthogonality of the residual of a compressed filter to the own sensors. -/
theorem compress_conj_inl (ext : ∀ q, S q → ℂ) (k : Fin K) (s : S k) (x : NetCh S → ℂ) :
    ((compress ext k)ᴴ *ᵥ x) (.inl s) = x ⟨k, s⟩ := by
  rw [compress_mul]; rfl

/-- If every other broadcast filter is non-zero, compression loses no filter. -/
theorem compress_injective (ext : ∀ q, S q → ℂ) (k : Fin K) (h : ∀ q, q ≠ k → ext q ≠ 0)
    {w v : ObsCh S k → ℂ} (e : netFilter ext k w = netFilter ext k v) : w = v := by
  funext b
  cases b with
  | inl s =>
    have := congrFun e ⟨k, s⟩
    simpa [netFilter] using this
  | inr q =>
    obtain ⟨t, ht⟩ := Function.ne_iff.mp (h q.1 q.2)
    have := congrFun e ⟨q.1, t⟩
    simp only [netFilter, dif_neg q.2] at this
    exact mul_right_cancel₀ ht this

end

/-! ### Quadratic costs -/

section
variable {n m : Type} [Fintype n] [DecidableEq n] [Fintype m] [DecidableEq m]

theorem covBatch_psd (frames : List (n → ℂ)) (vad : List Bool) {R N : Matrix n n ℂ}
    (h : covBatch (F := Unit) (frames.map fun y _ => y) vad = .ok (fun _ => R, fun _ => N)) :
    R.PosSemidef ∧ N.PosSemidef := by
  have hsum : ∀ l : List (Unit → n → ℂ),
      (((1 : ℂ) / (l.length : ℂ)) • (l.map fun y => (Matrix.of fun j k => y () j * star (y () k) :
        Matrix n n ℂ)).sum).PosSemidef := by
    intro l
    have h1 : ((l.map fun y => (Matrix.of fun j k => y () j * star (y () k) :
        Matrix n n ℂ)).sum).PosSemidef := by
      induction l with
      | nil => exact PosSemidef.zero
      | cons y l ih =>
        rw [List.map_cons, List.sum_cons]
        refine PosSemidef.add ?_ ih
        exact posSemidef_vecMulVec_self_star (y ())
    refine h1.smul ?_
    rw [one_div]
    exact inv_nonneg.mpr (by exact_mod_cast Nat.zero_le _)
  unfold covBatch at h
  simp only [List.length_map] at h
  by_cases hl : (if vad.length > frames.length then vad.take frames.length else vad).length ≠
      frames.length
  · rw [if_pos hl] at h; cases h
  · rw [if_neg hl] at h
    have h' := Except.ok.inj h
    have hR := congrFun (congrArg Prod.fst h') ()
    have hN := congrFun (congrArg Prod.snd h') ()
    simp only at hR hN
    rw [← hR, ← hN]
    constructor
    · have := hsum (List.map (fun x => x.1) (List.filter (fun p => p.2)
        ((List.map (fun y (_ : Unit) => y) frames).zip
          (if vad.length > frames.length then List.take frames.length vad else vad))))
      simpa using this
    · have := hsum (List.map (fun x => x.1) (List.filter (fun p => !p.2)
        ((List.map (fun y (_ : Unit) => y) frames).zip
          (if vad.length > frames.length then List.take frames.length vad else vad))))
      simpa using this

/-- Quadratic cost. -/
noncomputable def qcost (R : Matrix n n ℂ) (b v : n → ℂ) : ℝ :=
  (star v ⬝ᵥ (R *ᵥ v)).re - 2 * (star v ⬝ᵥ b).re

theorem qcost_sub (R : Matrix n n ℂ) (hR : R.IsHermitian) (b v w : n → ℂ)
    (h : star (v - w) ⬝ᵥ (R *ᵥ w - b) = 0) :
    qcost R b v = qcost R b w + (star (v - w) ⬝ᵥ (R *ᵥ (v - w))).re := by
  have hs : ∀ x y : n → ℂ, (star x ⬝ᵥ (R *ᵥ y)).re = (star y ⬝ᵥ (R *ᵥ x)).re := by
    intro x y
    have : star (star x ⬝ᵥ (R *ᵥ y)) = star y ⬝ᵥ (R *ᵥ x) := by
      rw [star_dotProduct, star_star, star_mulVec, hR.eq, dotProduct_comm, dotProduct_mulVec, dotProduct_comm]
    rw [← this]; simp
  obtain ⟨x, rfl⟩ : ∃ x, v = w + x := ⟨v - w, by abel⟩
  rw [add_sub_cancel_left] at h ⊢
  rw [dotProduct_sub, sub_eq_zero] at h
  have h' := congrArg Complex.re h
  unfold qcost
  rw [star_add, mulVec_add, add_dotProduct, add_dotProduct, dotProduct_add, dotProduct_add]
  simp only [Complex.add_re]
  rw [hs w x]
  linarith

theorem qform_nonneg {R : Matrix n n ℂ} (hR : R.PosSemidef) (x : n → ℂ) :
    0 ≤ (star x ⬝ᵥ (R *ᵥ x)).re := by
  have := hR.dotProduct_mulVec_nonneg x
  exact (Complex.le_def.mp this).1

/-- If the quadratic form tends to zero, so does the image. -/
theorem tendsto_of_qform {R : Matrix n n ℂ} (hR : R.PosSemidef) (x : Nat → n → ℂ)
    (h : Filter.Tendsto (fun m => (star (x m) ⬝ᵥ (R *ᵥ x m)).re) Filter.atTop (nhds 0)) :
    Filter.Tendsto (fun m => R *ᵥ x m) Filter.atTop (nhds 0) := by
  obtain ⟨B, rfl⟩ := CStarAlgebra.nonneg_iff_eq_star_mul_self.mp hR.nonneg
  rw [star_eq_conjTranspose] at h ⊢
  have hq : ∀ y : n → ℂ, (star y ⬝ᵥ ((Bᴴ * B) *ᵥ y)).re = ∑ i, ‖(B *ᵥ y) i‖ ^ 2 := by
    intro y
    rw [← mulVec_mulVec, dotProduct_mulVec, ← star_mulVec, dotProduct, Complex.re_sum]
    refine Finset.sum_congr rfl fun i _ => ?_
    rw [Pi.star_apply, Complex.star_def, Complex.conj_mul', ← Complex.ofReal_pow, Complex.ofReal_re]
  simp only [hq] at h
  have h1 : Filter.Tendsto (fun m => B *ᵥ x m) Filter.atTop (nhds 0) := by
    rw [tendsto_pi_nhds]
    intro i
    rw [Pi.zero_apply]
    have h2 : Filter.Tendsto (fun m => ‖(B *ᵥ x m) i‖ ^ 2) Filter.atTop (nhds 0) :=
      squeeze_zero (fun _ => sq_nonneg _)
        (fun m => Finset.single_le_sum (f := fun i => ‖(B *ᵥ x m) i‖ ^ 2)
          (fun _ _ => sq_nonneg _) (Finset.mem_univ i)) h
    have h3 := (Real.continuous_sqrt.tendsto 0).comp h2
    rw [Real.sqrt_zero] at h3
    have h4 : (Real.sqrt ∘ fun m => ‖(B *ᵥ x m) i‖ ^ 2) = fun m => ‖(B *ᵥ x m) i‖ := by
      funext m
      simp [Real.sqrt_sq]
    rw [h4] at h3
    exact tendsto_zero_iff_norm_tendsto_zero.mpr h3
  have hc : Continuous fun y : n → ℂ => Bᴴ *ᵥ y := by
    exact Continuous.matrix_mulVec continuous_const continuous_id
  have h5 := (hc.tendsto 0).comp h1
  rw [mulVec_zero] at h5
  refine h5.congr fun m => ?_
  rw [Function.comp, mulVec_mulVec]

/-- Cyclic block minimisation of a strictly convex quadratic cost over subspaces that always contain
the previous iterate and the block to be updated converges to the minimiser. -/
theorem cyclic_convergence {R : Matrix n n ℂ} (hR : R.PosSemidef) (hd : R.det ≠ 0) (b : n → ℂ)
    {K : Nat} (hK : 0 < K) (blk : n → Fin K) (V : Nat → n → ℂ)
    (h0 : ∀ B a, (blk a).val = B % K → (R *ᵥ V B - b) a = 0)
    (h1 : ∀ B, star (V B - V (B + 1)) ⬝ᵥ (R *ᵥ V (B + 1) - b) = 0) :
    (∀ B, qcost R b (V (B + 1)) ≤ qcost R b (V B)) ∧
    (∀ v, qcost R b (R⁻¹ *ᵥ b) ≤ qcost R b v) ∧
    Filter.Tendsto V Filter.atTop (nhds (R⁻¹ *ᵥ b)) := by
  have hstep : ∀ B, qcost R b (V B) = qcost R b (V (B + 1)) +
      (star (V B - V (B + 1)) ⬝ᵥ (R *ᵥ (V B - V (B + 1)))).re := fun B =>
    qcost_sub R hR.isHermitian b _ _ (h1 B)
  have hinv : R *ᵥ (R⁻¹ *ᵥ b) = b := by
    rw [mulVec_mulVec, mul_nonsing_inv _ (Ne.isUnit hd), one_mulVec]
  have hmin : ∀ v, qcost R b (R⁻¹ *ᵥ b) ≤ qcost R b v := by
    intro v
    rw [qcost_sub R hR.isHermitian b v (R⁻¹ *ᵥ b) (by rw [hinv, sub_self, dotProduct_zero])]
    have := qform_nonneg hR (v - R⁻¹ *ᵥ b)
    linarith
  have hmono : ∀ B, qcost R b (V (B + 1)) ≤ qcost R b (V B) := by
    intro B
    have := qform_nonneg hR (V B - V (B + 1))
    rw [hstep B]; linarith
  refine ⟨hmono, hmin, ?_⟩
  have hlim : Filter.Tendsto (fun B => qcost R b (V B)) Filter.atTop
      (nhds (⨅ B, qcost R b (V B))) :=
    tendsto_atTop_ciInf (antitone_nat_of_succ_le hmono) ⟨_, by rintro _ ⟨B, rfl⟩; exact hmin _⟩
  have hdiff : Filter.Tendsto (fun B => (star (V B - V (B + 1)) ⬝ᵥ (R *ᵥ (V B - V (B + 1)))).re)
      Filter.atTop (nhds 0) := by
    have := hlim.sub (hlim.comp (Filter.tendsto_add_atTop_nat 1))
    rw [sub_self] at this
    refine this.congr fun B => ?_
    have := hstep B
    simp only [Function.comp]
    linarith
  have hδ := tendsto_of_qform hR _ hdiff
  -- residuals
  have hres : Filter.Tendsto (fun B => R *ᵥ V B - b) Filter.atTop (nhds 0) := by
    rw [tendsto_pi_nhds]
    intro a
    rw [Pi.zero_apply]
    have hδa : Filter.Tendsto (fun B => ‖(R *ᵥ (V B - V (B + 1))) a‖) Filter.atTop (nhds 0) := by
      have := (tendsto_pi_nhds.mp hδ a).norm
      simpa using this
    have hsum : Filter.Tendsto
        (fun B => ∑ i ∈ Finset.range K, ‖(R *ᵥ (V (B + i) - V (B + i + 1))) a‖)
        Filter.atTop (nhds 0) := by
      have := tendsto_finset_sum (Finset.range K) (fun i _ =>
        hδa.comp (Filter.tendsto_add_atTop_nat i))
      simpa [Function.comp] using this
    refine squeeze_zero_norm (fun B => ?_) hsum
    obtain ⟨j, hj, hjk⟩ : ∃ j, j < K ∧ (B + j) % K = (blk a).val := by
      have hB := Nat.mod_lt B hK
      have hb := (blk a).isLt
      by_cases hle : B % K ≤ (blk a).val
      · refine ⟨(blk a).val - B % K, by omega, ?_⟩
        rw [Nat.add_mod, Nat.mod_eq_of_lt (by omega : (blk a).val - B % K < K),
          Nat.add_sub_cancel' hle, Nat.mod_eq_of_lt hb]
      · refine ⟨(blk a).val + K - B % K, by omega, ?_⟩
        rw [Nat.add_mod, Nat.mod_eq_of_lt (by omega : (blk a).val + K - B % K < K),
          Nat.add_sub_cancel' (by omega), Nat.add_mod_right, Nat.mod_eq_of_lt hb]
    have htel : ∀ j, (R *ᵥ V B - b) a = (R *ᵥ V (B + j) - b) a +
        ∑ i ∈ Finset.range j, (R *ᵥ (V (B + i) - V (B + i + 1))) a := by
      intro j
      induction j with
      | zero => simp
      | succ j ih =>
        rw [Finset.sum_range_succ, ih, mulVec_sub]
        simp only [Pi.sub_apply]
        rw [show B + j + 1 = B + (j + 1) by omega]
        ring
    rw [htel j, h0 (B + j) a hjk.symm, zero_add]
    refine (norm_sum_le _ _).trans ?_
    exact Finset.sum_le_sum_of_subset_of_nonneg
      (Finset.range_subset_range.mpr hj.le) fun _ _ _ => norm_nonneg _
  have hc : Continuous fun y : n → ℂ => R⁻¹ *ᵥ (y + b) :=
    Continuous.matrix_mulVec continuous_const (continuous_id.add continuous_const)
  have h5 := (hc.tendsto 0).comp hres
  rw [zero_add] at h5
  refine h5.congr fun B => ?_
  rw [Function.comp, sub_add_cancel, mulVec_mulVec, nonsing_inv_mul _ (Ne.isUnit hd), one_mulVec]

end
end Danse
