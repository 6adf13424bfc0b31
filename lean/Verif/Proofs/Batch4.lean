import Verif.Proofs.Batch3

set_option linter.unusedSectionVars false

namespace Danse
open Matrix
open scoped ComplexOrder

section
variable {K : Nat} {S : Fin K → Type} [∀ k, Fintype (S k)] [∀ k, DecidableEq (S k)]
variable {c : BatchCfg S} {ref : ∀ k, S k} {R N : Matrix (NetCh S) (NetCh S) ℂ} {rho : ℂ}
  {a : NetCh S → ℂ}

theorem SingleSource.centr (h : SingleSource c ref R N rho a) {k : Fin K} {w : NetCh S → ℂ}
    (hw : updateW R N ⟨k, ref k⟩ = .ok w) : w = star (a ⟨k, ref k⟩) • R⁻¹ *ᵥ (rho • a) := by
  rw [(updateW_ok hw).2, h.speech, speech_single, mulVec_smul]

theorem SingleSource.update_opt (h : SingleSource c ref R N rho a)
    {wbar : ∀ _ : Fin K, NetCh S → ℂ} (hw : ∀ k, updateW R N ⟨k, ref k⟩ = .ok (wbar k))
    (k : Fin K) {w : ObsCh S k → ℂ}
    (hu : c.upd k
      ((compress (fun q s => wbar q ⟨q, s⟩) k)ᴴ * R * compress (fun q s => wbar q ⟨q, s⟩) k)
      ((compress (fun q s => wbar q ⟨q, s⟩) k)ᴴ * N * compress (fun q s => wbar q ⟨q, s⟩) k) =
        .ok w) :
    netFilter (fun q s => wbar q ⟨q, s⟩) k w = wbar k := by
  obtain ⟨hn, hd⟩ := h.normal _ k hu
  set C := compress (fun q s => wbar q ⟨q, s⟩) k with hC
  let v : ObsCh S k → ℂ := fun b => match b with
    | .inl s => wbar k ⟨k, s⟩
    | .inr q => star (a ⟨k, ref k⟩) / star (a ⟨q.1, ref q.1⟩)
  have hv : netFilter (fun q s => wbar q ⟨q, s⟩) k v = wbar k := by
    funext ⟨p, s⟩
    by_cases hp : p = k
    · subst hp
      simp [netFilter, v]
    · simp only [netFilter, dif_neg hp, v]
      rw [h.centr (hw k), h.centr (hw p), Pi.smul_apply, Pi.smul_apply, smul_eq_mul, smul_eq_mul,
        ← mul_assoc, div_mul_cancel₀ _ (star_ne_zero.mpr (h.heard p))]
  have hRw : R *ᵥ wbar k = star (a ⟨k, ref k⟩) • (rho • a) := by
    rw [updateW_normal (hw k), h.speech, speech_single]
  have h1 : (Cᴴ * R * C) *ᵥ w = (Cᴴ * R * C) *ᵥ v := by
    rw [mulVec_sub, sub_eq_zero, ← hRw] at hn
    rw [← mulVec_mulVec, ← mulVec_mulVec, ← mulVec_mulVec, ← mulVec_mulVec, hC, compress_mulVec,
      compress_mulVec, hv]
    exact hn
  have h2 := congrArg (fun x => (Cᴴ * R * C)⁻¹ *ᵥ x) h1
  simp only [mulVec_mulVec, nonsing_inv_mul _ (Ne.isUnit hd), one_mulVec] at h2
  rw [h2, hv]

theorem netFilter_own (ext : ∀ q, S q → ℂ) (k : Fin K) (w : ObsCh S k → ℂ) (s : S k) :
    netFilter ext k w ⟨k, s⟩ = w (.inl s) := by
  simp [netFilter]

theorem extStep_fixed {W T : Type} [AddCommGroup W] [Module ℂ W] [Sub T] [LE T] [DecidableLE T]
    (e : ExtCfg W ℂ T) (h : e.onlyRef = false) (s : ExtSt W T) {b : W} (h1 : s.ext = b)
    (h2 : s.target = b) (t : Option T) :
    (extStep e s b t).ext = b ∧ (extStep e s b t).target = b := by
  unfold extStep
  rw [if_neg (by simp [h])]
  by_cases c1 : e.oneMic = true ∧ e.noFusion = true
  · rw [if_pos c1]; exact ⟨h1, h2⟩
  · rw [if_neg c1]
    by_cases c2 : e.noRelax = true ∨ e.seq = true
    · rw [if_pos c2]; exact ⟨rfl, h2⟩
    · rw [if_neg c2]
      have e1 : e.betaExt • s.ext + (1 - e.betaExt) • s.target = b := by
        rw [h1, h2, ← add_smul, add_sub_cancel, one_smul]
      have e2 : (1 - e.alpha) • s.target + e.alpha • b = b := by
        rw [h2, ← add_smul, sub_add_cancel, one_smul]
      cases t with
      | none => exact ⟨e1, e2⟩
      | some t =>
        dsimp only
        split
        · exact ⟨e1, e2⟩
        · exact ⟨e1, h2⟩

theorem SingleSource.step_opt (h : SingleSource c ref R N rho a)
    {wbar : ∀ _ : Fin K, NetCh S → ℂ} (hw : ∀ k, updateW R N ⟨k, ref k⟩ = .ok (wbar k))
    (ho : ∀ k, (c.ext k).onlyRef = false) {up : Fin K → Bool} {st st' : BatchSt S}
    (hst : batchStep c up st = .ok st') (hopt : AtOptimum wbar st) :
    AtOptimum wbar st' ∧ ∀ k, st'.dhat k = c.frames.dropLast.map fun y => star (wbar k) ⬝ᵥ y := by
  have hext : (fun q => (st.ext q).ext) = fun q s => wbar q ⟨q, s⟩ := by
    funext q; exact (hopt q).1
  have hfil : ∀ k, netFilter (fun q s => wbar q ⟨q, s⟩) k (st'.wT k) = wbar k := by
    intro k
    have hk := h.step hst k
    rw [hext] at hk
    cases hu : up k with
    | true => exact h.update_opt hw k (hk.1 hu)
    | false => rw [hk.2.1 hu]; exact (hopt k).2.2
  refine ⟨fun k => ?_, fun k => ?_⟩
  · have hk := h.step hst k
    have hinl : (fun s => st'.wT k (.inl s)) = fun s => wbar k ⟨k, s⟩ := by
      funext s
      rw [← netFilter_own (fun q s => wbar q ⟨q, s⟩) k (st'.wT k), hfil]
    rw [hk.2.2.1, hinl]
    obtain ⟨e1, e2⟩ := extStep_fixed (c.ext k) (ho k) (st.ext k) (hopt k).1 (hopt k).2.1 none
    exact ⟨e1, e2, hfil k⟩
  · have hk := (h.step hst k).2.2.2.2
    rw [hext, hfil] at hk
    exact hk

/-- With non-zero broadcast filters no update fails. -/
theorem SingleSource.step_total (h : SingleSource c ref R N rho a) (up : Fin K → Bool)
    (st : BatchSt S) (hz : ∀ q, (st.ext q).ext ≠ 0) : ∃ st', batchStep c up st = .ok st' := by
  refine batchStep_total c up st _ (fun k => h.batchCov _ k) fun k _ => ?_
  rw [h.upd k]
  have hpd : R.PosDef := by
    rw [(h.psd k).posDef_iff_det_ne_zero]
    exact h.det
  have : ((compress (fun q => (st.ext q).ext) k)ᴴ * R *
      compress (fun q => (st.ext q).ext) k).PosDef := by
    refine hpd.conjTranspose_mul_mul_same fun x y hxy => ?_
    rw [compress_mulVec, compress_mulVec] at hxy
    exact compress_injective _ k (fun q _ => hz q) hxy
  exact ⟨_, updateW_of_det this.det_pos.ne'⟩

end

section
variable {n ι : Type} [Fintype n] [DecidableEq n] [Fintype ι]

theorem sqErr_eq_qcost (p : ι → ℝ) (d : ι → ℂ) (y : ι → n → ℂ) (b : n → ℂ)
    (hb : ∀ j, ∑ i, (p i : ℂ) * (y i j * star (d i)) = b j) (v : n → ℂ) :
    sqErr p d y v = ∑ i, p i * ‖d i‖ ^ 2 + qcost (wcov p y y) b v := by
  have hpt : ∀ i, p i * ‖d i - star v ⬝ᵥ y i‖ ^ 2 = p i * ‖d i‖ ^ 2 +
      (((p i : ℂ) * ((star v ⬝ᵥ y i) * star (star v ⬝ᵥ y i))).re -
      2 * ((p i : ℂ) * ((star v ⬝ᵥ y i) * star (d i))).re) := by
    intro i
    generalize star v ⬝ᵥ y i = u
    rw [← Complex.normSq_eq_norm_sq, ← Complex.normSq_eq_norm_sq]
    simp only [Complex.normSq_apply, Complex.re_ofReal_mul, Complex.mul_re, Complex.star_def,
      Complex.conj_re, Complex.conj_im, Complex.sub_re, Complex.sub_im, Complex.ofReal_re,
      Complex.ofReal_im]
    ring
  have h1 : ∑ i, (p i : ℂ) * ((star v ⬝ᵥ y i) * star (d i)) = star v ⬝ᵥ b := by
    simp only [dotProduct, ← hb, Finset.mul_sum, Finset.sum_mul]
    rw [Finset.sum_comm]
    refine Finset.sum_congr rfl fun j _ => Finset.sum_congr rfl fun i _ => ?_
    ring
  have h2 : ∑ i, (p i : ℂ) * ((star v ⬝ᵥ y i) * star (star v ⬝ᵥ y i)) =
      star v ⬝ᵥ (wcov p y y *ᵥ v) := by
    have h3 : ∀ i, (p i : ℂ) * ((star v ⬝ᵥ y i) * star (star v ⬝ᵥ y i)) =
        ∑ j, star (v j) * ∑ l, ((p i : ℂ) * (y i j * star (y i l))) * v l := by
      intro i
      have : star (star v ⬝ᵥ y i) = ∑ l, star (y i l) * v l := by
        rw [star_dotProduct, star_star]; rfl
      rw [this, dotProduct, Finset.sum_mul, Finset.mul_sum]
      refine Finset.sum_congr rfl fun j _ => ?_
      rw [Finset.mul_sum, Finset.mul_sum, Finset.mul_sum]
      refine Finset.sum_congr rfl fun l _ => ?_
      rw [Pi.star_apply]
      ring
    simp only [h3]
    rw [Finset.sum_comm]
    simp only [dotProduct, mulVec, wcov_apply]
    refine Finset.sum_congr rfl fun j _ => ?_
    rw [← Finset.mul_sum, Finset.sum_comm]
    simp only [Finset.sum_mul, Pi.star_apply]
  unfold sqErr qcost
  simp only [hpt]
  rw [Finset.sum_add_distrib, Finset.sum_sub_distrib, ← Finset.mul_sum, ← Complex.re_sum,
    ← Complex.re_sum, h1, h2]

theorem sqErr_smul (p : ι → ℝ) (d : ι → ℂ) (y : ι → n → ℂ) (g : ℂ) (hg : g ≠ 0) (w : n → ℂ) :
    sqErr p (fun i => g * d i) y w / ‖g‖ ^ 2 = sqErr p d y ((star g)⁻¹ • w) := by
  have hg' : ‖g‖ ^ 2 ≠ 0 := pow_ne_zero _ (norm_ne_zero_iff.mpr hg)
  rw [div_eq_iff hg']
  unfold sqErr
  rw [Finset.sum_mul]
  refine Finset.sum_congr rfl fun i _ => ?_
  rw [mul_assoc, ← mul_pow, ← norm_mul]
  congr 3
  rw [star_smul, star_inv₀, star_star, smul_dotProduct, smul_eq_mul]
  field_simp

end
end Danse
