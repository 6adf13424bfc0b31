import Verif.Proofs.Batch4
import Verif.Spec.BatchTI

set_option linter.unusedSectionVars false

namespace Danse
open Matrix
open scoped ComplexOrder

section
variable {K : Nat} {S : Fin K → Type} [∀ k, Fintype (S k)] [∀ k, DecidableEq (S k)]

theorem tiBatchNode_fold_ok (c : TiBatchCfg S) (ext0 : ∀ q, TiCh S q → ℂ)
    (covs : ∀ k, Matrix (TiCh S k) (TiCh S k) ℂ × Matrix (TiCh S k) (TiCh S k) ℂ)
    (up : Fin K → Bool) (l : List (Fin K)) (hn : l.Nodup) {st st' : TiBatchSt S}
    (h : l.foldlM (tiBatchNode c ext0 covs up) st = .ok st') :
    (∀ k ∈ l, tiBatchFilter c covs up st k = .ok (st'.wT k) ∧
      st'.ext k = extStep (c.ext k) (st.ext k) (st'.wT k) none ∧
      st'.i k = st.i k + 1 ∧
      st'.dhat k = c.frames.dropLast.map fun y => star (st'.wT k) ⬝ᵥ tiY (tiP ext0) k y) ∧
    ∀ k, k ∉ l → st'.wT k = st.wT k ∧ st'.ext k = st.ext k ∧ st'.i k = st.i k ∧
      st'.dhat k = st.dhat k := by
  induction l generalizing st with
  | nil =>
    have : st = st' := Except.ok.inj h
    subst this
    exact ⟨by simp, fun _ _ => ⟨rfl, rfl, rfl, rfl⟩⟩
  | cons b l ih =>
    rw [List.foldlM_cons] at h
    rw [List.nodup_cons] at hn
    unfold tiBatchNode at h
    cases hb : tiBatchFilter c covs up st b with
    | error e => rw [hb] at h; cases h
    | ok w =>
      rw [hb] at h
      change l.foldlM (tiBatchNode c ext0 covs up) (TiBatchSt.mk _ _ _ _) = _ at h
      obtain ⟨i1, i2⟩ := ih hn.2 h
      constructor
      · intro k hk
        rcases List.mem_cons.mp hk with rfl | hk'
        · obtain ⟨a1, a2, a3, a4⟩ := i2 _ hn.1
          simp only [Function.update_self] at a1 a2 a3 a4
          rw [hb, a1]
          exact ⟨rfl, by rw [a2], a3, a4⟩
        · have hne : k ≠ b := fun e => hn.1 (e ▸ hk')
          obtain ⟨a1, a2, a3, a4⟩ := i1 k hk'
          simp only [tiBatchFilter, Function.update_of_ne hne] at a1 a2 a3
          exact ⟨a1, a2, a3, a4⟩
      · intro k hk
        rw [List.mem_cons, not_or] at hk
        obtain ⟨a1, a2, a3, a4⟩ := i2 k hk.2
        simp only [Function.update_of_ne hk.1] at a1 a2 a3 a4
        exact ⟨a1, a2, a3, a4⟩

theorem tiBatchNode_fold_total (c : TiBatchCfg S) (ext0 : ∀ q, TiCh S q → ℂ)
    (covs : ∀ k, Matrix (TiCh S k) (TiCh S k) ℂ × Matrix (TiCh S k) (TiCh S k) ℂ)
    (up : Fin K → Bool) (l : List (Fin K)) (st : TiBatchSt S)
    (h : ∀ k ∈ l, up k = true → ∃ w, c.upd k (covs k).1 (covs k).2 = .ok w) :
    ∃ st', l.foldlM (tiBatchNode c ext0 covs up) st = .ok st' := by
  induction l generalizing st with
  | nil => exact ⟨st, rfl⟩
  | cons b l ih =>
    have : ∃ st1, tiBatchNode c ext0 covs up st b = .ok st1 := by
      unfold tiBatchNode tiBatchFilter
      by_cases hu : up b = true
      · obtain ⟨w, hw⟩ := h b (by simp) hu
        rw [if_pos hu, hw]
        exact ⟨_, rfl⟩
      · rw [if_neg hu]
        exact ⟨_, rfl⟩
    obtain ⟨st1, h1⟩ := this
    rw [List.foldlM_cons, h1]
    exact ih st1 fun k hk => h k (by simp [hk])

/-- One batch update, node by node. -/
theorem tiBatchStep_ok (c : TiBatchCfg S) (up : Fin K → Bool) {st st' : TiBatchSt S}
    (h : tiBatchStep c up st = .ok st') :
    ∃ covs : ∀ k, Matrix (TiCh S k) (TiCh S k) ℂ × Matrix (TiCh S k) (TiCh S k) ℂ,
      (∀ k, tiBatchCov c st.exts k = .ok (covs k)) ∧
      ∀ k, tiBatchFilter c covs up st k = .ok (st'.wT k) ∧
        st'.ext k = extStep (c.ext k) (st.ext k) (st'.wT k) none ∧
        st'.i k = st.i k + 1 ∧
        st'.dhat k = c.frames.dropLast.map fun y =>
          star (st'.wT k) ⬝ᵥ tiY (tiP st.exts) k y := by
  unfold tiBatchStep at h
  cases hc : (List.finRange K).foldlM (m := Except PyErr) (fun cv k => do
    let r ← tiBatchCov c st.exts k
    return Function.update cv k r)
    (fun _ => (0, 0) : ∀ k, Matrix (TiCh S k) (TiCh S k) ℂ × Matrix (TiCh S k) (TiCh S k) ℂ)
    with
  | error e => rw [hc] at h; cases h
  | ok covs =>
    rw [hc] at h
    obtain ⟨h1, -⟩ := foldlM_update_ok _ _ hc (List.nodup_finRange K)
    obtain ⟨h2, -⟩ := tiBatchNode_fold_ok c _ covs up _ (List.nodup_finRange K) h
    exact ⟨covs, fun k => h1 k (List.mem_finRange k), fun k => h2 k (List.mem_finRange k)⟩

theorem tiBatchStep_total (c : TiBatchCfg S) (up : Fin K → Bool) (st : TiBatchSt S)
    (covs : ∀ k, Matrix (TiCh S k) (TiCh S k) ℂ × Matrix (TiCh S k) (TiCh S k) ℂ)
    (h1 : ∀ k, tiBatchCov c st.exts k = .ok (covs k))
    (h2 : ∀ k, up k = true → ∃ w, c.upd k (covs k).1 (covs k).2 = .ok w) :
    ∃ st', tiBatchStep c up st = .ok st' := by
  unfold tiBatchStep
  obtain ⟨cv, hcv⟩ := foldlM_update_total (fun k => tiBatchCov c st.exts k) covs
    (List.finRange K) (fun _ => (0, 0)) fun k _ => h1 k
  have : cv = covs := by
    obtain ⟨h3, -⟩ := foldlM_update_ok _ _ hcv (List.nodup_finRange K)
    funext k
    have := h3 k (List.mem_finRange k)
    rw [h1 k] at this
    exact (Except.ok.inj this).symm
  subst this
  rw [hcv]
  exact tiBatchNode_fold_total c _ cv up _ st fun k _ => h2 k

theorem foldlM_first_error {ι β : Type} (f : β → ι → Except PyErr β) (l : List ι) (b : β)
    (e : PyErr) (h : ∀ b, ∀ i ∈ l, f b i = .error e) (hl : l ≠ []) : l.foldlM f b = .error e := by
  cases l with
  | nil => exact absurd rfl hl
  | cons i l => rw [List.foldlM_cons, h b i (by simp)]; rfl

/-! ### Compression -/

/-- The matrix with `ỹ = Cᴴ y`. -/
noncomputable def tiCompress (p : ∀ q, S q → ℂ) (k : Fin K) : Matrix (NetCh S) (TiCh S k) ℂ :=
  Matrix.of fun a b => match b with
    | .inl s => if a = ⟨k, s⟩ then 1 else 0
    | .inr _ => if a.1 = k then 0 else p a.1 a.2

theorem tiCompress_mul (p : ∀ q, S q → ℂ) (k : Fin K) (y : NetCh S → ℂ) :
    (tiCompress p k)ᴴ *ᵥ y = tiY p k y := by
  funext b
  rw [mulVec, dotProduct]
  cases b with
  | inl s =>
    simp only [conjTranspose_apply, tiCompress, of_apply, tiY]
    rw [Finset.sum_eq_single ⟨k, s⟩]
    · simp
    · intro a _ ha; simp [ha]
    · simp
  | inr u =>
    simp only [conjTranspose_apply, tiCompress, of_apply, tiY]
    rw [Fintype.sum_sigma]
    rw [Finset.sum_subtype (p := fun q : Fin K => q ≠ k) (Finset.univ.filter fun q => q ≠ k)
      (by simp) (f := fun q => ∑ s, star (p q s) * y ⟨q, s⟩) |>.symm, Finset.sum_filter]
    refine Finset.sum_congr rfl fun q _ => ?_
    by_cases h : q = k
    · simp [h]
    · simp [h]

theorem tiCompress_mulVec (p : ∀ q, S q → ℂ) (k : Fin K) (w : TiCh S k → ℂ) :
    tiCompress p k *ᵥ w = tiNetFilter p k w := by
  funext a
  obtain ⟨q, s⟩ := a
  rw [mulVec, dotProduct, Fintype.sum_sum_type]
  simp only [tiCompress, of_apply, tiNetFilter]
  by_cases h : q = k
  · subst h
    rw [dif_pos rfl, Finset.sum_eq_single s]
    · simp
    · intro t _ ht
      rw [if_neg, zero_mul]
      intro e
      exact ht (by cases e; rfl)
    · simp
  · rw [dif_neg h, Finset.sum_eq_zero]
    · simp [h, mul_comm]
    · intro t _
      rw [if_neg, zero_mul]
      intro e
      exact h (congrArg Sigma.fst e)

theorem tiNetFilter_output (p : ∀ q, S q → ℂ) (k : Fin K) (w : TiCh S k → ℂ) (y : NetCh S → ℂ) :
    star w ⬝ᵥ tiY p k y = star (tiNetFilter p k w) ⬝ᵥ y := by
  rw [← tiCompress_mul, ← tiCompress_mulVec, star_mulVec, dotProduct_mulVec]

theorem tiCompress_single (p : ∀ q, S q → ℂ) (k : Fin K) (s : S k) :
    tiCompress p k *ᵥ Pi.single (Sum.inl s) 1 = Pi.single ⟨k, s⟩ 1 := by
  funext a
  rw [mulVec_single_one, col_apply]
  simp [tiCompress, Pi.single_apply]

theorem tiCompress_conj_inl (p : ∀ q, S q → ℂ) (k : Fin K) (s : S k) (x : NetCh S → ℂ) :
    ((tiCompress p k)ᴴ *ᵥ x) (.inl s) = x ⟨k, s⟩ := by
  rw [tiCompress_mul]; rfl

theorem tiCompress_injective (p : ∀ q, S q → ℂ) (k : Fin K) (h : ∃ q, q ≠ k ∧ p q ≠ 0)
    {w v : TiCh S k → ℂ} (e : tiNetFilter p k w = tiNetFilter p k v) : w = v := by
  funext b
  cases b with
  | inl s =>
    have := congrFun e ⟨k, s⟩
    simpa [tiNetFilter] using this
  | inr u =>
    obtain ⟨q, hq, hp⟩ := h
    obtain ⟨t, ht⟩ := Function.ne_iff.mp hp
    have := congrFun e ⟨q, t⟩
    simp only [tiNetFilter, dif_neg hq] at this
    exact mul_right_cancel₀ ht this

/-! ### Single source -/

variable {c : TiBatchCfg S} {ref : ∀ k, S k} {R N : Matrix (NetCh S) (NetCh S) ℂ} {rho : ℂ}
  {a : NetCh S → ℂ}

theorem TiSingleSource.psd (h : TiSingleSource c ref R N rho a) (k : Fin K) : R.PosSemidef :=
  (covBatch_psd _ _ (h.cov k)).1

theorem TiSingleSource.batchCov (h : TiSingleSource c ref R N rho a) (ext : ∀ q, TiCh S q → ℂ)
    (k : Fin K) :
    tiBatchCov c ext k = if ∃ q, q ≠ k ∧ ext q (.inr ()) = 0 then .error .nan else
      .ok ((tiCompress (tiP ext) k)ᴴ * R * tiCompress (tiP ext) k,
      (tiCompress (tiP ext) k)ᴴ * N * tiCompress (tiP ext) k) := by
  unfold tiBatchCov
  have e : (c.frames.map fun y (_ : Unit) => tiY (tiP ext) k y) =
      c.frames.map fun y (_ : Unit) => (tiCompress (tiP ext) k)ᴴ *ᵥ y := by
    simp only [tiCompress_mul]
  rw [e, covBatch_compress (tiCompress (tiP ext) k) _ _ (h.cov k)]
  congr

/-- The normalised network-wide filter. -/
noncomputable def tiNorm (ref : ∀ k, S k) (a : NetCh S → ℂ) (p : ∀ q, S q → ℂ) (k : Fin K)
    (w : TiCh S k → ℂ) : NetCh S → ℂ := (star (a ⟨k, ref k⟩))⁻¹ • tiNetFilter p k w

theorem TiSingleSource.normal (h : TiSingleSource c ref R N rho a) (p : ∀ q, S q → ℂ) (k : Fin K)
    {w : TiCh S k → ℂ}
    (hw : c.upd k ((tiCompress p k)ᴴ * R * tiCompress p k)
      ((tiCompress p k)ᴴ * N * tiCompress p k) = .ok w) :
    (tiCompress p k)ᴴ *ᵥ (R *ᵥ tiNorm ref a p k w - rho • a) = 0 := by
  rw [h.upd k] at hw
  have hn := updateW_normal hw
  rw [← Matrix.sub_mul, ← Matrix.mul_sub, h.speech, ← mulVec_mulVec, ← mulVec_mulVec,
    tiCompress_mulVec, ← mulVec_mulVec, ← mulVec_mulVec, tiCompress_single, speech_single] at hn
  have h0 : star (a ⟨k, ref k⟩) ≠ 0 := star_ne_zero.mpr (h.heard k)
  have : R *ᵥ tiNorm ref a p k w - rho • a = (star (a ⟨k, ref k⟩))⁻¹ •
      (R *ᵥ tiNetFilter p k w - star (a ⟨k, ref k⟩) • (rho • a)) := by
    unfold tiNorm
    rw [mulVec_smul, smul_sub, smul_smul (star (a ⟨k, ref k⟩))⁻¹ (star (a ⟨k, ref k⟩)),
      inv_mul_cancel₀ h0, one_smul]
  rw [this, mulVec_smul, mulVec_sub, hn, sub_self, smul_zero]

theorem tiNetFilter_range {p p' : ∀ q, S q → ℂ} {k : Fin K} {w : TiCh S k → ℂ}
    (hg : w (.inr ()) ≠ 0)
    (h1 : ∀ s, p' k s = w (.inl s) / w (.inr ())) (h2 : ∀ j, j ≠ k → p' j = p j) (q : Fin K) :
    ∃ u, tiNetFilter p k w = tiCompress p' q *ᵥ u := by
  refine ⟨fun b => match b with
    | .inl s => tiNetFilter p k w ⟨q, s⟩
    | .inr _ => w (.inr ()), ?_⟩
  rw [tiCompress_mulVec]
  funext ⟨r, s⟩
  by_cases hq : r = q
  · subst hq
    simp [tiNetFilter]
  · by_cases hk : r = k
    · subst hk
      simp [tiNetFilter, hq, h1, mul_div_cancel₀ _ hg]
    · simp [tiNetFilter, hq, hk, h2 r hk]

theorem TiSingleSource.step (h : TiSingleSource c ref R N rho a) {up : Fin K → Bool}
    {st st' : TiBatchSt S} (hst : tiBatchStep c up st = .ok st') (k : Fin K) :
    (∀ q, q ≠ k → st.exts q (.inr ()) ≠ 0) ∧
    (up k = true → c.upd k
      ((tiCompress (tiP st.exts) k)ᴴ * R * tiCompress (tiP st.exts) k)
      ((tiCompress (tiP st.exts) k)ᴴ * N * tiCompress (tiP st.exts) k) = .ok (st'.wT k)) ∧
    (up k = false → st'.wT k = st.wT k) ∧
    st'.ext k = extStep (c.ext k) (st.ext k) (st'.wT k) none ∧
    st'.i k = st.i k + 1 ∧
    st'.dhat k = c.frames.dropLast.map fun y =>
      star (tiNetFilter (tiP st.exts) k (st'.wT k)) ⬝ᵥ y := by
  obtain ⟨covs, hc, hk⟩ := tiBatchStep_ok c up hst
  obtain ⟨k1, k2, k3, k4⟩ := hk k
  have hcv := hc k
  rw [h.batchCov] at hcv
  by_cases hz : ∃ q, q ≠ k ∧ st.exts q (.inr ()) = 0
  · rw [if_pos hz] at hcv; cases hcv
  rw [if_neg hz] at hcv
  have hcv' := Except.ok.inj hcv
  refine ⟨fun q hq e => hz ⟨q, hq, e⟩, fun hu => ?_, fun hu => ?_, k2, k3, ?_⟩
  · rw [tiBatchFilter, if_pos hu, ← hcv'] at k1
    exact k1
  · rw [tiBatchFilter, if_neg (by simp [hu])] at k1
    exact (Except.ok.inj k1).symm
  · rw [k4]
    simp only [tiNetFilter_output]

theorem tiExtStep_tied (ht : TiTiedCfg c) (k : Fin K) (s : ExtSt (TiCh S k → ℂ) ℝ)
    (w : TiCh S k → ℂ) : (extStep (c.ext k) s w none).ext = w := by
  obtain ⟨h1, h2, h3⟩ := ht k
  unfold extStep
  rw [if_neg (by simp [h1]), if_neg (by rintro ⟨a, b⟩; rcases h2 with h | h <;> simp_all),
    if_pos h3]

theorem tiBatchRun_succ (hs : c.seq = true) {st st1 st2 : TiBatchSt S}
    {B : Nat} (h1 : tiBatchRun c st B = .ok st1) (h2 : tiBatchRun c st (B + 1) = .ok st2) :
    tiBatchStep c (fun k => k.val == B % K) st1 = .ok st2 := by
  rw [tiBatchRun, h1] at h2
  change (if c.seq then _ else _) = _ at h2
  rw [if_pos hs] at h2
  exact h2

theorem tiBatchRun_prev {st st2 : TiBatchSt S} {B : Nat}
    (h2 : tiBatchRun c st (B + 1) = .ok st2) : ∃ st1, tiBatchRun c st B = .ok st1 := by
  rw [tiBatchRun] at h2
  cases h : tiBatchRun c st B with
  | error e => rw [h] at h2; cases h2
  | ok s => exact ⟨s, rfl⟩

structure TiRunFacts (c : TiBatchCfg S) (ref : ∀ k, S k) (R : Matrix (NetCh S) (NetCh S) ℂ) (rho : ℂ)
    (a : NetCh S → ℂ) (hK : 0 < K) (x : Nat → TiBatchSt S) : Prop where
  normal : ∀ B, (tiCompress (tiP (x B).exts) (turn hK B))ᴴ *ᵥ
    (R *ᵥ tiNorm ref a (tiP (x B).exts) (turn hK B) ((x (B + 1)).wT (turn hK B)) - rho • a) = 0
  tied : ∀ B q, (x (B + 1)).exts q = (x (B + 1)).wT q
  keep : ∀ B k, k ≠ turn hK B → (x (B + 1)).wT k = (x B).wT k
  dhat : ∀ B k, (x (B + 1)).dhat k = c.frames.dropLast.map fun y =>
    star (tiNetFilter (tiP (x B).exts) k ((x (B + 1)).wT k)) ⬝ᵥ y
  ne : ∀ B q, (x B).exts q (.inr ()) ≠ 0

theorem ti_run_facts (h : TiSingleSource c ref R N rho a) (ht : TiTiedCfg c)
    (hs : c.seq = true) (hK : 1 < K) (st : TiBatchSt S) (x : Nat → TiBatchSt S)
    (hrun : ∀ B, tiBatchRun c st B = .ok (x B)) :
    TiRunFacts c ref R rho a (by omega) x := by
  have hstep := fun B => tiBatchRun_succ hs (hrun B) (hrun (B + 1))
  refine ⟨fun B => ?_, fun B q => ?_, fun B k hk => ?_, fun B k => ?_, fun B q => ?_⟩
  · exact h.normal _ _ ((h.step (hstep B) (turn _ B)).2.1 (by simp [turn]))
  · have := (h.step (hstep B) q).2.2.2.1
    rw [TiBatchSt.exts, this, tiExtStep_tied ht]
  · exact (h.step (hstep B) k).2.2.1 (by
      simpa [turn, Fin.ext_iff] using hk)
  · exact (h.step (hstep B) k).2.2.2.2.2
  · obtain ⟨k, hk⟩ : ∃ k : Fin K, q ≠ k := by
      by_cases h0 : q.val = 0
      · exact ⟨⟨1, hK⟩, fun e => by rw [e] at h0; simp at h0⟩
      · exact ⟨⟨0, by omega⟩, fun e => by rw [e] at h0; simp at h0⟩
    exact (h.step (hstep B) k).1 q hk

theorem TiRunFacts.range {hK : 0 < K} {x : Nat → TiBatchSt S} (f : TiRunFacts c ref R rho a hK x)
    (B : Nat) (q : Fin K) :
    ∃ u, tiNorm ref a (tiP (x (B + 1)).exts) (turn hK (B + 1))
        ((x (B + 1 + 1)).wT (turn hK (B + 1))) = tiCompress (tiP (x (B + 1 + 1)).exts) q *ᵥ u := by
  obtain ⟨u, hu⟩ := tiNetFilter_range (p := tiP (x (B + 1)).exts) (p' := tiP (x (B + 1 + 1)).exts)
    (k := turn hK (B + 1)) (w := (x (B + 1 + 1)).wT (turn hK (B + 1)))
    (by rw [← f.tied]; exact f.ne _ _)
    (fun s => by rw [tiP, f.tied])
    (fun j hj => by funext s; rw [tiP, tiP, f.tied, f.tied, f.keep _ _ hj]) q
  exact ⟨(star (a ⟨turn hK (B + 1), ref (turn hK (B + 1))⟩))⁻¹ • u, by
    rw [tiNorm, hu, mulVec_smul]⟩

theorem TiRunFacts.orth {hK : 0 < K} {x : Nat → TiBatchSt S} (f : TiRunFacts c ref R rho a hK x)
    (B : Nat) :
    star (tiNorm ref a (tiP (x (B + 1)).exts) (turn hK (B + 1))
          ((x (B + 1 + 1)).wT (turn hK (B + 1))) -
        tiNorm ref a (tiP (x (B + 1 + 1)).exts) (turn hK (B + 1 + 1))
          ((x (B + 1 + 1 + 1)).wT (turn hK (B + 1 + 1)))) ⬝ᵥ
      (R *ᵥ tiNorm ref a (tiP (x (B + 1 + 1)).exts) (turn hK (B + 1 + 1))
          ((x (B + 1 + 1 + 1)).wT (turn hK (B + 1 + 1))) - rho • a) = 0 := by
  obtain ⟨u, hu⟩ := f.range B (turn hK (B + 1 + 1))
  have h0 := f.normal (B + 1 + 1)
  rw [hu]
  have : tiNorm ref a (tiP (x (B + 1 + 1)).exts) (turn hK (B + 1 + 1))
          ((x (B + 1 + 1 + 1)).wT (turn hK (B + 1 + 1))) =
      tiCompress (tiP (x (B + 1 + 1)).exts) (turn hK (B + 1 + 1)) *ᵥ
        ((star (a ⟨turn hK (B + 1 + 1), ref (turn hK (B + 1 + 1))⟩))⁻¹ •
          (x (B + 1 + 1 + 1)).wT (turn hK (B + 1 + 1))) := by
    rw [mulVec_smul, tiCompress_mulVec, tiNorm]
  conv_lhs =>
    arg 1
    rw [this, ← mulVec_sub, star_mulVec]
  rw [← dotProduct_mulVec, h0, dotProduct_zero]

theorem TiRunFacts.own {hK : 0 < K} {x : Nat → TiBatchSt S} (f : TiRunFacts c ref R rho a hK x)
    (B : Nat) (j : NetCh S) (hj : j.1.val = B % K) :
    (R *ᵥ tiNorm ref a (tiP (x B).exts) (turn hK B) ((x (B + 1)).wT (turn hK B)) -
      rho • a) j = 0 := by
  obtain ⟨p, s⟩ := j
  have hp : p = turn hK B := Fin.ext hj
  subst hp
  have := congrFun (f.normal B) (.inl s)
  rw [tiCompress_conj_inl] at this
  exact this

theorem TiRunFacts.converges {hK : 0 < K} {x : Nat → TiBatchSt S} (f : TiRunFacts c ref R rho a hK x)
    (hR : R.PosSemidef) (hd : R.det ≠ 0) :
    (∀ B, qcost R (rho • a) (tiNorm ref a (tiP (x (B + 1 + 1)).exts) (turn hK (B + 1 + 1))
        ((x (B + 1 + 1 + 1)).wT (turn hK (B + 1 + 1)))) ≤
      qcost R (rho • a) (tiNorm ref a (tiP (x (B + 1)).exts) (turn hK (B + 1))
        ((x (B + 1 + 1)).wT (turn hK (B + 1))))) ∧
    Filter.Tendsto (fun B => tiNorm ref a (tiP (x B).exts) (turn hK B)
      ((x (B + 1)).wT (turn hK B))) Filter.atTop (nhds (R⁻¹ *ᵥ (rho • a))) := by
  constructor
  · intro B
    rw [qcost_sub R hR.isHermitian _ _ _ (f.orth B)]
    have := qform_nonneg hR (tiNorm ref a (tiP (x (B + 1)).exts) (turn hK (B + 1))
          ((x (B + 1 + 1)).wT (turn hK (B + 1))) -
        tiNorm ref a (tiP (x (B + 1 + 1)).exts) (turn hK (B + 1 + 1))
          ((x (B + 1 + 1 + 1)).wT (turn hK (B + 1 + 1))))
    linarith
  · have hc := cyclic_convergence hR hd (rho • a) hK (fun j : NetCh S => j.1)
      (fun B => tiNorm ref a (tiP (x (B + K)).exts) (turn hK (B + K))
        ((x (B + K + 1)).wT (turn hK (B + K))))
      (fun B j hj => f.own (B + K) j (by rw [Nat.add_mod_right]; exact hj))
      (fun B => by
        obtain ⟨m, rfl⟩ : ∃ m, K = m + 1 := ⟨K - 1, by omega⟩
        have := f.orth (B + m)
        rw [show B + 1 + (m + 1) = B + m + 1 + 1 by omega, show B + (m + 1) = B + m + 1 by omega]
        exact this)
    exact (Filter.tendsto_add_atTop_iff_nat (f := fun B => tiNorm ref a (tiP (x B).exts) (turn hK B)
      ((x (B + 1)).wT (turn hK B))) K).mp hc.2.2

end
end Danse
