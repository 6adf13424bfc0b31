import Verif.Proofs.Batch2

set_option linter.unusedSectionVars false

namespace Danse
open Matrix
open scoped ComplexOrder

section
variable {K : Nat} {S : Fin K → Type} [∀ k, Fintype (S k)] [∀ k, DecidableEq (S k)]

theorem batchRun_succ (c : BatchCfg S) (hs : c.nodeUpdating = "seq") {st st1 st2 : BatchSt S}
    {B : Nat} (h1 : batchRun c st B = .ok st1) (h2 : batchRun c st (B + 1) = .ok st2) :
    batchStep c (fun k => k.val == B % K) st1 = .ok st2 := by
  rw [batchRun, h1] at h2
  change (if c.nodeUpdating = "seq" then _ else _) = _ at h2
  rw [if_pos hs] at h2
  exact h2

theorem batchRun_prev (c : BatchCfg S) {st st2 : BatchSt S} {B : Nat}
    (h2 : batchRun c st (B + 1) = .ok st2) : ∃ st1, batchRun c st B = .ok st1 := by
  rw [batchRun] at h2
  cases h : batchRun c st B with
  | error e => rw [h] at h2; cases h2
  | ok s => exact ⟨s, rfl⟩

theorem SingleSource.batchCov {c : BatchCfg S} {ref : ∀ k, S k}
    {R N : Matrix (NetCh S) (NetCh S) ℂ} {rho : ℂ} {a : NetCh S → ℂ}
    (h : SingleSource c ref R N rho a) (ext : ∀ q, S q → ℂ) (k : Fin K) :
    batchCov c ext k = .ok ((compress ext k)ᴴ * R * compress ext k,
      (compress ext k)ᴴ * N * compress ext k) := by
  unfold Danse.batchCov
  have e : (c.frames.map fun y (_ : Unit) => yTildeB ext k y) =
      c.frames.map fun y (_ : Unit) => (compress ext k)ᴴ *ᵥ y := by
    simp only [compress_mul]
  rw [e, covBatch_compress (compress ext k) _ _ (h.cov k)]
  rfl

theorem SingleSource.psd {c : BatchCfg S} {ref : ∀ k, S k}
    {R N : Matrix (NetCh S) (NetCh S) ℂ} {rho : ℂ} {a : NetCh S → ℂ}
    (h : SingleSource c ref R N rho a) (k : Fin K) : R.PosSemidef :=
  (covBatch_psd _ _ (h.cov k)).1

theorem speech_single {n : Type} [Fintype n] [DecidableEq n] (rho : ℂ) (a : n → ℂ) (i : n) :
    (rho • vecMulVec a (star a)) *ᵥ Pi.single i 1 = star (a i) • (rho • a) := by
  funext j
  rw [mulVec_single_one, col_apply]
  simp only [Matrix.smul_apply, vecMulVec_apply, Pi.smul_apply, Pi.star_apply, smul_eq_mul]
  ring

/-- Normal equations of a node's update in terms of the network-wide filter. -/
theorem SingleSource.normal {c : BatchCfg S} {ref : ∀ k, S k}
    {R N : Matrix (NetCh S) (NetCh S) ℂ} {rho : ℂ} {a : NetCh S → ℂ}
    (h : SingleSource c ref R N rho a) (ext : ∀ q, S q → ℂ) (k : Fin K) {w : ObsCh S k → ℂ}
    (hw : c.upd k ((compress ext k)ᴴ * R * compress ext k)
      ((compress ext k)ᴴ * N * compress ext k) = .ok w) :
    (compress ext k)ᴴ *ᵥ (R *ᵥ netFilter ext k w - star (a ⟨k, ref k⟩) • (rho • a)) = 0 ∧
    ((compress ext k)ᴴ * R * compress ext k).det ≠ 0 := by
  rw [h.upd k] at hw
  refine ⟨?_, (updateW_ok hw).1⟩
  have hn := updateW_normal hw
  rw [← Matrix.sub_mul, ← Matrix.mul_sub, h.speech, ← mulVec_mulVec, ← mulVec_mulVec,
    compress_mulVec, ← mulVec_mulVec, ← mulVec_mulVec, compress_single, speech_single] at hn
  rw [mulVec_sub, hn, sub_self]

/-- The normalised network-wide filter. -/
noncomputable def normFilter (ref : ∀ k, S k) (a : NetCh S → ℂ) (ext : ∀ q, S q → ℂ) (k : Fin K)
    (w : ObsCh S k → ℂ) : NetCh S → ℂ := (star (a ⟨k, ref k⟩))⁻¹ • netFilter ext k w

theorem SingleSource.normal' {c : BatchCfg S} {ref : ∀ k, S k}
    {R N : Matrix (NetCh S) (NetCh S) ℂ} {rho : ℂ} {a : NetCh S → ℂ}
    (h : SingleSource c ref R N rho a) (ext : ∀ q, S q → ℂ) (k : Fin K) {w : ObsCh S k → ℂ}
    (hw : c.upd k ((compress ext k)ᴴ * R * compress ext k)
      ((compress ext k)ᴴ * N * compress ext k) = .ok w) :
    (compress ext k)ᴴ *ᵥ (R *ᵥ normFilter ref a ext k w - rho • a) = 0 := by
  have hn := (h.normal ext k hw).1
  have h0 : star (a ⟨k, ref k⟩) ≠ 0 := star_ne_zero.mpr (h.heard k)
  have : R *ᵥ normFilter ref a ext k w - rho • a = (star (a ⟨k, ref k⟩))⁻¹ •
      (R *ᵥ netFilter ext k w - star (a ⟨k, ref k⟩) • (rho • a)) := by
    unfold normFilter
    rw [mulVec_smul, smul_sub, smul_smul (star (a ⟨k, ref k⟩))⁻¹ (star (a ⟨k, ref k⟩)),
      inv_mul_cancel₀ h0, one_smul]
  rw [this, mulVec_smul, hn, smul_zero]

/-- A network-wide filter made with fusion filters `ext` can also be made by node `q` with fusion
filters `ext'` that agree except for a node whose new fusion filter is its part of the filter. -/
theorem netFilter_range {ext ext' : ∀ q, S q → ℂ} {k : Fin K} {w : ObsCh S k → ℂ}
    (h1 : ∀ s, ext' k s = w (.inl s)) (h2 : ∀ j, j ≠ k → ext' j = ext j) (q : Fin K) :
    ∃ u, netFilter ext k w = compress ext' q *ᵥ u := by
  refine ⟨fun b => match b with
    | .inl s => netFilter ext k w ⟨q, s⟩
    | .inr j => if h : j.1 = k then 1 else w (.inr ⟨j.1, h⟩), ?_⟩
  rw [compress_mulVec]
  funext a
  obtain ⟨p, s⟩ := a
  by_cases hq : p = q
  · subst hq
    simp [netFilter]
  · by_cases hk : p = k
    · subst hk
      simp [netFilter, hq, h1]
    · simp [netFilter, hq, hk, h2 p hk]

variable {c : BatchCfg S} {ref : ∀ k, S k} {R N : Matrix (NetCh S) (NetCh S) ℂ} {rho : ℂ}
  {a : NetCh S → ℂ}

theorem SingleSource.step (h : SingleSource c ref R N rho a) {up : Fin K → Bool}
    {st st' : BatchSt S} (hst : batchStep c up st = .ok st') (k : Fin K) :
    (up k = true → c.upd k
      ((compress (fun q => (st.ext q).ext) k)ᴴ * R * compress (fun q => (st.ext q).ext) k)
      ((compress (fun q => (st.ext q).ext) k)ᴴ * N * compress (fun q => (st.ext q).ext) k) =
        .ok (st'.wT k)) ∧
    (up k = false → st'.wT k = st.wT k) ∧
    st'.ext k = extStep (c.ext k) (st.ext k) (fun s => st'.wT k (.inl s)) none ∧
    st'.i k = st.i k + 1 ∧
    st'.dhat k = c.frames.dropLast.map fun y =>
      star (netFilter (fun q => (st.ext q).ext) k (st'.wT k)) ⬝ᵥ y := by
  obtain ⟨covs, hc, hk⟩ := batchStep_ok c up hst
  obtain ⟨k1, k2, k3, k4⟩ := hk k
  have hcv := hc k
  rw [h.batchCov] at hcv
  have hcv' := Except.ok.inj hcv
  refine ⟨fun hu => ?_, fun hu => ?_, k2, k3, ?_⟩
  · rw [batchFilter, if_pos hu, ← hcv'] at k1
    exact k1
  · rw [batchFilter, if_neg (by simp [hu])] at k1
    exact (Except.ok.inj k1).symm
  · rw [k4]
    simp only [netFilter_output]

theorem extStep_tied {c : BatchCfg S} (ht : TiedCfg c) (k : Fin K) (s : ExtSt (S k → ℂ) ℝ)
    (w : S k → ℂ) : (extStep (c.ext k) s w none).ext = w := by
  obtain ⟨h1, h2, h3⟩ := ht k
  unfold extStep
  rw [if_neg (by simp [h1]), if_neg (by rintro ⟨a, b⟩; rcases h2 with h | h <;> simp_all),
    if_pos h3]

/-- The node updating at batch update `B`. -/
def turn (hK : 0 < K) (B : Nat) : Fin K := ⟨B % K, Nat.mod_lt _ hK⟩

/-- Broadcast filters of a state. -/
def extsOf (st : BatchSt S) : ∀ q, S q → ℂ := fun q => (st.ext q).ext

structure RunFacts (c : BatchCfg S) (ref : ∀ k, S k) (R : Matrix (NetCh S) (NetCh S) ℂ) (rho : ℂ)
    (a : NetCh S → ℂ) (hK : 0 < K) (x : Nat → BatchSt S) : Prop where
  normal : ∀ B, (compress (extsOf (x B)) (turn hK B))ᴴ *ᵥ
    (R *ᵥ normFilter ref a (extsOf (x B)) (turn hK B) ((x (B + 1)).wT (turn hK B)) - rho • a) = 0
  tied : ∀ B q, extsOf (x (B + 1)) q = fun s => (x (B + 1)).wT q (.inl s)
  keep : ∀ B k, k ≠ turn hK B → (x (B + 1)).wT k = (x B).wT k
  dhat : ∀ B k, (x (B + 1)).dhat k = c.frames.dropLast.map fun y =>
    star (netFilter (extsOf (x B)) k ((x (B + 1)).wT k)) ⬝ᵥ y

theorem run_facts (h : SingleSource c ref R N rho a) (ht : TiedCfg c)
    (hs : c.nodeUpdating = "seq") (hK : 0 < K) (st : BatchSt S) (x : Nat → BatchSt S)
    (hrun : ∀ B, batchRun c st B = .ok (x B)) : RunFacts c ref R rho a hK x := by
  have hstep := fun B => batchRun_succ c hs (hrun B) (hrun (B + 1))
  refine ⟨fun B => ?_, fun B q => ?_, fun B k hk => ?_, fun B k => ?_⟩
  · exact h.normal' _ _ ((h.step (hstep B) (turn hK B)).1 (by simp [turn]))
  · have := (h.step (hstep B) q).2.2.1
    rw [extsOf, this, extStep_tied ht]
  · exact (h.step (hstep B) k).2.1 (by
      simpa [turn, Fin.ext_iff] using hk)
  · exact (h.step (hstep B) k).2.2.2.2

theorem RunFacts.range {hK : 0 < K} {x : Nat → BatchSt S} (f : RunFacts c ref R rho a hK x)
    (B : Nat) (q : Fin K) :
    ∃ u, normFilter ref a (extsOf (x (B + 1))) (turn hK (B + 1))
        ((x (B + 1 + 1)).wT (turn hK (B + 1))) = compress (extsOf (x (B + 1 + 1))) q *ᵥ u := by
  obtain ⟨u, hu⟩ := netFilter_range (ext := extsOf (x (B + 1))) (ext' := extsOf (x (B + 1 + 1)))
    (k := turn hK (B + 1)) (w := (x (B + 1 + 1)).wT (turn hK (B + 1)))
    (fun s => by rw [f.tied]) (fun j hj => by rw [f.tied, f.tied, f.keep _ _ hj]) q
  exact ⟨(star (a ⟨turn hK (B + 1), ref (turn hK (B + 1))⟩))⁻¹ • u, by
    rw [normFilter, hu, mulVec_smul]⟩

theorem RunFacts.orth {hK : 0 < K} {x : Nat → BatchSt S} (f : RunFacts c ref R rho a hK x)
    (B : Nat) :
    star (normFilter ref a (extsOf (x (B + 1))) (turn hK (B + 1))
          ((x (B + 1 + 1)).wT (turn hK (B + 1))) -
        normFilter ref a (extsOf (x (B + 1 + 1))) (turn hK (B + 1 + 1))
          ((x (B + 1 + 1 + 1)).wT (turn hK (B + 1 + 1)))) ⬝ᵥ
      (R *ᵥ normFilter ref a (extsOf (x (B + 1 + 1))) (turn hK (B + 1 + 1))
          ((x (B + 1 + 1 + 1)).wT (turn hK (B + 1 + 1))) - rho • a) = 0 := by
  obtain ⟨u, hu⟩ := f.range B (turn hK (B + 1 + 1))
  have h0 := f.normal (B + 1 + 1)
  rw [hu]
  have : normFilter ref a (extsOf (x (B + 1 + 1))) (turn hK (B + 1 + 1))
          ((x (B + 1 + 1 + 1)).wT (turn hK (B + 1 + 1))) =
      compress (extsOf (x (B + 1 + 1))) (turn hK (B + 1 + 1)) *ᵥ
        ((star (a ⟨turn hK (B + 1 + 1), ref (turn hK (B + 1 + 1))⟩))⁻¹ •
          (x (B + 1 + 1 + 1)).wT (turn hK (B + 1 + 1))) := by
    rw [mulVec_smul, compress_mulVec, normFilter]
  conv_lhs =>
    arg 1
    rw [this, ← mulVec_sub, star_mulVec]
  rw [← dotProduct_mulVec, h0, dotProduct_zero]

theorem RunFacts.own {hK : 0 < K} {x : Nat → BatchSt S} (f : RunFacts c ref R rho a hK x)
    (B : Nat) (j : NetCh S) (hj : j.1.val = B % K) :
    (R *ᵥ normFilter ref a (extsOf (x B)) (turn hK B) ((x (B + 1)).wT (turn hK B)) -
      rho • a) j = 0 := by
  obtain ⟨p, s⟩ := j
  have hp : p = turn hK B := Fin.ext hj
  subst hp
  have := congrFun (f.normal B) (.inl s)
  rw [compress_conj_inl] at this
  exact this

/-- The normalised cost never increases from the second update on, is bounded below by the
centralised one and the normalised filters converge to the centralised one. -/
theorem RunFacts.converges {hK : 0 < K} {x : Nat → BatchSt S} (f : RunFacts c ref R rho a hK x)
    (hR : R.PosSemidef) (hd : R.det ≠ 0) :
    (∀ B, qcost R (rho • a) (normFilter ref a (extsOf (x (B + 1 + 1))) (turn hK (B + 1 + 1))
        ((x (B + 1 + 1 + 1)).wT (turn hK (B + 1 + 1)))) ≤
      qcost R (rho • a) (normFilter ref a (extsOf (x (B + 1))) (turn hK (B + 1))
        ((x (B + 1 + 1)).wT (turn hK (B + 1))))) ∧
    Filter.Tendsto (fun B => normFilter ref a (extsOf (x B)) (turn hK B)
      ((x (B + 1)).wT (turn hK B))) Filter.atTop (nhds (R⁻¹ *ᵥ (rho • a))) := by
  constructor
  · intro B
    rw [qcost_sub R hR.isHermitian _ _ _ (f.orth B)]
    have := qform_nonneg hR (normFilter ref a (extsOf (x (B + 1))) (turn hK (B + 1))
          ((x (B + 1 + 1)).wT (turn hK (B + 1))) -
        normFilter ref a (extsOf (x (B + 1 + 1))) (turn hK (B + 1 + 1))
          ((x (B + 1 + 1 + 1)).wT (turn hK (B + 1 + 1))))
    linarith
  · have hc := cyclic_convergence hR hd (rho • a) hK (fun j : NetCh S => j.1)
      (fun B => normFilter ref a (extsOf (x (B + K))) (turn hK (B + K))
        ((x (B + K + 1)).wT (turn hK (B + K))))
      (fun B j hj => f.own (B + K) j (by rw [Nat.add_mod_right]; exact hj))
      (fun B => by
        obtain ⟨m, rfl⟩ : ∃ m, K = m + 1 := ⟨K - 1, by omega⟩
        have := f.orth (B + m)
        rw [show B + 1 + (m + 1) = B + m + 1 + 1 by omega, show B + (m + 1) = B + m + 1 by omega]
        exact this)
    exact (Filter.tendsto_add_atTop_iff_nat (f := fun B => normFilter ref a (extsOf (x B)) (turn hK B)
      ((x (B + 1)).wT (turn hK B))) K).mp hc.2.2

/-- A sequence that only changes at the turns of `k` and converges along them converges. -/
theorem tendsto_of_turns {α : Type} [TopologicalSpace α] {hK : 0 < K} (k : Fin K) (g : Nat → α)
    (hg : ∀ B, k ≠ turn hK B → g (B + 1) = g B) {L : α}
    (hL : Filter.Tendsto (fun m => g (m * K + k.val + 1)) Filter.atTop (nhds L)) :
    Filter.Tendsto g Filter.atTop (nhds L) := by
  have hgen : ∀ m j, j < K → g (m * K + k.val + 1 + j) = g (m * K + k.val + 1) := by
    intro m j
    induction j with
    | zero => intro _; rfl
    | succ j ih =>
      intro hj
      rw [← Nat.add_assoc, hg, ih (by omega)]
      intro e
      have h1 := congrArg Fin.val e
      simp only [turn] at h1
      have h2 : (m * K + k.val + 1 + j) % K = (k.val + (1 + j)) % K := by
        rw [show m * K + k.val + 1 + j = k.val + (1 + j) + m * K by omega, Nat.add_mul_mod_self_right]
      rw [h2] at h1
      have hk := k.isLt
      by_cases h3 : k.val + (1 + j) < K
      · rw [Nat.mod_eq_of_lt h3] at h1; omega
      · rw [Nat.mod_eq_sub_mod (by omega), Nat.mod_eq_of_lt (by omega)] at h1; omega
  rw [← Filter.tendsto_add_atTop_iff_nat (k.val + 1)]
  have hdiv : Filter.Tendsto (fun B => B / K) Filter.atTop Filter.atTop :=
    Nat.tendsto_div_const_atTop hK.ne'
  refine (hL.comp hdiv).congr fun B => ?_
  rw [Function.comp]
  have := hgen (B / K) (B % K) (Nat.mod_lt _ hK)
  rw [← this]
  congr 1
  have := Nat.div_add_mod' B K
  omega

theorem turn_mul (hK : 0 < K) (m : Nat) (k : Fin K) : turn hK (m * K + k.val) = k := by
  apply Fin.ext
  simp only [turn]
  rw [Nat.add_comm, Nat.add_mul_mod_self_right, Nat.mod_eq_of_lt k.isLt]

theorem tendsto_turns (hK : 0 < K) (k : Fin K) :
    Filter.Tendsto (fun m => m * K + k.val) Filter.atTop Filter.atTop := by
  refine Filter.tendsto_atTop_mono (fun m => ?_) Filter.tendsto_id
  have := Nat.le_mul_of_pos_right m hK
  simp only [id]; omega

/-- At the turns of node `k` its network-wide filter converges to the centralised filter. -/
theorem RunFacts.at_turns {hK : 0 < K} {x : Nat → BatchSt S} (f : RunFacts c ref R rho a hK x)
    (hR : R.PosSemidef) (hd : R.det ≠ 0) (ha : ∀ k, a ⟨k, ref k⟩ ≠ 0) (k : Fin K) :
    Filter.Tendsto (fun m => netFilter (extsOf (x (m * K + k.val))) k
      ((x (m * K + k.val + 1)).wT k)) Filter.atTop
      (nhds (star (a ⟨k, ref k⟩) • R⁻¹ *ᵥ (rho • a))) := by
  have h1 := (f.converges hR hd).2.comp (tendsto_turns hK k)
  have h2 := h1.const_smul (star (a ⟨k, ref k⟩))
  refine h2.congr fun m => ?_
  rw [Function.comp]
  rw [turn_mul hK m k, normFilter, smul_smul, mul_inv_cancel₀ (star_ne_zero.mpr (ha k)), one_smul]

/-- The broadcast filters converge to the own parts of the centralised filters. -/
theorem RunFacts.ext_tendsto {hK : 0 < K} {x : Nat → BatchSt S} (f : RunFacts c ref R rho a hK x)
    (hR : R.PosSemidef) (hd : R.det ≠ 0) (ha : ∀ k, a ⟨k, ref k⟩ ≠ 0) (k : Fin K) :
    Filter.Tendsto (fun B => extsOf (x B) k) Filter.atTop
      (nhds fun s => (star (a ⟨k, ref k⟩) • R⁻¹ *ᵥ (rho • a)) ⟨k, s⟩) := by
  have h1 : Filter.Tendsto (fun B => fun s => (x B).wT k (.inl s)) Filter.atTop
      (nhds fun s => (star (a ⟨k, ref k⟩) • R⁻¹ *ᵥ (rho • a)) ⟨k, s⟩) := by
    refine tendsto_of_turns (hK := hK) k _ (fun B hB => by rw [f.keep B k hB]) ?_
    rw [tendsto_pi_nhds]
    intro s
    refine ((tendsto_pi_nhds.mp (f.at_turns hR hd ha k)) ⟨k, s⟩).congr fun m => ?_
    simp [netFilter]
  rw [← Filter.tendsto_add_atTop_iff_nat 1] at h1 ⊢
  refine h1.congr fun B => ?_
  rw [f.tied]

/-- All internal filters converge if every node contributes to the centralised filter. -/
theorem RunFacts.all_tendsto {hK : 0 < K} {x : Nat → BatchSt S} (f : RunFacts c ref R rho a hK x)
    (hR : R.PosSemidef) (hd : R.det ≠ 0) (ha : ∀ k, a ⟨k, ref k⟩ ≠ 0)
    (hc : ∀ k, ∃ s, (R⁻¹ *ᵥ (rho • a)) ⟨k, s⟩ ≠ 0) (k : Fin K) :
    Filter.Tendsto (fun B => netFilter (extsOf (x B)) k ((x (B + 1)).wT k)) Filter.atTop
      (nhds (star (a ⟨k, ref k⟩) • R⁻¹ *ᵥ (rho • a))) := by
  choose s0 hs0 using hc
  have hinl : Filter.Tendsto (fun B => fun s => (x B).wT k (.inl s)) Filter.atTop
      (nhds fun s => (star (a ⟨k, ref k⟩) • R⁻¹ *ᵥ (rho • a)) ⟨k, s⟩) := by
    rw [← Filter.tendsto_add_atTop_iff_nat 1]
    refine ((Filter.tendsto_add_atTop_iff_nat 1).mpr (f.ext_tendsto hR hd ha k)).congr fun B => ?_
    rw [f.tied]
  have hinr : ∀ q : {q : Fin K // q ≠ k}, Filter.Tendsto (fun B => (x B).wT k (.inr q))
      Filter.atTop (nhds (star (a ⟨k, ref k⟩) / star (a ⟨q.1, ref q.1⟩))) := by
    intro q
    refine tendsto_of_turns (hK := hK) k _ (fun B hB => by rw [f.keep B k hB]) ?_
    have e1 := tendsto_pi_nhds.mp (f.at_turns hR hd ha k) ⟨q.1, s0 q.1⟩
    have e2 := (tendsto_pi_nhds.mp (f.ext_tendsto hR hd ha q.1) (s0 q.1)).comp (tendsto_turns hK k)
    have hne : (star (a ⟨q.1, ref q.1⟩) • R⁻¹ *ᵥ (rho • a)) ⟨q.1, s0 q.1⟩ ≠ 0 := by
      rw [Pi.smul_apply, smul_eq_mul]
      exact mul_ne_zero (star_ne_zero.mpr (ha q.1)) (hs0 q.1)
    have e3 := e1.div e2 hne
    have e4 : (star (a ⟨k, ref k⟩) • R⁻¹ *ᵥ (rho • a)) ⟨q.1, s0 q.1⟩ /
        (star (a ⟨q.1, ref q.1⟩) • R⁻¹ *ᵥ (rho • a)) ⟨q.1, s0 q.1⟩ =
        star (a ⟨k, ref k⟩) / star (a ⟨q.1, ref q.1⟩) := by
      rw [Pi.smul_apply, Pi.smul_apply, smul_eq_mul, smul_eq_mul, mul_div_mul_right _ _ (hs0 q.1)]
    rw [e4] at e3
    refine e3.congr' ?_
    have hev := e2.eventually_ne hne
    filter_upwards [hev] with m hm
    simp only [Function.comp] at hm
    simp only [Pi.div_apply, Function.comp, netFilter, dif_neg q.2]
    rw [mul_div_assoc, div_self hm, mul_one]
  rw [tendsto_pi_nhds]
  rintro ⟨p, s⟩
  by_cases hp : p = k
  · subst hp
    have := (Filter.tendsto_add_atTop_iff_nat 1).mpr (tendsto_pi_nhds.mp hinl s)
    refine this.congr fun B => ?_
    simp [netFilter]
  · have e1 := (Filter.tendsto_add_atTop_iff_nat 1).mpr (hinr ⟨p, hp⟩)
    have e2 := tendsto_pi_nhds.mp (f.ext_tendsto hR hd ha p) s
    have e3 := e1.mul e2
    have e4 : star (a ⟨k, ref k⟩) / star (a ⟨p, ref p⟩) *
        (star (a ⟨p, ref p⟩) • R⁻¹ *ᵥ (rho • a)) ⟨p, s⟩ =
        (star (a ⟨k, ref k⟩) • R⁻¹ *ᵥ (rho • a)) ⟨p, s⟩ := by
      have := star_ne_zero.mpr (ha p)
      rw [Pi.smul_apply, Pi.smul_apply, smul_eq_mul, smul_eq_mul, ← mul_assoc,
        div_mul_cancel₀ _ this]
    rw [e4] at e3
    refine e3.congr fun B => ?_
    simp only [netFilter, dif_neg hp]

end
end Danse
