import Verif.Proofs.BatchTI
import Verif.Props.Batch

/-!
# Property C60: batch TI-DANSE

`tiNetFilter p k w` is the filter on ALL sensors of the network that the internal filter `w` of node
`k` amounts to, the nodes fusing with the vectors `p`.
-/

set_option linter.unusedSectionVars false

namespace Danse
open Matrix
open scoped ComplexOrder

section
variable {K : Nat} {S : Fin K → Type} [∀ k, Fintype (S k)] [∀ k, DecidableEq (S k)]
variable {c : TiBatchCfg S} {ref : ∀ k, S k} {R N : Matrix (NetCh S) (NetCh S) ℂ} {rho : ℂ}
  {a : NetCh S → ℂ}

/-- C60: what the estimate of a node is: its filter on all sensors of the network. -/
theorem C60_output (p : ∀ q, S q → ℂ) (k : Fin K) (w : TiCh S k → ℂ) (y : NetCh S → ℂ) :
    star w ⬝ᵥ tiY p k y = star (tiNetFilter p k w) ⬝ᵥ y :=
  tiNetFilter_output p k w y

/-- C60: round robin, counters, broadcast filters. -/
theorem C60_round_robin (ht : TiTiedCfg c) (hs : c.seq = true) {st st2 : TiBatchSt S} {B : Nat}
    (h : tiBatchRun c st (B + 1) = .ok st2) :
    ∃ st1, tiBatchRun c st B = .ok st1 ∧ ∀ k : Fin K,
      (k.val ≠ B % K → st2.wT k = st1.wT k) ∧
      (k.val = B % K → ∃ Ry Rn,
        covBatch (F := Unit) (c.frames.map fun y _ => tiY (tiP st1.exts) k y)
          (c.vad k) = .ok (Ry, Rn) ∧ c.upd k (Ry ()) (Rn ()) = .ok (st2.wT k)) ∧
      (st2.ext k).ext = st2.wT k ∧ st2.i k = st1.i k + 1 ∧
      st2.dhat k = c.frames.dropLast.map fun y => star (st2.wT k) ⬝ᵥ tiY (tiP st1.exts) k y := by
  obtain ⟨st1, h1⟩ := tiBatchRun_prev h
  obtain ⟨covs, hc, hk⟩ := tiBatchStep_ok c _ (tiBatchRun_succ hs h1 h)
  refine ⟨st1, h1, fun k => ⟨fun hne => ?_, fun he => ?_, ?_, (hk k).2.2.1, (hk k).2.2.2⟩⟩
  · have := (hk k).1
    rw [tiBatchFilter, if_neg (by simpa using hne)] at this
    exact (Except.ok.inj this).symm
  · have h2 := (hk k).1
    rw [tiBatchFilter, if_pos (by simpa using he)] at h2
    have h3 := hc k
    unfold tiBatchCov at h3
    by_cases hz : ∃ q, q ≠ k ∧ st1.exts q (.inr ()) = 0
    · rw [if_pos hz] at h3; cases h3
    rw [if_neg hz] at h3
    cases hb : covBatch (F := Unit)
        (c.frames.map fun y _ => tiY (tiP st1.exts) k y) (c.vad k) with
    | error e => rw [hb] at h3; cases h3
    | ok r =>
      rw [hb] at h3
      have h4 := Except.ok.inj h3
      exact ⟨r.1, r.2, rfl, by rw [← h4] at h2; exact h2⟩
  · rw [(hk k).2.1, tiExtStep_tied ht]

/-- C60: sequential batch TI-DANSE converges to the centralised filters. For any initial state, if
every update succeeds, the network-wide filter of every node, at its updates, converges to its
centralised filter. -/
theorem C60_converges (h : TiSingleSource c ref R N rho a) (ht : TiTiedCfg c) (hK : 1 < K)
    (hs : c.seq = true) (st : TiBatchSt S) (x : Nat → TiBatchSt S)
    (hrun : ∀ B, tiBatchRun c st B = .ok (x B)) (k : Fin K) {wbar : NetCh S → ℂ}
    (hw : updateW R N ⟨k, ref k⟩ = .ok wbar) :
    Filter.Tendsto (fun m => tiNetFilter (tiP (x (m * K + k.val)).exts) k
      ((x (m * K + k.val + 1)).wT k)) Filter.atTop (nhds wbar) := by
  have f := ti_run_facts h ht hs hK st x hrun
  have hwb : wbar = star (a ⟨k, ref k⟩) • R⁻¹ *ᵥ (rho • a) := by
    rw [(updateW_ok hw).2, h.speech, speech_single, mulVec_smul]
  have hK' : 0 < K := by omega
  have h1 := (f.converges (h.psd k) h.det).2.comp (tendsto_turns hK' k)
  have h2 := h1.const_smul (star (a ⟨k, ref k⟩))
  rw [hwb]
  refine h2.congr fun m => ?_
  rw [Function.comp]
  rw [turn_mul hK' m k, tiNorm, smul_smul, mul_inv_cancel₀ (star_ne_zero.mpr (h.heard k)), one_smul]

/-- C60: from the second update on the relative error of the updating node never grows, and it is
never below the error of the centralised filter (as `C59_error_decreases`). -/
theorem C60_error_decreases (h : TiSingleSource c ref R N rho a) (ht : TiTiedCfg c) (hK : 1 < K)
    (hs : c.seq = true) (st : TiBatchSt S) (x : Nat → TiBatchSt S)
    (hrun : ∀ B, tiBatchRun c st B = .ok (x B))
    {ι : Type} [Fintype ι] (p : ι → ℝ) (s : ι → ℂ) (y : ι → NetCh S → ℂ)
    (hR : R = wcov p y y) (hsy : ∀ j, ∑ i, (p i : ℂ) * (y i j * star (s i)) = rho * a j)
    (B : Nat) (k k' : Fin K) (hk : k.val = (B + 1) % K) (hk' : k'.val = (B + 2) % K)
    {wbar : NetCh S → ℂ} (hw : updateW R N ⟨k, ref k⟩ = .ok wbar) :
    sqErr p (fun i => a ⟨k', ref k'⟩ * s i) y
        (tiNetFilter (tiP (x (B + 2)).exts) k' ((x (B + 3)).wT k')) / ‖a ⟨k', ref k'⟩‖ ^ 2 ≤
      sqErr p (fun i => a ⟨k, ref k⟩ * s i) y
        (tiNetFilter (tiP (x (B + 1)).exts) k ((x (B + 2)).wT k)) / ‖a ⟨k, ref k⟩‖ ^ 2 ∧
    sqErr p (fun i => a ⟨k, ref k⟩ * s i) y wbar ≤ sqErr p (fun i => a ⟨k, ref k⟩ * s i) y
        (tiNetFilter (tiP (x (B + 1)).exts) k ((x (B + 2)).wT k)) := by
  have hK' : 0 < K := by omega
  have f := ti_run_facts h ht hs hK st x hrun
  have hwb : wbar = star (a ⟨k, ref k⟩) • R⁻¹ *ᵥ (rho • a) := by
    rw [(updateW_ok hw).2, h.speech, speech_single, mulVec_smul]
  have e1 : turn hK' (B + 1) = k := Fin.ext hk.symm
  have e2 : turn hK' (B + 1 + 1) = k' := Fin.ext hk'.symm
  have hm := (f.converges (h.psd k) h.det).1 B
  rw [e1, e2] at hm
  have hq := sqErr_eq_qcost p s y (rho • a) (fun j => by rw [hsy]; rfl)
  rw [← hR] at hq
  constructor
  · rw [sqErr_smul _ _ _ _ (h.heard k), sqErr_smul _ _ _ _ (h.heard k'), hq, hq]
    exact (add_le_add_iff_left _).mpr hm
  · have hn : 0 < ‖a ⟨k, ref k⟩‖ ^ 2 := pow_pos (norm_pos_iff.mpr (h.heard k)) 2
    rw [← div_le_div_iff_of_pos_right hn, sqErr_smul _ _ _ _ (h.heard k),
      sqErr_smul _ _ _ _ (h.heard k), hq, hq]
    refine (add_le_add_iff_left _).mpr ?_
    rw [hwb, smul_smul, inv_mul_cancel₀ (star_ne_zero.mpr (h.heard k)), one_smul]
    have hinv : R *ᵥ (R⁻¹ *ᵥ (rho • a)) = rho • a := by
      rw [mulVec_mulVec, mul_nonsing_inv _ (Ne.isUnit h.det), one_mulVec]
    rw [qcost_sub R (h.psd k).isHermitian (rho • a) ((star (a ⟨k, ref k⟩))⁻¹ •
      tiNetFilter (tiP (x (B + 1)).exts) k ((x (B + 2)).wT k)) (R⁻¹ *ᵥ (rho • a))
      (by rw [hinv, sub_self, dotProduct_zero])]
    have := qform_nonneg (h.psd k) ((star (a ⟨k, ref k⟩))⁻¹ •
      tiNetFilter (tiP (x (B + 1)).exts) k ((x (B + 2)).wT k) - R⁻¹ *ᵥ (rho • a))
    linarith

/-- C60: "every updating run from a default initialisation is well defined" fails. The
default initial filter ('selectFirstSensor') has coefficient 0 for the in-network sum; with two or
more nodes the first batch update already divides by it. -/
theorem C60_refuted_default_init (c : TiBatchCfg S) (hK : 1 < K) (hs : c.seq = true ∨ c.sim = true)
    (st : TiBatchSt S) (h0 : ∀ q, st.exts q (.inr ()) = 0) (B : Nat) :
    tiBatchRun c st (B + 1) = .error .nan := by
  have hstep : ∀ up, tiBatchStep c up st = .error .nan := by
    intro up
    unfold tiBatchStep
    rw [foldlM_first_error _ (List.finRange K) _ .nan]
    · rfl
    · intro b k _
      have : tiBatchCov c st.exts k = .error .nan := by
        unfold tiBatchCov
        rw [if_pos]
        by_cases hk : k.val = 0
        · exact ⟨⟨1, hK⟩, fun e => by rw [← e] at hk; simp at hk, h0 _⟩
        · exact ⟨⟨0, by omega⟩, fun e => by rw [← e] at hk; simp at hk, h0 _⟩
      rw [this]; rfl
    · intro e
      have := congrArg List.length e
      rw [List.length_finRange] at this
      simp at this; omega
  induction B with
  | zero =>
    rw [tiBatchRun]
    change (if c.seq then _ else if c.sim then _ else _) = _
    by_cases h1 : c.seq = true
    · rw [if_pos h1, hstep]
    · rw [if_neg h1, if_pos (by tauto), hstep]
  | succ B ih => rw [tiBatchRun, ih]; rfl

end

/-- The network of `batchDemo`. -/
noncomputable def tiBatchDemo : TiBatchCfg (K := 2) (fun _ => Unit) where
  frames := batchDemo.frames
  vad := batchDemo.vad
  upd := fun _ Ry Rn => updateW Ry Rn (Sum.inl ())
  ext := fun _ => ⟨false, fun _ => 1, false, false, false, true, 0, 1, 0⟩
  seq := true
  sim := false

/-- All coefficients 1 ('selectFirstSensor_andFixedValue'). -/
noncomputable def tiBatchDemoSt : TiBatchSt (K := 2) (fun _ => Unit) where
  wT := fun _ _ => 1
  ext := fun _ => ⟨fun _ => 1, fun _ => 1, 0⟩
  i := fun _ => 0
  dhat := fun _ => []

theorem ti_demo_single : TiSingleSource tiBatchDemo (fun _ => ()) demoR 1 1 (fun _ => 1) where
  upd := fun _ => rfl
  cov := fun _ => demo_cov _ rfl
  speech := demo_single.speech
  det := demoR_det
  heard := fun _ => one_ne_zero

theorem ti_demo_tied : TiTiedCfg tiBatchDemo := fun _ => ⟨rfl, Or.inl rfl, Or.inr rfl⟩

/-- The run of this network never fails. -/
example : ∀ B, ∃ x, tiBatchRun tiBatchDemo tiBatchDemoSt B = .ok x := by
  suffices h : ∀ B, ∃ x, tiBatchRun tiBatchDemo tiBatchDemoSt B = .ok x ∧
      (∀ k b, x.exts k b ≠ 0) ∧ (∀ k b, x.wT k b ≠ 0) from
    fun B => let ⟨x, hx, _⟩ := h B; ⟨x, hx⟩
  intro B
  induction B with
  | zero => exact ⟨_, rfl, fun _ _ => one_ne_zero, fun _ _ => one_ne_zero⟩
  | succ B ih =>
    obtain ⟨x, hx, h0, h1⟩ := ih
    have hp : ∀ q s, tiP x.exts q s ≠ 0 := fun q s => div_ne_zero (h0 q _) (h0 q _)
    have hpd : demoR.PosDef := by
      rw [(ti_demo_single.psd 0).posDef_iff_det_ne_zero]
      exact demoR_det
    have hother : ∀ k : Fin 2, ∃ q, q ≠ k := by decide
    obtain ⟨x', hx'⟩ := tiBatchStep_total tiBatchDemo (fun k => k.val == B % 2) x
      (fun k => ((tiCompress (tiP x.exts) k)ᴴ * demoR * tiCompress (tiP x.exts) k,
        (tiCompress (tiP x.exts) k)ᴴ *
          (1 : Matrix (NetCh (K := 2) (fun _ => Unit)) (NetCh (K := 2) (fun _ => Unit)) ℂ) *
          tiCompress (tiP x.exts) k))
      (fun k => by
        rw [ti_demo_single.batchCov, if_neg (by rintro ⟨q, -, e⟩; exact h0 q _ e)])
      (fun k _ => by
        have : ((tiCompress (tiP x.exts) k)ᴴ * demoR * tiCompress (tiP x.exts) k).PosDef := by
          refine hpd.conjTranspose_mul_mul_same fun u v huv => ?_
          rw [tiCompress_mulVec, tiCompress_mulVec] at huv
          obtain ⟨q, hq⟩ := hother k
          exact tiCompress_injective _ k ⟨q, hq, fun e => hp q () (by rw [e]; rfl)⟩ huv
        exact ⟨_, updateW_of_det this.det_pos.ne'⟩)
    have hrun : tiBatchRun tiBatchDemo tiBatchDemoSt (B + 1) = .ok x' := by
      rw [tiBatchRun, hx]
      exact hx'
    have hwt : ∀ k b, x'.wT k b ≠ 0 := by
      intro k
      by_cases hk : k.val = B % 2
      · have hu := (ti_demo_single.step hx' k).2.1 (by simpa using hk)
        have hn := ti_demo_single.normal _ k hu
        have hz : demoR *ᵥ tiNorm (fun _ => ()) (fun _ => 1) (tiP x.exts) k (x'.wT k) -
            (1 : ℂ) • (fun _ => 1) = 0 := by
          rw [tiCompress_mul] at hn
          funext ⟨q, s⟩
          by_cases hq : q = k
          · subst hq
            exact congrFun hn (.inl s)
          · have := congrFun hn (.inr ())
            simp only [tiY, Pi.zero_apply] at this
            rw [Finset.sum_eq_single ⟨q, hq⟩ (by
              rintro ⟨r, hr⟩ _ hne
              exfalso
              apply hne
              apply Subtype.ext
              change r = q
              omega) (by simp)] at this
            simp only [Fintype.sum_unique] at this
            exact (mul_eq_zero.mp this).resolve_left (star_ne_zero.mpr (hp q default))
        have hW : tiNetFilter (tiP x.exts) k (x'.wT k) = fun _ => 1 / 3 := by
          have hc := demo_centr k
          obtain ⟨-, hc⟩ := updateW_ok hc
          rw [demo_single.speech, speech_single, star_one, one_smul] at hc
          rw [hc]
          rw [sub_eq_zero] at hz
          rw [← hz, mulVec_mulVec, nonsing_inv_mul _ (Ne.isUnit demoR_det), one_mulVec, tiNorm,
            star_one, inv_one, one_smul]
        intro b
        cases b with
        | inl s =>
          have := congrFun hW ⟨k, s⟩
          simp only [tiNetFilter, dite_true] at this
          rw [this]; norm_num
        | inr u =>
          obtain ⟨q, hq⟩ := hother k
          have := congrFun hW ⟨q, ()⟩
          simp only [tiNetFilter, dif_neg hq] at this
          intro e
          rw [e, zero_mul] at this
          norm_num at this
      · rw [(ti_demo_single.step hx' k).2.2.1 (by simpa using hk)]
        exact h1 k
    refine ⟨x', hrun, fun k b => ?_, hwt⟩
    have := (ti_demo_single.step hx' k).2.2.2.1
    rw [TiBatchSt.exts, this, tiExtStep_tied ti_demo_tied]
    exact hwt k b

end Danse
