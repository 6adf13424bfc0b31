import Verif.Proofs.Batch4

/-!
# Properties C31, C58, C59: batch DANSE

`netFilter ext k w` is the filter on ALL sensors of the network that the internal filter `w` of node
`k` amounts to, the other nodes fusing with `ext`.
-/

set_option linter.unusedSectionVars false

namespace Danse
open Matrix
open scoped ComplexOrder

section
variable {K : Nat} {S : Fin K → Type} [∀ k, Fintype (S k)] [∀ k, DecidableEq (S k)]

/-! ## C31 -/

/-- C31: the (B+1)-th sequential batch update follows B updates; node `B mod K` gets a new filter,
computed from the covariance matrices of its observations under the broadcast filters before
this update, every other node keeps its filter. The output of every node is its filter applied to the
observations made with the same broadcast filters. -/
theorem C31_round_robin (c : BatchCfg S) (hs : c.nodeUpdating = "seq") {st st2 : BatchSt S} {B : Nat}
    (h : batchRun c st (B + 1) = .ok st2) :
    ∃ st1, batchRun c st B = .ok st1 ∧ ∀ k : Fin K,
      (k.val ≠ B % K → st2.wT k = st1.wT k) ∧
      (k.val = B % K → ∃ Ry Rn,
        covBatch (F := Unit) (c.frames.map fun y _ => yTildeB (fun q => (st1.ext q).ext) k y)
          (c.vad k) = .ok (Ry, Rn) ∧ c.upd k (Ry ()) (Rn ()) = .ok (st2.wT k)) ∧
      st2.dhat k = c.frames.dropLast.map fun y =>
        star (st2.wT k) ⬝ᵥ yTildeB (fun q => (st1.ext q).ext) k y := by
  obtain ⟨st1, h1⟩ := batchRun_prev c h
  obtain ⟨covs, hc, hk⟩ := batchStep_ok c _ (batchRun_succ c hs h1 h)
  refine ⟨st1, h1, fun k => ⟨fun hne => ?_, fun he => ?_, (hk k).2.2.2⟩⟩
  · have := (hk k).1
    rw [batchFilter, if_neg (by simpa using hne)] at this
    exact (Except.ok.inj this).symm
  · have h2 := (hk k).1
    rw [batchFilter, if_pos (by simpa using he)] at h2
    have h3 := hc k
    unfold batchCov at h3
    cases hb : covBatch (F := Unit)
        (c.frames.map fun y _ => yTildeB (fun q => (st1.ext q).ext) k y) (c.vad k) with
    | error e => rw [hb] at h3; cases h3
    | ok r =>
      rw [hb] at h3
      have h4 := Except.ok.inj h3
      exact ⟨r.1, r.2, rfl, by rw [← h4] at h2; exact h2⟩

/-- C31: with simultaneous or asynchronous updating every node gets a new filter at every batch
update, all computed from the broadcast filters before it. -/
theorem C31_simultaneous (c : BatchCfg S) (hs : c.nodeUpdating = "sim" ∨ c.nodeUpdating = "asy")
    {st st2 : BatchSt S} {B : Nat} (h : batchRun c st (B + 1) = .ok st2) :
    ∃ st1, batchRun c st B = .ok st1 ∧ ∀ k : Fin K, ∃ Ry Rn,
        covBatch (F := Unit) (c.frames.map fun y _ => yTildeB (fun q => (st1.ext q).ext) k y)
          (c.vad k) = .ok (Ry, Rn) ∧ c.upd k (Ry ()) (Rn ()) = .ok (st2.wT k) := by
  obtain ⟨st1, h1⟩ := batchRun_prev c h
  have hns : c.nodeUpdating ≠ "seq" := by rcases hs with e | e <;> rw [e] <;> decide
  rw [batchRun, h1] at h
  change (if c.nodeUpdating = "seq" then _ else if c.nodeUpdating = "sim" ∨ c.nodeUpdating = "asy"
    then _ else _) = _ at h
  rw [if_neg hns, if_pos hs] at h
  obtain ⟨covs, hc, hk⟩ := batchStep_ok c _ h
  refine ⟨st1, h1, fun k => ?_⟩
  have h2 := (hk k).1
  rw [batchFilter, if_pos rfl] at h2
  have h3 := hc k
  unfold batchCov at h3
  cases hb : covBatch (F := Unit)
      (c.frames.map fun y _ => yTildeB (fun q => (st1.ext q).ext) k y) (c.vad k) with
  | error e => rw [hb] at h3; cases h3
  | ok r =>
    rw [hb] at h3
    have h4 := Except.ok.inj h3
    exact ⟨r.1, r.2, rfl, by rw [← h4] at h2; exact h2⟩

/-- C31: every node's iteration counter counts the batch updates. -/
theorem C31_counters (c : BatchCfg S)
    (hs : c.nodeUpdating = "seq" ∨ c.nodeUpdating = "sim" ∨ c.nodeUpdating = "asy")
    {st st' : BatchSt S} {B : Nat} (h : batchRun c st B = .ok st') (k : Fin K) :
    st'.i k = st.i k + B := by
  induction B generalizing st' with
  | zero => have := Except.ok.inj h; subst this; rfl
  | succ B ih =>
    obtain ⟨st1, h1⟩ := batchRun_prev c h
    have hstep : ∃ up, batchStep c up st1 = .ok st' := by
      rw [batchRun, h1] at h
      change (if c.nodeUpdating = "seq" then _ else if c.nodeUpdating = "sim" ∨
        c.nodeUpdating = "asy" then _ else _) = _ at h
      by_cases hq : c.nodeUpdating = "seq"
      · rw [if_pos hq] at h; exact ⟨_, h⟩
      · rw [if_neg hq, if_pos (by tauto)] at h; exact ⟨_, h⟩
    obtain ⟨up, hup⟩ := hstep
    obtain ⟨covs, -, hk⟩ := batchStep_ok c up hup
    rw [(hk k).2.2.1, ih h1]
    omega

/-- C31: over `m * K + r` sequential updates (`r < K`), nodes before `r` have had `m + 1` turns and
the others `m`. -/
theorem C31_turns (m r : Nat) (hr : r < K) (k : Fin K) :
    ((List.range (m * K + r)).countP fun B => k.val == B % K) = if k.val < r then m + 1 else m := by
  have hmod : ∀ m' j, j < K → (m' * K + j) % K = j := fun m' j hj => by
    rw [Nat.add_comm, Nat.add_mul_mod_self_right, Nat.mod_eq_of_lt hj]
  have hfull : ∀ m' r', r' ≤ K →
      ((List.range (m' * K + r')).countP fun B => k.val == B % K) =
      ((List.range (m' * K)).countP fun B => k.val == B % K) + if k.val < r' then 1 else 0 := by
    intro m' r'
    induction r' with
    | zero => intro _; simp
    | succ r' ih =>
      intro h
      rw [← Nat.add_assoc, List.range_succ, List.countP_append, ih (by omega)]
      rw [List.countP_singleton, hmod m' r' (by omega)]
      by_cases h1 : k.val = r'
      · simp [h1]
      · rw [if_neg (by simpa using h1 : ¬ ((k.val == r') = true))]
        by_cases h2 : k.val < r'
        · rw [if_pos h2, if_pos (by omega)]
        · rw [if_neg h2, if_neg (by omega)]
  have hm : ((List.range (m * K)).countP fun B => k.val == B % K) = m := by
    induction m with
    | zero => simp
    | succ m ih =>
      rw [Nat.succ_mul, hfull m K le_rfl, ih, if_pos k.isLt]
  rw [hfull m r hr.le, hm]
  split <;> rfl

/-- C31: what a node broadcasts after a sequential update is the own-sensor part of its filter. -/
theorem C31_broadcast (c : BatchCfg S) (ht : TiedCfg c)
    (hs : c.nodeUpdating = "seq" ∨ c.nodeUpdating = "sim" ∨ c.nodeUpdating = "asy")
    {st st' : BatchSt S} {B : Nat} (h : batchRun c st (B + 1) = .ok st') (k : Fin K) :
    (st'.ext k).ext = fun s => st'.wT k (.inl s) := by
  obtain ⟨st1, h1⟩ := batchRun_prev c h
  have hstep : ∃ up, batchStep c up st1 = .ok st' := by
    rw [batchRun, h1] at h
    change (if c.nodeUpdating = "seq" then _ else if c.nodeUpdating = "sim" ∨
      c.nodeUpdating = "asy" then _ else _) = _ at h
    by_cases hq : c.nodeUpdating = "seq"
    · rw [if_pos hq] at h; exact ⟨_, h⟩
    · rw [if_neg hq, if_pos (by tauto)] at h; exact ⟨_, h⟩
  obtain ⟨up, hup⟩ := hstep
  obtain ⟨covs, -, hk⟩ := batchStep_ok c up hup
  rw [(hk k).2.1, extStep_tied ht]

/-- C31: any other updating type makes no update at all. -/
theorem C31_unknown_type (c : BatchCfg S) (h1 : c.nodeUpdating ≠ "seq") (h2 : c.nodeUpdating ≠ "sim")
    (h3 : c.nodeUpdating ≠ "asy") (st : BatchSt S) (B : Nat) : batchRun c st B = .ok st := by
  induction B with
  | zero => rfl
  | succ B ih =>
    rw [batchRun, ih]
    change (if c.nodeUpdating = "seq" then _ else if c.nodeUpdating = "sim" ∨
      c.nodeUpdating = "asy" then _ else _) = _
    rw [if_neg h1, if_neg (by tauto)]

/-- C32: the VAD of the centralised covariances has one decision per frame, active iff any node is
active in that frame. -/
theorem C32_centralised_vad (vads : Fin K → List Bool) (k0 : Fin K) (hk : k0.val = 0)
    (hl : ∀ k, (vads k).length = (vads k0).length) :
    (centrVad vads).length = (vads k0).length ∧
    ∀ (j : Nat) (hj : j < (centrVad vads).length),
      ((centrVad vads)[j] = true ↔ ∃ (k : Fin K) (h : j < (vads k).length), (vads k)[j] = true) := by
  have hK : 0 < K := Fin.pos k0
  have h0 : (⟨0, hK⟩ : Fin K) = k0 := Fin.ext hk.symm
  have hlen : (centrVad vads).length = (vads k0).length := by
    unfold centrVad
    rw [dif_pos hK, List.length_map, List.length_range, h0]
  refine ⟨hlen, fun j hj => ?_⟩
  have hc : (centrVad vads)[j] = (List.finRange K).any fun k => (vads k)[j]?.getD false := by
    simp only [centrVad, dif_pos hK, List.getElem_map, List.getElem_range]
  rw [hc, List.any_eq_true]
  rw [hlen] at hj
  constructor
  · rintro ⟨k, -, h⟩
    have hjk : j < (vads k).length := by rw [hl k]; exact hj
    rw [List.getElem?_eq_getElem hjk] at h
    exact ⟨k, hjk, h⟩
  · rintro ⟨k, hjk, h⟩
    refine ⟨k, List.mem_finRange k, ?_⟩
    rw [List.getElem?_eq_getElem hjk]
    exact h

example : centrVad (K := 2) ![[true, false, false], [false, false, true]] = [true, false, true] := by
  decide

/-! ## C58 -/

variable {c : BatchCfg S} {ref : ∀ k, S k} {R N : Matrix (NetCh S) (NetCh S) ℂ} {rho : ℂ}
  {a : NetCh S → ℂ}

/-- C58: the centralised filter of node `k` is the one computed by `batchCentr`; it is the
plain filter from `R`, `N`. -/
theorem C58_centralised (h : SingleSource c ref R N rho a) (k : Fin K) :
    ∃ w, batchCentr c (fun Ry Rn => updateW Ry Rn ⟨k, ref k⟩) =
        .ok (w, c.frames.dropLast.map fun y => star w ⬝ᵥ y) ∧
      updateW R N ⟨k, ref k⟩ = .ok w := by
  have := updateW_of_det (Rnn := N) (ref := (⟨k, ref k⟩ : NetCh S)) h.det
  refine ⟨_, ?_, this⟩
  unfold batchCentr
  rw [h.covCentr]
  change (updateW R N ⟨k, ref k⟩ >>= fun w => _) = _
  rw [this]
  rfl

/-- C58: when every other node broadcasts its part of its centralised filter, an update of any
node gives exactly its centralised filter. -/
theorem C58_update (h : SingleSource c ref R N rho a) {wbar : ∀ _ : Fin K, NetCh S → ℂ}
    (hw : ∀ k, updateW R N ⟨k, ref k⟩ = .ok (wbar k)) (k : Fin K) {w : ObsCh S k → ℂ}
    {Ry Rn : Matrix (ObsCh S k) (ObsCh S k) ℂ}
    (hc : batchCov c (fun q s => wbar q ⟨q, s⟩) k = .ok (Ry, Rn))
    (hu : c.upd k Ry Rn = .ok w) :
    netFilter (fun q s => wbar q ⟨q, s⟩) k w = wbar k := by
  rw [h.batchCov] at hc
  have := Except.ok.inj hc
  rw [Prod.mk.injEq] at this
  rw [← this.1, ← this.2] at hu
  exact h.update_opt hw k hu

/-- C58: the centralised filters are a fixed point. Once every node uses its centralised filter and
broadcasts its part of it, this stays so for any number of batch updates, whatever the updating
type and the relaxation settings, and all outputs equal the centralised outputs. -/
theorem C58_stays (h : SingleSource c ref R N rho a) {wbar : ∀ _ : Fin K, NetCh S → ℂ}
    (hw : ∀ k, updateW R N ⟨k, ref k⟩ = .ok (wbar k)) (ho : ∀ k, (c.ext k).onlyRef = false)
    {st st' : BatchSt S} (hopt : AtOptimum wbar st) {B : Nat} (hrun : batchRun c st B = .ok st') :
    AtOptimum wbar st' ∧
    (0 < B → c.nodeUpdating = "seq" ∨ c.nodeUpdating = "sim" ∨ c.nodeUpdating = "asy" →
      ∀ k, st'.dhat k = c.frames.dropLast.map fun y => star (wbar k) ⬝ᵥ y) := by
  induction B generalizing st' with
  | zero =>
    have := Except.ok.inj hrun; subst this
    exact ⟨hopt, fun h => absurd h (lt_irrefl 0)⟩
  | succ B ih =>
    obtain ⟨st1, h1⟩ := batchRun_prev c hrun
    obtain ⟨i1, -⟩ := ih h1
    rw [batchRun, h1] at hrun
    change (if c.nodeUpdating = "seq" then _ else if c.nodeUpdating = "sim" ∨
      c.nodeUpdating = "asy" then _ else _) = _ at hrun
    by_cases hq : c.nodeUpdating = "seq"
    · rw [if_pos hq] at hrun
      exact ⟨(h.step_opt hw ho hrun i1).1, fun _ _ => (h.step_opt hw ho hrun i1).2⟩
    · rw [if_neg hq] at hrun
      by_cases hq2 : c.nodeUpdating = "sim" ∨ c.nodeUpdating = "asy"
      · rw [if_pos hq2] at hrun
        exact ⟨(h.step_opt hw ho hrun i1).1, fun _ _ => (h.step_opt hw ho hrun i1).2⟩
      · rw [if_neg hq2] at hrun
        have := Except.ok.inj hrun; subst this
        exact ⟨i1, fun _ hh => by tauto⟩

/-- C58: and no update fails there, if every node contributes to its centralised filter. -/
theorem C58_never_fails (h : SingleSource c ref R N rho a) {wbar : ∀ _ : Fin K, NetCh S → ℂ}
    (hw : ∀ k, updateW R N ⟨k, ref k⟩ = .ok (wbar k)) (ho : ∀ k, (c.ext k).onlyRef = false)
    (hz : ∀ k, ∃ s, wbar k ⟨k, s⟩ ≠ 0)
    {st : BatchSt S} (hopt : AtOptimum wbar st) (B : Nat) :
    ∃ st', batchRun c st B = .ok st' := by
  induction B with
  | zero => exact ⟨st, rfl⟩
  | succ B ih =>
    obtain ⟨st1, h1⟩ := ih
    have hopt1 := (C58_stays h hw ho hopt h1).1
    have hne : ∀ q, (st1.ext q).ext ≠ 0 := by
      intro q
      rw [(hopt1 q).1]
      obtain ⟨s, hs⟩ := hz q
      exact Function.ne_iff.mpr ⟨s, hs⟩
    rw [batchRun, h1]
    change ∃ st', (if c.nodeUpdating = "seq" then _ else if c.nodeUpdating = "sim" ∨
      c.nodeUpdating = "asy" then _ else _) = _
    split
    · exact h.step_total _ st1 hne
    · split
      · exact h.step_total _ st1 hne
      · exact ⟨_, rfl⟩

/-! ## C59 -/

/-- C59: sequential batch DANSE converges to the centralised filters. For any initial state, if
every update succeeds, the network-wide filter of every node, at its updates, converges to its
centralised filter. -/
theorem C59_converges (h : SingleSource c ref R N rho a) (ht : TiedCfg c)
    (hs : c.nodeUpdating = "seq") (st : BatchSt S) (x : Nat → BatchSt S)
    (hrun : ∀ B, batchRun c st B = .ok (x B)) (k : Fin K) {wbar : NetCh S → ℂ}
    (hw : updateW R N ⟨k, ref k⟩ = .ok wbar) :
    Filter.Tendsto (fun m => netFilter (fun q => ((x (m * K + k.val)).ext q).ext) k
      ((x (m * K + k.val + 1)).wT k)) Filter.atTop (nhds wbar) := by
  have hK : 0 < K := Fin.pos k
  rw [h.centr hw]
  exact (run_facts h ht hs hK st x hrun).at_turns (h.psd k) h.det h.heard k

/-- C59: if moreover every node contributes to the centralised filters, then at all batch updates
the output of every node is the output of a filter on the whole network that converges to the
centralised filter. -/
theorem C59_outputs (h : SingleSource c ref R N rho a) (ht : TiedCfg c)
    (hs : c.nodeUpdating = "seq") (st : BatchSt S) (x : Nat → BatchSt S)
    (hrun : ∀ B, batchRun c st B = .ok (x B)) {wbar : ∀ _ : Fin K, NetCh S → ℂ}
    (hw : ∀ k, updateW R N ⟨k, ref k⟩ = .ok (wbar k)) (hz : ∀ k, ∃ s, wbar k ⟨k, s⟩ ≠ 0)
    (k : Fin K) :
    ∃ W : Nat → NetCh S → ℂ,
      (∀ B, (x (B + 1)).dhat k = c.frames.dropLast.map fun y => star (W B) ⬝ᵥ y) ∧
      Filter.Tendsto W Filter.atTop (nhds (wbar k)) := by
  have hK : 0 < K := Fin.pos k
  have f := run_facts h ht hs hK st x hrun
  refine ⟨_, fun B => f.dhat B k, ?_⟩
  rw [h.centr (hw k)]
  refine f.all_tendsto (h.psd k) h.det h.heard (fun q => ?_) k
  obtain ⟨s, hs⟩ := hz q
  refine ⟨s, fun e => hs ?_⟩
  rw [h.centr (hw q), Pi.smul_apply, e, smul_zero]

/-- C59: the error never grows. Let the observations be samples `y_i` with weights `p_i`, exact
statistics, and let `s_i` be the source signal, `a g s` the speech component at sensor `g`. From the
second update on, the mean squared error of the updating node in estimating the speech at its
reference sensor, relative to the speech level there, is at most that of the node updated just before,
and it is never below the error of the centralised filter. -/
theorem C59_error_decreases (h : SingleSource c ref R N rho a) (ht : TiedCfg c)
    (hs : c.nodeUpdating = "seq") (st : BatchSt S) (x : Nat → BatchSt S)
    (hrun : ∀ B, batchRun c st B = .ok (x B))
    {ι : Type} [Fintype ι] (p : ι → ℝ) (s : ι → ℂ) (y : ι → NetCh S → ℂ)
    (hR : R = wcov p y y) (hsy : ∀ j, ∑ i, (p i : ℂ) * (y i j * star (s i)) = rho * a j)
    (B : Nat) (k k' : Fin K) (hk : k.val = (B + 1) % K) (hk' : k'.val = (B + 2) % K)
    {wbar : NetCh S → ℂ} (hw : updateW R N ⟨k, ref k⟩ = .ok wbar) :
    sqErr p (fun i => a ⟨k', ref k'⟩ * s i) y
        (netFilter (fun q => ((x (B + 2)).ext q).ext) k' ((x (B + 3)).wT k')) / ‖a ⟨k', ref k'⟩‖ ^ 2 ≤
      sqErr p (fun i => a ⟨k, ref k⟩ * s i) y
        (netFilter (fun q => ((x (B + 1)).ext q).ext) k ((x (B + 2)).wT k)) / ‖a ⟨k, ref k⟩‖ ^ 2 ∧
    sqErr p (fun i => a ⟨k, ref k⟩ * s i) y wbar ≤ sqErr p (fun i => a ⟨k, ref k⟩ * s i) y
        (netFilter (fun q => ((x (B + 1)).ext q).ext) k ((x (B + 2)).wT k)) := by
  have hK : 0 < K := Fin.pos k
  have f := run_facts h ht hs hK st x hrun
  have e1 : turn hK (B + 1) = k := Fin.ext hk.symm
  have e2 : turn hK (B + 1 + 1) = k' := Fin.ext hk'.symm
  have hm := (f.converges (h.psd k) h.det).1 B
  rw [e1, e2] at hm
  have hq := sqErr_eq_qcost p s y (rho • a) (fun j => by rw [hsy]; rfl)
  rw [← hR] at hq
  constructor
  · rw [sqErr_smul _ _ _ _ (h.heard k), sqErr_smul _ _ _ _ (h.heard k'), hq, hq]
    exact (add_le_add_iff_left _).mpr hm
  · have hn : 0 < ‖a ⟨k, ref k⟩‖ ^ 2 := pow_pos (norm_pos_iff.mpr (h.heard k)) 2
    rw [← div_le_div_iff_of_pos_right hn, sqErr_smul _ _ _ _ (h.heard k),
      sqErr_smul _ _ _ _ (h.heard k), hq, hq]
    refine (add_le_add_iff_left _).mpr ?_
    rw [h.centr hw, smul_smul, inv_mul_cancel₀ (star_ne_zero.mpr (h.heard k)), one_smul]
    have hinv : R *ᵥ (R⁻¹ *ᵥ (rho • a)) = rho • a := by
      rw [mulVec_mulVec, mul_nonsing_inv _ (Ne.isUnit h.det), one_mulVec]
    rw [qcost_sub R (h.psd k).isHermitian (rho • a) ((star (a ⟨k, ref k⟩))⁻¹ •
      netFilter (fun q => ((x (B + 1)).ext q).ext) k ((x (B + 2)).wT k)) (R⁻¹ *ᵥ (rho • a))
      (by rw [hinv, sub_self, dotProduct_zero])]
    have := qform_nonneg (h.psd k) ((star (a ⟨k, ref k⟩))⁻¹ •
      netFilter (fun q => ((x (B + 1)).ext q).ext) k ((x (B + 2)).wT k) - R⁻¹ *ᵥ (rho • a))
    linarith

/-- C59: networks of single-sensor nodes. From any initial state with non-zero filters no update
ever fails, and every update gives the centralised filter at once. -/
theorem C59_single_sensor [∀ k, Unique (S k)] (h : SingleSource c ref R N rho a) (ht : TiedCfg c)
    (hs : c.nodeUpdating = "seq") {wbar : ∀ _ : Fin K, NetCh S → ℂ}
    (hw : ∀ k, updateW R N ⟨k, ref k⟩ = .ok (wbar k)) (hz : ∀ k s, wbar k ⟨k, s⟩ ≠ 0)
    {st : BatchSt S} (h0 : ∀ k s, (st.ext k).ext s ≠ 0) (h1 : ∀ k s, st.wT k (.inl s) ≠ 0) (B : Nat) :
    ∃ x, batchRun c st B = .ok x ∧ (∀ k s, (x.ext k).ext s ≠ 0) ∧ (∀ k s, x.wT k (.inl s) ≠ 0) ∧
      ∃ x', batchRun c st (B + 1) = .ok x' ∧
        ∀ k, k.val = B % K → netFilter (fun q => (x.ext q).ext) k (x'.wT k) = wbar k := by
  have key : ∀ (B : Nat) (x : BatchSt S), batchRun c st B = .ok x → (∀ k s, (x.ext k).ext s ≠ 0) →
      (∀ k s, x.wT k (.inl s) ≠ 0) → ∃ x', batchRun c st (B + 1) = .ok x' ∧
      (∀ k s, (x'.ext k).ext s ≠ 0) ∧ (∀ k s, x'.wT k (.inl s) ≠ 0) ∧
      ∀ k, k.val = B % K → netFilter (fun q => (x.ext q).ext) k (x'.wT k) = wbar k := by
    intro B x hx hx0 hx1
    obtain ⟨x', hx'⟩ := h.step_total (fun k => k.val == B % K) x fun q e =>
      hx0 q default (by rw [e]; rfl)
    have hrun : batchRun c st (B + 1) = .ok x' := by
      rw [batchRun, hx]
      change (if c.nodeUpdating = "seq" then _ else _) = _
      rw [if_pos hs]; exact hx'
    have hup : ∀ k, k.val = B % K →
        netFilter (fun q => (x.ext q).ext) k (x'.wT k) = wbar k := by
      intro k hk
      have hu := (h.step hx' k).1 (by simpa using hk)
      have hn := (h.normal _ k hu).1
      have hzero : R *ᵥ netFilter (fun q => (x.ext q).ext) k (x'.wT k) -
          star (a ⟨k, ref k⟩) • (rho • a) = 0 := by
        rw [compress_mul] at hn
        funext ⟨p, s⟩
        by_cases hp : p = k
        · subst hp
          exact congrFun hn (.inl s)
        · have := congrFun hn (.inr ⟨p, hp⟩)
          simp only [yTildeB, Fintype.sum_unique, Pi.zero_apply] at this
          rw [Unique.eq_default s]
          exact (mul_eq_zero.mp this).resolve_left (star_ne_zero.mpr (hx0 p default))
      rw [sub_eq_zero] at hzero
      rw [h.centr (hw k), ← mulVec_smul, ← hzero, mulVec_mulVec,
        nonsing_inv_mul _ (Ne.isUnit h.det), one_mulVec]
    have hwt : ∀ k s, x'.wT k (.inl s) ≠ 0 := by
      intro k s
      by_cases hk : k.val = B % K
      · rw [← netFilter_own (fun q => (x.ext q).ext) k (x'.wT k), hup k hk]
        exact hz k s
      · rw [(h.step hx' k).2.1 (by simpa using hk)]
        exact hx1 k s
    refine ⟨x', hrun, fun k s => ?_, hwt, hup⟩
    rw [C31_broadcast c ht (Or.inl hs) hrun k]
    exact hwt k s
  have main : ∃ x, batchRun c st B = .ok x ∧ (∀ k s, (x.ext k).ext s ≠ 0) ∧
      (∀ k s, x.wT k (.inl s) ≠ 0) := by
    induction B with
    | zero => exact ⟨st, rfl, h0, h1⟩
    | succ B ih =>
      obtain ⟨x, hx, hx0, hx1⟩ := ih
      obtain ⟨x', e1, e2, e3, -⟩ := key B x hx hx0 hx1
      exact ⟨x', e1, e2, e3⟩
  obtain ⟨x, hx, hx0, hx1⟩ := main
  obtain ⟨x', hx', -, -, hup⟩ := key B x hx hx0 hx1
  exact ⟨x, hx, hx0, hx1, x', hx', hup⟩

end
/-! ### A concrete network

Two nodes with one sensor each; four frames with speech, two without. -/

/-- The frame with values `u` and `v` at the two nodes. -/
def demoFrame (u v : ℂ) : NetCh (K := 2) (fun _ => Unit) → ℂ := fun j => if j.1 = 0 then u else v

noncomputable def batchDemo : BatchCfg (K := 2) (fun _ => Unit) where
  frames := [demoFrame 2 2, demoFrame 2 0, demoFrame 0 2, demoFrame 0 0, demoFrame 1 1,
    demoFrame 1 (-1)]
  vad := fun _ => [true, true, true, true, false, false]
  upd := fun _ Ry Rn => updateW Ry Rn (Sum.inl ())
  ext := fun _ => ⟨false, fun _ => 1, false, false, false, true, 0, 1, 0⟩
  nodeUpdating := "seq"

/-- Initially each node selects its sensor. -/
noncomputable def batchDemoSt : BatchSt (K := 2) (fun _ => Unit) where
  wT := fun _ b => match b with
    | .inl _ => 1
    | .inr _ => 0
  ext := fun _ => ⟨fun _ => 1, fun _ => 1, 0⟩
  i := fun _ => 0
  dhat := fun _ => []

noncomputable def demoR : Matrix (NetCh (K := 2) (fun _ => Unit)) (NetCh (K := 2) (fun _ => Unit)) ℂ :=
  Matrix.of fun i j => if i.1 = j.1 then 2 else 1

noncomputable def demoRinv :
    Matrix (NetCh (K := 2) (fun _ => Unit)) (NetCh (K := 2) (fun _ => Unit)) ℂ :=
  Matrix.of fun i j => if i.1 = j.1 then 2 / 3 else -1 / 3

theorem demoR_mul : demoR * demoRinv = 1 := by
  ext ⟨i, u⟩ ⟨j, v⟩
  rw [mul_apply, Fintype.sum_sigma, Fin.sum_univ_two]
  fin_cases i <;> fin_cases j <;> simp [demoR, demoRinv] <;> norm_num

theorem demoR_det : demoR.det ≠ 0 := by
  intro e
  have := congrArg det demoR_mul
  rw [det_mul, e, zero_mul, det_one] at this
  exact zero_ne_one this

theorem demo_cov (v : List Bool) (hv : v = [true, true, true, true, false, false]) :
    covBatch (F := Unit) (batchDemo.frames.map fun y _ => y) v =
      .ok (fun _ => demoR, fun _ => 1) := by
  subst hv
  unfold covBatch
  simp only [batchDemo, List.map_cons, List.map_nil, List.length_cons, List.length_nil]
  simp
  have h2 : (starRingEnd ℂ) 2 = 2 := Complex.conj_ofNat 2
  constructor
  · funext u
    ext ⟨i, _⟩ ⟨j, _⟩
    fin_cases i <;> fin_cases j <;> simp [demoR, demoFrame, h2] <;> norm_num
  · funext u
    ext ⟨i, _⟩ ⟨j, _⟩
    fin_cases i <;> fin_cases j <;> simp [demoFrame] <;> norm_num

/-- The hypotheses of C58 and C59 hold for this network. -/
theorem demo_single : SingleSource batchDemo (fun _ => ()) demoR 1 1 (fun _ => 1) where
  upd := fun _ => rfl
  cov := fun _ => demo_cov _ rfl
  covCentr := demo_cov _ (by decide)
  speech := by
    ext ⟨i, u⟩ ⟨j, v⟩
    fin_cases i <;> fin_cases j <;> simp [demoR, vecMulVec_apply] <;> norm_num
  det := demoR_det
  heard := fun _ => one_ne_zero

/-- The centralised filters are (1/3, 1/3). -/
theorem demo_centr (k : Fin 2) :
    updateW demoR 1 (⟨k, ()⟩ : NetCh (K := 2) (fun _ => Unit)) = .ok fun _ => 1 / 3 := by
  rw [updateW_of_det demoR_det, demo_single.speech, speech_single]
  congr 1
  have : (fun _ => 1 / 3 : NetCh (K := 2) (fun _ => Unit) → ℂ) = demoRinv *ᵥ fun _ => 1 := by
    funext ⟨i, u⟩
    rw [mulVec, dotProduct, Fintype.sum_sigma, Fin.sum_univ_two]
    fin_cases i <;> simp [demoRinv] <;> norm_num
  have hinv : demoR⁻¹ = demoRinv := inv_eq_right_inv demoR_mul
  rw [this, hinv, star_one, one_smul, one_smul]

theorem demo_tied : TiedCfg batchDemo := fun _ => ⟨rfl, Or.inl rfl, Or.inr rfl⟩

/-- The run never fails, and it does not start at the optimum. -/
example : (∀ B, ∃ x, batchRun batchDemo batchDemoSt B = .ok x) ∧
    ¬ AtOptimum (fun _ _ => 1 / 3) batchDemoSt := by
  refine ⟨fun B => ?_, fun h => ?_⟩
  · obtain ⟨x, hx, -⟩ := C59_single_sensor demo_single demo_tied rfl demo_centr
      (fun _ _ => by norm_num) (st := batchDemoSt) (fun _ _ => one_ne_zero) (fun _ _ => one_ne_zero) B
    exact ⟨x, hx⟩
  · have := congrFun (h 0).1 ()
    norm_num [batchDemoSt] at this

/-- A state at the optimum. -/
example : ∃ st, AtOptimum (K := 2) (S := fun _ => Unit) (fun _ _ => 1 / 3) st := by
  refine ⟨⟨fun _ b => match b with
    | .inl _ => 1 / 3
    | .inr _ => 1, fun _ => ⟨fun _ => 1 / 3, fun _ => 1 / 3, 0⟩, fun _ => 0, fun _ => []⟩,
    fun k => ⟨rfl, rfl, ?_⟩⟩
  funext j
  by_cases hj : j.1 = k <;> simp [netFilter, hj]

/-- Samples with exactly these statistics: C59_error_decreases applies. -/
example : ∃ (p : Fin 4 → ℝ) (s : Fin 4 → ℂ) (y : Fin 4 → NetCh (K := 2) (fun _ => Unit) → ℂ),
    demoR = wcov p y y ∧ ∀ j, ∑ i, (p i : ℂ) * (y i j * star (s i)) = 1 * 1 := by
  refine ⟨fun _ => 1 / 4, ![1, 1, 1, 1], ![demoFrame 2 2, demoFrame 2 0, demoFrame 0 2,
    demoFrame 0 0], ?_, ?_⟩
  · ext ⟨i, u⟩ ⟨j, v⟩
    have h2 : (starRingEnd ℂ) 2 = 2 := Complex.conj_ofNat 2
    rw [wcov_apply, Fin.sum_univ_four]
    fin_cases i <;> fin_cases j <;> simp [demoR, demoFrame, h2] <;> norm_num
  · rintro ⟨j, u⟩
    rw [Fin.sum_univ_four]
    fin_cases j <;> simp [demoFrame] <;> norm_num

end Danse
