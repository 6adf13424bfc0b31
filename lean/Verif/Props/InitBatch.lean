import Verif.Model.InitBatch
import Verif.Proofs.BatchTI
import Verif.Proofs.Config
import Verif.Props.Batch

/-!
# C107: initial covariance matrices from batch estimates

Refuted: `init_covmats_from_batch` raises in every network.
-/

set_option linter.unusedSectionVars false

namespace Danse
open Matrix

section
variable {K : Nat} {S : Fin K → Type} [∀ k, Fintype (S k)] [∀ k, DecidableEq (S k)]

/-- **C107 (argument).** Called with a node only, as batch mode does, the method uses the current external
filters; called with filters, those. -/
theorem C107_argument (c : BatchCfg S) (c' : TiBatchCfg S) (ext0 w : ∀ q, S q → ℂ)
    (ext0' w' : ∀ q, TiCh S q → ℂ) (k : Fin K) :
    batchCovCall c ext0 k none none = batchCov c ext0 k ∧
      batchCovCall c ext0 k none (some (.given w)) = batchCov c w k ∧
      tiBatchCovCall c' ext0' k none none = tiBatchCov c' ext0' k ∧
      tiBatchCovCall c' ext0' k none (some (.given w')) = tiBatchCov c' w' k := ⟨rfl, rfl, rfl, rfl⟩

theorem other_node (hK : 1 < K) (k : Fin K) : ∃ q : Fin K, q ≠ k := by
  by_cases h : k.val = 0
  · exact ⟨⟨1, hK⟩, fun e => by rw [← e] at h; simp at h⟩
  · exact ⟨⟨0, by omega⟩, fun e => h (by rw [← e])⟩

theorem finRange_ne_nil (hK : 0 < K) : List.finRange K ≠ [] := by
  intro e
  have := congrArg List.length e
  rw [List.length_finRange] at this
  simp at this; omega

/-- **C107, refuted.** With two or more nodes `init_covmats_from_batch` raises `TypeError`, whatever the
signals, the filters and the update are. -/
theorem C107_refuted_type_error (c : BatchCfg S) (ext0 : ∀ q, S q → ℂ) (hK : 1 < K) :
    initFromBatch c ext0 = .error .typeError := by
  unfold initFromBatch firstFilters
  rw [foldlM_first_error _ (List.finRange K) _ .typeError]
  · rfl
  · intro b k _
    have : batchCovCall c ext0 k (some (.bool false)) none = .error .typeError := by
      change (if ∃ q : Fin K, q ≠ k then Except.error PyErr.typeError else batchCov c ext0 k) = _
      rw [if_pos (other_node hK k)]
    rw [this]; rfl
  · exact finRange_ne_nil (by omega)

/-- **C107, refuted (TI-DANSE).** -/
theorem C107_refuted_type_error_ti (c : TiBatchCfg S) (ext0 : ∀ q, TiCh S q → ℂ) (hK : 1 < K) :
    tiInitFromBatch c ext0 = .error .typeError := by
  unfold tiInitFromBatch tiFirstFilters
  rw [foldlM_first_error _ (List.finRange K) _ .typeError]
  · rfl
  · intro b k _
    have : tiBatchCovCall c ext0 k (some (.bool false)) none = .error .typeError := by
      change (if ∃ q : Fin K, q ≠ k then Except.error PyErr.typeError else tiBatchCov c ext0 k) = _
      rw [if_pos (other_node hK k)]
    rw [this]; rfl
  · exact finRange_ne_nil (by omega)

/-- **C107, refuted (any network).** It never returns, also with a single node. -/
theorem C107_refuted_never (c : BatchCfg S) (ext0 : ∀ q, S q → ℂ) (c' : TiBatchCfg S)
    (ext0' : ∀ q, TiCh S q → ℂ) (hK : 0 < K) :
    (∀ R, initFromBatch c ext0 ≠ .ok R) ∧ ∀ R, tiInitFromBatch c' ext0' ≠ .ok R := by
  constructor
  · intro R h
    unfold initFromBatch at h
    obtain ⟨w, -, h2⟩ := bind_ok_inv h
    rw [foldlM_first_error _ (List.finRange K) _ .typeError ?_ (finRange_ne_nil hK)] at h2
    · cases h2
    · intro b k _; rfl
  · intro R h
    unfold tiInitFromBatch at h
    obtain ⟨w, -, h2⟩ := bind_ok_inv h
    rw [foldlM_first_error _ (List.finRange K) _ .typeError ?_ (finRange_ne_nil hK)] at h2
    · cases h2
    · intro b k _; rfl

end

/-- The hypothesis is met by the network of `batchDemo`, in which batch DANSE runs (C59). -/
example : initFromBatch batchDemo (fun _ _ => 1) = .error .typeError ∧
    ∀ B, ∃ st, batchRun batchDemo batchDemoSt B = .ok st := by
  refine ⟨C107_refuted_type_error _ _ (by norm_num), fun B => ?_⟩
  obtain ⟨x, hx, -⟩ := C59_single_sensor demo_single demo_tied rfl demo_centr
    (fun _ _ => by norm_num) (st := batchDemoSt) (fun _ _ => one_ne_zero) (fun _ _ => one_ne_zero) B
  exact ⟨x, hx⟩

end Danse
