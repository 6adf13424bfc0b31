import Verif.Spec.Scm
import Mathlib.Analysis.Complex.Order
import Mathlib.LinearAlgebra.Matrix.PosDef
import Mathlib.Tactic

namespace Danse
section
variable {F n K W T : Type} [Fintype n] [Field K] [StarRing K] [LE T] [DecidableLE T]

theorem outerMean_eq (y : Frame F n K) : outerMean y = rankOne y := by
  funext f
  unfold outerMean rankOne
  congr 1

theorem expWeighted_nil (β : K) (R0 : F → Matrix n n K) : expWeighted β R0 [] = R0 := by
  funext f; unfold expWeighted; simp

theorem expWeighted_snoc (β : K) (R0 : F → Matrix n n K) (l : List (Frame F n K))
    (y : Frame F n K) (f : F) :
    expWeighted β R0 (l ++ [y]) f = β • expWeighted β R0 l f + (1 - β) • rankOne y f := by
  unfold expWeighted
  rw [List.zipIdx_append, List.map_append, List.sum_append, smul_add, ← add_assoc]
  congr 1
  · congr 1
    · rw [List.length_append, List.length_singleton, pow_succ', mul_smul]
    · rw [List.smul_sum, List.map_map]
      congr 1
      apply List.map_congr_left
      intro p hp
      have hlt : p.2 < l.length := by
        have := List.mem_zipIdx hp
        omega
      simp only [Function.comp, List.length_append, List.length_singleton]
      rw [smul_smul]
      congr 1
      rw [show l.length + 1 - 1 - p.2 = (l.length - 1 - p.2) + 1 by omega, pow_succ]
      ring
  · simp

theorem nodeStep_scm (c : NodeCfg F n K W T) (s : NodeSt F n K W) (y : Frame F n K) (vad : Bool)
    (t : T) (b : Bool) :
    (nodeStep c s y vad t b).scm = scmUpdate c.use1st c.beta s.scm y vad vad := by
  unfold nodeStep
  simp only
  split
  · rfl
  · split <;> rfl

theorem nodeRun_snoc (c : NodeCfg F n K W T) (s : NodeSt F n K W) (l : List (UpEv F n K T))
    (e : UpEv F n K T) :
    nodeRun c s (l ++ [e]) = nodeStep c (nodeRun c s l) e.y e.vad e.t e.bypass := by
  unfold nodeRun
  rw [List.foldl_append]; rfl

theorem framesWith_snoc (b : Bool) (l : List (UpEv F n K T)) (e : UpEv F n K T) :
    framesWith b (l ++ [e]) = framesWith b l ++ if e.vad = b then [e.y] else [] := by
  unfold framesWith
  rw [List.filter_append, List.map_append]
  congr 1
  by_cases h : e.vad = b
  · rw [if_pos h, List.filter_cons_of_pos (by simpa using h)]; rfl
  · rw [if_neg h, List.filter_cons_of_neg (by simpa using h)]; rfl

/-- Invariant of the covariance estimation. -/
theorem nodeRun_scm (c : NodeCfg F n K W T) {s : NodeSt F n K W} (h1 : s.scm.numRyy = 0)
    (h2 : s.scm.numRnn = 0) (l : List (UpEv F n K T)) :
    (nodeRun c s l).scm.numRyy = (framesWith true l).length ∧
    (nodeRun c s l).scm.numRnn = (framesWith false l).length ∧
    (c.use1st = false →
      (nodeRun c s l).scm.ryy = expWeighted c.beta s.scm.ryy (framesWith true l) ∧
      (nodeRun c s l).scm.rnn = expWeighted c.beta s.scm.rnn (framesWith false l)) ∧
    (c.use1st = true →
      (framesWith true l = [] → (nodeRun c s l).scm.ryy = s.scm.ryy) ∧
      (framesWith false l = [] → (nodeRun c s l).scm.rnn = s.scm.rnn) ∧
      (∀ y r, framesWith true l = y :: r →
        (nodeRun c s l).scm.ryy = expWeighted c.beta (rankOne y) r) ∧
      (∀ y r, framesWith false l = y :: r →
        (nodeRun c s l).scm.rnn = expWeighted c.beta (rankOne y) r)) := by
  induction l using List.reverseRecOn with
  | nil =>
    refine ⟨h1, h2, fun _ => ⟨?_, ?_⟩, fun _ => ⟨fun _ => rfl, fun _ => rfl, ?_, ?_⟩⟩
    · exact (expWeighted_nil _ _).symm
    · exact (expWeighted_nil _ _).symm
    · intro y r h; cases h
    · intro y r h; cases h
  | append_singleton l e ih =>
    rw [nodeRun_snoc, nodeStep_scm, framesWith_snoc, framesWith_snoc]
    generalize nodeRun c s l = st at ih
    obtain ⟨i1, i2, i3, i4⟩ := ih
    cases hv : e.vad with
    | true =>
      simp only [if_true, reduceCtorEq, if_false, List.append_nil, List.length_append,
        List.length_singleton]
      unfold scmUpdate conditionalScm updateCovOnline
      simp only [if_true]
      cases hu : c.use1st with
      | false =>
        simp only [reduceCtorEq, if_false, false_imp_iff, and_true]
        refine ⟨by omega, i2, fun _ => ⟨?_, (i3 hu).2⟩⟩
        funext f
        rw [expWeighted_snoc, (i3 hu).1, outerMean_eq]
      | true =>
        simp only [if_true, reduceCtorEq, false_imp_iff, true_and, and_true, and_false, if_false]
        refine ⟨by omega, i2, fun _ => ⟨fun h => by simp at h, ?_, ?_, ?_⟩⟩
        · intro h
          have : st.scm.numRnn = 0 := by rw [i2, h]; rfl
          rw [this]
          simp only [gt_iff_lt, Nat.not_lt_zero, if_false]
          exact (i4 hu).2.1 h
        · intro y r h
          by_cases h0 : framesWith true l = []
          · have : st.scm.numRyy = 0 := by rw [i1, h0]; rfl
            rw [h0] at h
            simp only [List.nil_append, List.cons.injEq] at h
            obtain ⟨rfl, rfl⟩ := h
            rw [if_pos (by omega), expWeighted_nil, outerMean_eq]
          · obtain ⟨y', r', h'⟩ := List.exists_cons_of_ne_nil h0
            have : st.scm.numRyy = r'.length + 1 := by rw [i1, h']; rfl
            rw [h'] at h
            simp only [List.cons_append, List.cons.injEq] at h
            obtain ⟨rfl, rfl⟩ := h
            rw [if_neg (by omega), if_pos (by omega)]
            funext f
            rw [expWeighted_snoc, (i4 hu).2.2.1 _ _ h', outerMean_eq]
        · intro y r h
          have := (i4 hu).2.2.2 y r h
          split <;> exact this
    | false =>
      simp only [if_true, reduceCtorEq, if_false, List.append_nil, List.length_append,
        List.length_singleton]
      unfold scmUpdate conditionalScm updateCovOnline
      simp only [reduceCtorEq, if_false]
      cases hu : c.use1st with
      | false =>
        simp only [reduceCtorEq, if_false, false_imp_iff, and_true]
        refine ⟨i1, by omega, fun _ => ⟨(i3 hu).1, ?_⟩⟩
        funext f
        rw [expWeighted_snoc, (i3 hu).2, outerMean_eq]
      | true =>
        simp only [if_true, reduceCtorEq, false_imp_iff, true_and, and_true, and_false, if_false]
        refine ⟨i1, by omega, fun _ => ⟨?_, fun h => by simp at h, ?_, ?_⟩⟩
        · intro h
          have := (i4 hu).1 h
          split <;> exact this
        · intro y r h
          have := (i4 hu).2.2.1 y r h
          split <;> exact this
        · intro y r h
          by_cases h0 : framesWith false l = []
          · have : st.scm.numRnn = 0 := by rw [i2, h0]; rfl
            rw [h0] at h
            simp only [List.nil_append, List.cons.injEq] at h
            obtain ⟨rfl, rfl⟩ := h
            rw [if_pos (by omega), expWeighted_nil, outerMean_eq]
          · obtain ⟨y', r', h'⟩ := List.exists_cons_of_ne_nil h0
            have : st.scm.numRnn = r'.length + 1 := by rw [i2, h']; rfl
            rw [h'] at h
            simp only [List.cons_append, List.cons.injEq] at h
            obtain ⟨rfl, rfl⟩ := h
            rw [if_neg (by omega), if_pos (by omega)]
            funext f
            rw [expWeighted_snoc, (i4 hu).2.2.2 _ _ h', outerMean_eq]

end

section
variable {F n W T : Type} [Fintype n] [LE T] [DecidableLE T]
open scoped ComplexOrder

theorem rankOne_posSemidef (y : Frame F n ℂ) (f : F) : (rankOne y f).PosSemidef := by
  unfold rankOne
  apply Matrix.PosSemidef.smul (Matrix.posSemidef_vecMulVec_self_star _)
  have : (1 / (Fintype.card n : ℂ)) = ((1 / (Fintype.card n : ℝ) : ℝ) : ℂ) := by push_cast; rfl
  rw [this, Complex.zero_le_real]
  positivity

theorem posSemidef_blend {b : ℝ} (h0 : 0 ≤ b) (h1 : b ≤ 1) {A B : Matrix n n ℂ}
    (hA : A.PosSemidef) (hB : B.PosSemidef) :
    ((b : ℂ) • A + (1 - (b : ℂ)) • B).PosSemidef := by
  apply Matrix.PosSemidef.add
  · exact hA.smul (Complex.zero_le_real.mpr h0)
  · apply hB.smul
    have : (1 - (b : ℂ)) = ((1 - b : ℝ) : ℂ) := by push_cast; rfl
    rw [this, Complex.zero_le_real]; linarith

theorem expWeighted_posSemidef {b : ℝ} (h0 : 0 ≤ b) (h1 : b ≤ 1) {R0 : F → Matrix n n ℂ} {f : F}
    (hR : (R0 f).PosSemidef) (l : List (Frame F n ℂ)) :
    (expWeighted (b : ℂ) R0 l f).PosSemidef := by
  induction l using List.reverseRecOn with
  | nil => rw [expWeighted_nil]; exact hR
  | append_singleton l y ih =>
    rw [expWeighted_snoc]
    exact posSemidef_blend h0 h1 ih (rankOne_posSemidef y f)

end
end Danse
