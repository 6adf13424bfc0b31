import Verif.Spec.ExtFilters
import Mathlib.Analysis.Convex.Combination
import Mathlib.Analysis.SpecificLimits.Normed
import Mathlib.Tactic

namespace Danse
section
variable {W K T : Type} [Field K] [AddCommGroup W] [Module K W] [Sub T] [LE T] [DecidableLE T]

theorem extRun_snoc (c : ExtCfg W K T) (s : ExtSt W T) (l : List (W × Option T))
    (e : W × Option T) : extRun c s (l ++ [e]) = extStep c (extRun c s l) e.1 e.2 := by
  unfold extRun
  rw [List.foldl_append]; rfl

/-- The relaxed step. -/
theorem extStep_relaxed {c : ExtCfg W K T} (hc : c.Relaxed) (s : ExtSt W T) (w : W)
    (t : Option T) :
    (extStep c s w t).ext = c.betaExt • s.ext + (1 - c.betaExt) • s.target ∧
    ((extStep c s w t).target = s.target ∨
      (extStep c s w t).target = (1 - c.alpha) • s.target + c.alpha • w) := by
  obtain ⟨h1, h2, h3, h4⟩ := hc
  unfold extStep
  rw [if_neg (by simp [h1]), if_neg (by rintro ⟨a, b⟩; rcases h2 with h | h <;> simp_all),
    if_neg (by simp [h3, h4])]
  cases t with
  | none => exact ⟨rfl, Or.inr rfl⟩
  | some t =>
    dsimp only
    split
    · exact ⟨rfl, Or.inr rfl⟩
    · exact ⟨rfl, Or.inl rfl⟩

end

section
variable {W T : Type} [AddCommGroup W] [Module ℝ W] [Sub T] [LE T] [DecidableLE T]

theorem extRun_hull {c : ExtCfg W ℝ T} (hc : c.Relaxed) (hb : 0 ≤ c.betaExt) (hb' : c.betaExt ≤ 1)
    (ha : 0 ≤ c.alpha) (ha' : c.alpha ≤ 1) (s : ExtSt W T) (l : List (W × Option T)) :
    (extRun c s l).target ∈ convexHull ℝ ({s.target} ∪ {w | ∃ e ∈ l, e.1 = w}) ∧
    (extRun c s l).ext ∈ convexHull ℝ ({s.ext, s.target} ∪ {w | ∃ e ∈ l.dropLast, e.1 = w}) := by
  induction l using List.reverseRecOn with
  | nil =>
    exact ⟨subset_convexHull ℝ _ (by left; rfl), subset_convexHull ℝ _ (by left; left; rfl)⟩
  | append_singleton l e ih =>
    obtain ⟨i1, i2⟩ := ih
    rw [extRun_snoc]
    obtain ⟨h1, h2⟩ := extStep_relaxed hc (extRun c s l) e.1 e.2
    have hT : (extRun c s l).target ∈
        convexHull ℝ ({s.target} ∪ {w | ∃ e' ∈ l ++ [e], e'.1 = w}) := by
      refine convexHull_mono ?_ i1
      apply Set.union_subset_union_right
      rintro w ⟨e', h, rfl⟩
      exact ⟨e', by simp [h], rfl⟩
    have hE : e.1 ∈ convexHull ℝ ({s.target} ∪ {w | ∃ e' ∈ l ++ [e], e'.1 = w}) :=
      subset_convexHull ℝ _ (Or.inr ⟨e, by simp, rfl⟩)
    constructor
    · rcases h2 with h2 | h2
      · rw [h2]; exact hT
      · rw [h2]
        exact convex_convexHull ℝ _ hT hE (by linarith) ha (by ring)
    · rw [h1, List.dropLast_append_of_ne_nil (by simp), List.dropLast_singleton, List.append_nil]
      refine convex_convexHull ℝ _ ?_ ?_ hb (by linarith) (by ring)
      · refine convexHull_mono ?_ i2
        apply Set.union_subset_union_right
        rintro w ⟨e', h, rfl⟩
        exact ⟨e', List.mem_of_mem_dropLast h, rfl⟩
      · refine convexHull_mono ?_ i1
        apply Set.union_subset_union_left
        simp

end

section
variable {W T : Type} [NormedAddCommGroup W] [NormedSpace ℝ W] [Sub T] [LE T] [DecidableLE T]

theorem extStep_none {c : ExtCfg W ℝ T} (hc : c.Relaxed) (s : ExtSt W T) (w : W) :
    (extStep c s w none).target = (1 - c.alpha) • s.target + c.alpha • w := by
  obtain ⟨h1, h2, h3, h4⟩ := hc
  unfold extStep
  rw [if_neg (by simp [h1]), if_neg (by rintro ⟨a, b⟩; rcases h2 with h | h <;> simp_all),
    if_neg (by simp [h3, h4])]

/-- Errors contract geometrically for a constant internal filter. -/
theorem ext_contract {β α : ℝ} {x y : Nat → W} (w : W)
    (hx : ∀ n, x (n + 1) = β • x n + (1 - β) • y n)
    (hy : ∀ n, y (n + 1) = (1 - α) • y n + α • w)
    (hb : 0 ≤ β) (hb' : β < 1) (ha : 0 < α) (ha' : α ≤ 1) :
    Filter.Tendsto x Filter.atTop (nhds w) := by
  set ρ := max (max β (1 - α)) (1 / 2) with hρ
  have r0 : 0 < ρ := lt_of_lt_of_le (by norm_num) (le_max_right _ _)
  have r1 : ρ < 1 := by
    rw [hρ]; exact max_lt (max_lt hb' (by linarith)) (by norm_num)
  have rb : β ≤ ρ := le_trans (le_max_left _ _) (le_max_left _ _)
  have ra : 1 - α ≤ ρ := le_trans (le_max_right _ _) (le_max_left _ _)
  have hY : ∀ n, ‖y n - w‖ ≤ ‖y 0 - w‖ * ρ ^ n := by
    intro n
    induction n with
    | zero => simp
    | succ n ih =>
      have e : y (n + 1) - w = (1 - α) • (y n - w) := by
        rw [hy]; module
      rw [e, norm_smul, Real.norm_of_nonneg (by linarith), pow_succ]
      calc (1 - α) * ‖y n - w‖ ≤ ρ * (‖y 0 - w‖ * ρ ^ n) :=
            mul_le_mul ra ih (norm_nonneg _) r0.le
        _ = _ := by ring
  have hX : ∀ n : Nat, ‖x n - w‖ ≤ ‖x 0 - w‖ * ρ ^ n + (‖y 0 - w‖ / ρ) * (n * ρ ^ n) := by
    intro n
    induction n with
    | zero => simp
    | succ n ih =>
      have e : x (n + 1) - w = β • (x n - w) + (1 - β) • (y n - w) := by
        rw [hx]; module
      have h1 : ‖x (n + 1) - w‖ ≤ β * ‖x n - w‖ + (1 - β) * ‖y n - w‖ := by
        rw [e]
        refine le_trans (norm_add_le _ _) ?_
        rw [norm_smul, norm_smul, Real.norm_of_nonneg hb, Real.norm_of_nonneg (by linarith)]
      have h2 : β * ‖x n - w‖ ≤ ρ * (‖x 0 - w‖ * ρ ^ n + (‖y 0 - w‖ / ρ) * (n * ρ ^ n)) :=
        mul_le_mul rb ih (norm_nonneg _) r0.le
      have h3 : (1 - β) * ‖y n - w‖ ≤ ‖y 0 - w‖ * ρ ^ n := by
        calc (1 - β) * ‖y n - w‖ ≤ 1 * ‖y n - w‖ :=
              mul_le_mul_of_nonneg_right (by linarith) (norm_nonneg _)
          _ = ‖y n - w‖ := one_mul _
          _ ≤ _ := hY n
      have h4 : ‖x 0 - w‖ * ρ ^ (n + 1) + (‖y 0 - w‖ / ρ) * (((n + 1 : ℕ) : ℝ) * ρ ^ (n + 1)) =
          ρ * (‖x 0 - w‖ * ρ ^ n + (‖y 0 - w‖ / ρ) * (n * ρ ^ n)) + ‖y 0 - w‖ * ρ ^ n := by
        push_cast
        field_simp
        ring
      rw [h4]; linarith
  have hlim : Filter.Tendsto
      (fun n : Nat => ‖x 0 - w‖ * ρ ^ n + (‖y 0 - w‖ / ρ) * (n * ρ ^ n)) Filter.atTop (nhds 0) := by
    have t1 := (tendsto_pow_atTop_nhds_zero_of_lt_one r0.le r1).const_mul ‖x 0 - w‖
    have t2 := (tendsto_self_mul_const_pow_of_lt_one r0.le r1).const_mul (‖y 0 - w‖ / ρ)
    have := t1.add t2
    simpa using this
  rw [tendsto_iff_norm_sub_tendsto_zero]
  exact squeeze_zero (fun n => norm_nonneg _) hX hlim

end
end Danse
