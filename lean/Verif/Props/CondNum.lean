import Verif.Model.CondNum
import Verif.Proofs.Params2
import Mathlib.Data.List.Range
import Mathlib.Tactic.Linarith

/-!
# C108: recorded condition numbers
-/

namespace Danse

variable {M V : Type}

/-- **C108.** After `n` iterations the condition numbers of exactly the iterations `i < n` with `i + 1` a
multiple of `every` have been recorded, in order, one column per recorded iteration with one value per bin,
for the matrices at the end of that iteration. -/
theorem C108_recorded (cond : M → V) (every : Nat) (he : 0 < every) (R : Nat → List M) (n : Nat) :
    (cnRun cond true every R n).iters = (List.range n).filter (fun i => (i + 1) % every = 0) ∧
      (cnRun cond true every R n).cols =
        ((List.range n).filter (fun i => (i + 1) % every = 0)).map fun i => (R i).map cond := by
  suffices h : (cnRun cond true every R n).iters = (List.range n).filter (fun i => (i + 1) % every = 0) ∧
      (cnRun cond true every R n).cols =
        ((List.range n).filter (fun i => (i + 1) % every = 0)).map (fun i => (R i).map cond) ∧
      (cnRun cond true every R n).last = (n : Int) - (n % every : Nat) - 1 from ⟨h.1, h.2.1⟩
  induction n with
  | zero => simp [cnRun, CnRec.init]
  | succ n ih =>
    obtain ⟨h1, h2, h3⟩ := ih
    have hlt := Nat.mod_lt n he
    have hstep : (n + 1) % every = if n % every + 1 = every then 0 else n % every + 1 := by
      split
      · rename_i h
        rw [← Nat.mod_add_mod, h, Nat.mod_self]
      · rename_i h
        rw [← Nat.mod_add_mod, Nat.mod_eq_of_lt (by omega)]
    rw [cnRun, cnStep, h3, List.range_succ, List.filter_append]
    by_cases hd : n % every + 1 = every
    · rw [if_pos hd] at hstep
      have hc : (true && decide ((n : Int) - ((n : Int) - (n % every : Nat) - 1) ≥ (every : Int))) = true := by
        simp; omega
      rw [if_pos hc]
      refine ⟨?_, ?_, ?_⟩
      · rw [h1]; simp [hstep]
      · rw [h2]; simp [hstep]
      · simp [hstep]
    · rw [if_neg hd] at hstep
      have hc : ¬ (true && decide ((n : Int) - ((n : Int) - (n % every : Nat) - 1) ≥ (every : Int))) = true := by
        simp; omega
      rw [if_neg hc]
      refine ⟨?_, ?_, ?_⟩
      · rw [h1]; simp [hstep]
      · rw [h2]; simp [hstep]
      · rw [h3, hstep]; push_cast; omega

/-- **C108 (off).** Nothing is recorded without `saveConditionNumber`. -/
theorem C108_off (cond : M → V) (every : Int) (R : Nat → List M) (n : Nat) :
    cnRun cond false every R n = CnRec.init := by
  induction n with
  | zero => rfl
  | succ n ih => rw [cnRun, ih]; simp [cnStep]

/-- With a spacing of 3, iterations 2 and 5 of 8 are recorded. -/
example : (cnRun (fun x : Nat => x + 1) true 3 (fun i => [i, 2 * i]) 8).iters = [2, 5] ∧
    (cnRun (fun x : Nat => x + 1) true 3 (fun i => [i, 2 * i]) 8).cols = [[3, 5], [6, 11]] := by decide

/-- **C108 (setting).** Whether they are recorded is decided by the export of the plot, not by
`saveConditionNumber` in the parameters of DANSE: after the parameters have been checked, the iterations
recorded are those above if the plot is exported, and none otherwise. -/
theorem C108_setting {t t' : TestParams} {answers rest : List String}
    (h : t.postInit answers = .ok (t', rest)) (cond : M → V) (R : Nat → List M) (n : Nat) :
    (cnRun cond t'.danse.saveConditionNumber 1 R n).iters =
      if t.exp.conditionNumberPlot then List.range n else [] := by
  have hs : t'.danse.saveConditionNumber = t.exp.conditionNumberPlot := by
    obtain ⟨w, d, _, _, _, _, _, e2, _⟩ := test_postInit_ok h
    rw [e2]
  rw [hs]
  cases t.exp.conditionNumberPlot
  · rw [C108_off]; rfl
  · have := (C108_recorded cond 1 one_pos R n).1
    rw [Nat.cast_one] at this
    rw [this]
    simp [Nat.mod_one]

end Danse
