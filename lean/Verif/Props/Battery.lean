import Verif.Proofs.Battery
import Verif.Model.FwSnr
import Mathlib.Algebra.Order.Floor.Ring
import Mathlib.Tactic.NormNum
import Mathlib.Tactic.Linarith

/-!
# Property C120: test batteries that are interrupted and started again

`batteryRuns c ref tests h fs` is a history of runs of the script over `tests`, each with the point at which it
crashes and the answers of the user; `Dir.read d f` is what a folder has under the name `f` (Spec/Battery.lean).
-/

namespace Danse
section
variable {T ρ : Type} [DecidableEq ρ] {c : BatteryCfg} {ref : T → ρ} {tests : List T} {fs : ρ → Option (Dir T)}

/-- C120 (resume): whatever crashes there were, when a later run comes to its end and the user lets it
overwrite, every test has complete results, and these are its own; if tests have different names, there
were no results to begin with, and no crash has left a results file incomplete. -/
theorem C120_resume (hs : c.skip = true) (hf : c.metricsFile = true) (hp : c.metricsPlot = true)
    (ha : "metrics.pkl" ∉ c.after)
    (hinj : ∀ t ∈ tests, ∀ t' ∈ tests, ref t = ref t' → t = t')
    (h0 : ∀ t ∈ tests, Dir.read (fs (ref t)) "metrics.pkl" = none)
    (h : List (Nat × (T → Bool)))
    (hno : ∀ t ∈ tests, Dir.read ((batteryRuns c ref tests h fs).1 (ref t)) "metrics.pkl" ≠ some none)
    {yes : T → Bool} (hy : ∀ t ∈ tests, yes t = true ∨ c.overwrite = true) {p : Nat}
    (hfin : (batteryRun c ref yes tests p (batteryRuns c ref tests h fs).1).2.2 = true) :
    ∀ t ∈ tests, Dir.read ((batteryRun c ref yes tests p (batteryRuns c ref tests h fs).1).1 (ref t)) "metrics.pkl" =
      some (some t) := by
  intro t ht
  rcases batteryRun_finished hs hf hp ha tests hy p _ hfin t ht with ⟨h1, h2⟩ | ⟨t', h1, h2, h3⟩
  · rw [h2]
    obtain ⟨x, hx⟩ := (Dir.has_iff _ _).1 h1
    have := batteryRuns_inv (c := c) (ref := ref)
      (P := fun d => Dir.read d "metrics.pkl" = none ∨ Dir.read d "metrics.pkl" = some none ∨
        Dir.read d "metrics.pkl" = some (some t)) (q := ref t) tests
      (fun t' ht' he d y p hd => by
        rw [hinj t' ht' t ht he]
        exact fold_own t _ _ hd) h fs (.inl (h0 t ht))
    rcases this with e | e | e
    · rw [e] at hx; cases hx
    · exact absurd e (hno t ht)
    · exact e
  · rw [h3, hinj t' h1 t ht h2]

/-- C120 (kept): once a test has a results file, no later run launches it, changes its folder or asks about
it, whatever happens. -/
theorem C120_kept (hs : c.skip = true) (h h' : List (Nat × (T → Bool))) {t : T} {x : Option T}
    (hx : Dir.read ((batteryRuns c ref tests h fs).1 (ref t)) "metrics.pkl" = some x) :
    (batteryRuns c ref tests h' (batteryRuns c ref tests h fs).1).1 (ref t) =
        (batteryRuns c ref tests h fs).1 (ref t) ∧
      ∀ t' ∈ (batteryRuns c ref tests h' (batteryRuns c ref tests h fs).1).2, ref t' ≠ ref t :=
  batteryRuns_kept hs tests h' _ ((Dir.has_iff _ _).2 ⟨x, hx⟩)

/-- C120 (end): a run that is not interrupted comes to its end. -/
theorem C120_ends (hp : c.metricsPlot = true) (yes : T → Bool) :
    ∃ p0, ∀ p ≥ p0, (batteryRun c ref yes tests p fs).2.2 = true :=
  batteryRun_ends hp tests fs

/-- C120 (refuted after a crash during the export): a results file that is left incomplete is never completed: all later
runs take the test for done. -/
theorem C120_refuted_incomplete (hs : c.skip = true) (h h' : List (Nat × (T → Bool))) {t : T}
    (hx : Dir.read ((batteryRuns c ref tests h fs).1 (ref t)) "metrics.pkl" = some none) :
    Dir.read ((batteryRuns c ref tests h' (batteryRuns c ref tests h fs).1).1 (ref t)) "metrics.pkl" = some none := by
  rw [(C120_kept hs h h' hx).1]
  exact hx

/-- C120 (refuted for later files): a file that is to be written after the results is never written if a crash
comes between the two. -/
theorem C120_refuted_parameters (hs : c.skip = true) (h h' : List (Nat × (T → Bool))) {t : T} {x : Option T}
    {f : String} (hx : Dir.read ((batteryRuns c ref tests h fs).1 (ref t)) "metrics.pkl" = some x)
    (hf : Dir.read ((batteryRuns c ref tests h fs).1 (ref t)) f = none) :
    Dir.read ((batteryRuns c ref tests h' (batteryRuns c ref tests h fs).1).1 (ref t)) f = none := by
  rw [(C120_kept hs h h' hx).1]
  exact hf

/-- C120 (refuted without the metrics plot): with `metricsPlot` switched off no test ever gets its results, whatever the
runs; the exception leaves an empty file. -/
theorem C120_refuted_no_plot (hf : c.metricsFile = true) (hp : c.metricsPlot = false)
    (hb : "metrics.pkl" ∉ c.before) {q : ρ}
    (h0 : Dir.read (fs q) "metrics.pkl" = none) (h : List (Nat × (T → Bool))) :
    Dir.read ((batteryRuns c ref tests h fs).1 q) "metrics.pkl" = none ∨
      Dir.read ((batteryRuns c ref tests h fs).1 q) "metrics.pkl" = some none := by
  refine batteryRuns_inv (c := c) (ref := ref)
    (P := fun d => Dir.read d "metrics.pkl" = none ∨ Dir.read d "metrics.pkl" = some none) tests
    (fun t _ _ d y p hd => fold_never t _ _ (fun a ha => ?_) hd) h fs (.inl h0)
  have hex : ∀ a ∈ c.exports.1, a ≠ .finish "metrics.pkl" := by
    intro a ha e
    subst e
    unfold BatteryCfg.exports at ha
    simp only [hf, hp, if_true, Bool.false_eq_true, if_false] at ha
    rcases List.mem_append.1 ha with ha | ha
    · obtain ⟨g, hg, ha⟩ := List.mem_flatMap.1 ha
      simp only [writeFile, List.mem_cons, reduceCtorEq, FsAct.finish.injEq, List.not_mem_nil, or_false, false_or] at ha
      exact hb (ha ▸ hg)
    · simp at ha
  have ha := List.mem_of_mem_take ha
  unfold BatteryCfg.launch at ha
  cases d with
  | none =>
    rcases List.mem_cons.1 ha with rfl | ha
    · simp
    · exact hex a ha
  | some es =>
    simp only at ha
    split_ifs at ha
    · exact hex a ha
    · rcases List.mem_append.1 ha with ha | ha
      · obtain ⟨e, -, rfl⟩ := List.mem_map.1 ha
        simp
      · exact hex a ha
    · cases ha

/-- C120 (refuted without the metrics plot, every run): with `metricsPlot` switched off no run over tests of which one has
no results yet comes to its end: the first launch ends with an exception. -/
theorem C120_refuted_no_plot_stops (hf : c.metricsFile = true) (hp : c.metricsPlot = false) {yes : T → Bool}
    (hy : ∀ t ∈ tests, yes t = true ∨ c.overwrite = true)
    (h0 : ∃ t ∈ tests, Dir.read (fs (ref t)) "metrics.pkl" = none) (p : Nat) :
    (batteryRun c ref yes tests p fs).2.2 = false := by
  induction tests with
  | nil => obtain ⟨t, ht, -⟩ := h0; cases ht
  | cons t r ih =>
    unfold batteryRun
    by_cases hk : (c.skip && Dir.has (fs (ref t)) "metrics.pkl") = true
    · rw [if_pos hk]
      refine ih (fun t' ht' => hy t' (List.mem_cons_of_mem _ ht')) ?_
      obtain ⟨t', ht', he⟩ := h0
      rcases List.mem_cons.1 ht' with rfl | ht'
      · simp only [Bool.and_eq_true] at hk
        obtain ⟨x, hx⟩ := (Dir.has_iff _ _).1 hk.2
        rw [he] at hx; cases hx
      · exact ⟨t', ht', he⟩
    · rw [if_neg hk]
      have hx : c.exports.2 = true := by
        unfold BatteryCfg.exports
        simp [hf, hp]
      have hl : (c.launch (fs (ref t)) (yes t)).2 = true := by
        unfold BatteryCfg.launch
        cases fs (ref t) with
        | none => exact hx
        | some es =>
          rcases hy t (List.mem_cons_self ..) with h | h
          · simp only [h, if_true]
            split_ifs <;> exact hx
          · simp only [h, Bool.true_or, if_true]
            exact hx
      simp only
      rw [if_pos (Or.inr hl)]

end

/-! ## Concrete histories -/

/-- Two files before the results, the parameters after them. -/
def exBattery : BatteryCfg :=
  { skip := true, overwrite := false, metricsPlot := true, metricsFile := true,
    before := ["OutputsForPostProcessing.pkl", "DANSEoutputs.pkl"], after := ["TestParameters.yaml"] }

/-- Three tests; nothing there in the beginning. -/
def exBatteryRuns (h : List (Nat × (Nat → Bool))) : (Nat → Option (Dir Nat)) × List Nat :=
  batteryRuns exBattery id [10, 20, 30] h (fun _ => none)

/-- The hypotheses of `C120_resume` are met: the first run crashes while the second test exports, the second at once,
the third comes to its end. The second test is launched three times, the others once. -/
example : let r := exBatteryRuns [(11, fun _ => true), (0, fun _ => true), (100, fun _ => true)]
    r.2 = [10, 20, 20, 20, 30] ∧
    [10, 20, 30].map (fun t => Dir.read (r.1 t) "metrics.pkl") = [some (some 10), some (some 20), some (some 30)] ∧
    [10, 20, 30].map (fun t => Dir.read ((exBatteryRuns [(11, fun _ => true), (0, fun _ => true)]).1 t)
      "metrics.pkl") = [some (some 10), none, none] ∧
    (batteryRun exBattery id (fun _ => true) [10, 20, 30] 100
      (exBatteryRuns [(11, fun _ => true), (0, fun _ => true)]).1).2.2 = true := by
  decide +kernel

/-- The hypothesis of `C120_refuted_incomplete` is met: a crash between the opening of the results file of the
first test and the end of its writing. The next run leaves it so. -/
example : Dir.read ((exBatteryRuns [(6, fun _ => true)]).1 10) "metrics.pkl" = some none ∧
    (exBatteryRuns [(6, fun _ => true), (100, fun _ => true)]).2 = [10, 20, 30] ∧
    Dir.read ((exBatteryRuns [(6, fun _ => true), (100, fun _ => true)]).1 10) "metrics.pkl" = some none := by
  decide +kernel

/-- The hypotheses of `C120_refuted_parameters` are met: a crash right after the results of the first test. -/
example : Dir.read ((exBatteryRuns [(7, fun _ => true)]).1 10) "metrics.pkl" = some (some 10) ∧
    Dir.read ((exBatteryRuns [(7, fun _ => true)]).1 10) "TestParameters.yaml" = none := by
  decide +kernel

/-- The same without the metrics plot: `n` runs. -/
def exNoPlot (n : Nat) : (Nat → Option (Dir Nat)) × List Nat :=
  batteryRuns { exBattery with metricsPlot := false } id [10, 20, 30] (List.replicate n (100, fun _ => true))
    (fun _ => none)

/-- Without the metrics plot three runs give three empty files, the fourth says that all is done. -/
example : (exNoPlot 3).2 = [10, 20, 30] ∧ (exNoPlot 4).2 = [10, 20, 30] ∧
    [10, 20, 30].map (fun t => Dir.read ((exNoPlot 4).1 t) "metrics.pkl") = [some none, some none, some none] ∧
    (batteryRun { exBattery with metricsPlot := false } id (fun _ => true) [10, 20, 30] 0 (exNoPlot 3).1).2.2 =
      true := by
  decide +kernel

/-- The hypotheses of `C120_refuted_no_plot_stops` are met in the first and in the third run, not in the fourth. -/
example : [0, 2].map (fun n => (batteryRun { exBattery with metricsPlot := false } id (fun _ => true) [10, 20, 30] 100
      (exNoPlot n).1).2) = [([10], false), ([30], false)] ∧
    Dir.read ((exNoPlot 0).1 10) "metrics.pkl" = none ∧ Dir.read ((exNoPlot 2).1 30) "metrics.pkl" = none := by
  decide +kernel

/-- A run in which the user declines to overwrite, after a crash in the second test. -/
def exDeclined : (Nat → Option (Dir Nat)) × List Nat × Bool :=
  batteryRun exBattery id (fun _ => false) [10, 20, 30] 100 (exBatteryRuns [(11, fun _ => true)]).1

/-- C120 (refuted if the user declines): a run comes to its end although a test, interrupted before, has no results:
'n' only ends the launch of that test. -/
theorem C120_refuted_declined : exDeclined.2.2 = true ∧ Dir.read (exDeclined.1 20) "metrics.pkl" = none ∧
    Dir.read (exDeclined.1 30) "metrics.pkl" = some (some 30) := by
  decide +kernel

/-- C120 (refuted for equal names): if two tests have the same name, the second one is not launched: its results are taken
to be those of the first. -/
theorem C120_refuted_names : let r := batteryRuns exBattery (fun t => t / 10) [11, 12] [(100, fun _ => true)] (fun _ => none)
    r.2 = [11] ∧ Dir.read (r.1 1) "metrics.pkl" = some (some 11) := by
  decide +kernel

/-- C120 (names): tests whose name is a value rounded to an integer (`f'{x:.0f}'`) have different names if the
values are more than one apart. -/
theorem C120_names {x y : ℚ} (h : 1 < |x - y|) : pyRoundInt x ≠ pyRoundInt y := by
  have key : ∀ z : ℚ, (z - 1 / 2 ≤ pyRoundInt z) ∧ (pyRoundInt z : ℚ) ≤ z + 1 / 2 := by
    intro z
    have h1 := Int.floor_le z
    have h2 := Int.lt_floor_add_one z
    unfold pyRoundInt
    simp only
    split_ifs <;> push_cast <;> constructor <;> linarith
  intro e
  have hx := key x
  have hy := key y
  rw [e] at hx
  rcases lt_abs.1 h with h | h <;> linarith [hx.1, hx.2, hy.1, hy.2]

/-- C120 (names, refuted): one apart is not enough: 1.5 and 2.5 have the same name. -/
theorem C120_refuted_rounding : pyRoundInt (3 / 2) = 2 ∧ pyRoundInt (5 / 2) = 2 := by
  have h1 : ⌊(3 / 2 : ℚ)⌋ = 1 := by rw [Int.floor_eq_iff]; norm_num
  have h2 : ⌊(5 / 2 : ℚ)⌋ = 2 := by rw [Int.floor_eq_iff]; norm_num
  unfold pyRoundInt
  rw [h1, h2]
  norm_num

/-- The sampling rate offsets of `battery20231009` (0, 40, ..., 400) are far enough apart. -/
example (i j : Nat) (h : i ≠ j) : pyRoundInt ((i : ℚ) * 40) ≠ pyRoundInt ((j : ℚ) * 40) := by
  refine C120_names ?_
  rcases Nat.lt_or_gt_of_ne h with h | h
  · have : (i : ℚ) + 1 ≤ j := by exact_mod_cast h
    rw [lt_abs]; right; linarith
  · have : (j : ℚ) + 1 ≤ i := by exact_mod_cast h
    rw [lt_abs]; left; linarith

end Danse
