import Verif.Props.Cost

/-!
# Property C127 (continued): runs that meet the hypotheses
-/

namespace Danse
section
open scoped ComplexOrder Matrix

/-- The two nodes of `exOnline`, with the first frame as a basis. -/
noncomputable def exCost : DanseCfg ℂ := { exOnline with use1st := true }

/-- One click in each recording while speech is active and one in the first recording while it is not. -/
noncomputable def exCostY (k : Nat) : List (List ℂ) :=
  if k = 0 then [[1, 0, 0, 0, 0, 1, 0, 0, 0, 0, 0, 0]] else [[0, 0, 1, 0, 0, 0, 0, 0, 0, 0, 0, 0]]

theorem analysis_two (a b : ℂ) {κ : Nat} (hκ : κ < 2) : at0 (analysis (-1) 2 1 [1, 1] [a, b]) κ = a + (-1) ^ κ * b := by
  have : κ = 0 ∨ κ = 1 := by omega
  rcases this with rfl | rfl <;>
    simp [analysis, dft, at0, List.range_succ, Finset.sum_range_succ]

theorem rankOne_entry {B : Nat} (y : Frame (Fin B) (Fin 2) ℂ) (κ : Fin B) (i j : Fin 2) :
    rankOne y κ i j = 1 / 2 * (y κ i * star (y κ j)) := by
  simp [rankOne, Matrix.vecMulVec_apply]

/-- Three frames, of which the first and the last but one span all the space. -/
theorem three_frames {B : Nat} {f0 f1 f2 : Frame (Fin B) (Fin 2) ℂ} {κ : Fin B} {s : ℂ} (hs : s = 1 ∨ s = -1)
    (h : (f0 κ 0 = 1 ∧ f0 κ 1 = 0 ∧ f1 κ 0 = 0 ∧ f1 κ 1 = 1 ∧ f2 κ 0 = s ∧ f2 κ 1 = 0) ∨
      (f0 κ 0 = 0 ∧ f0 κ 1 = s ∧ f1 κ 0 = 0 ∧ f1 κ 1 = 0 ∧ f2 κ 0 = 1 ∧ f2 κ 1 = 0)) :
    (expWeighted (1 / 2 : ℂ) (rankOne f0) [f1, f2] κ).det ≠ 0 := by
  rw [Matrix.det_fin_two]
  unfold expWeighted
  simp only [List.length_cons, List.length_nil, List.zipIdx_cons, List.zipIdx_nil, List.map_cons, List.map_nil, List.sum_cons,
    List.sum_nil, Matrix.add_apply, Matrix.smul_apply, rankOne_entry, smul_eq_mul, Matrix.zero_apply]
  rcases hs with rfl | rfl <;> rcases h with ⟨a, b, c, d, e, f⟩ | ⟨a, b, c, d, e, f⟩ <;> simp [a, b, c, d, e, f] <;> norm_num

theorem exCost_wired : ∃ F : Nat → Frame (Fin exCost.nb) (Fin 2) ℂ,
    (exCost.wired exCostY 1 12 0).take 6 = (List.range 6).map (fun (i : Nat) =>
      (⟨F i, i % 2 == 0, (i : ℚ) + 2, false⟩ : UpEv (Fin exCost.nb) (Fin 2) ℂ ℚ)) ∧
    ∀ i < 6, ∀ κ c, F i κ c = at0 (analysis (-1) 2 1 [1, 1]
      (frameAt ((exCostY 0 ++ [exCostY 1].flatten).getD c []) i 2)) κ := by
  have e2 : ⌈((2 : ℕ) : ℚ) / ((1 : ℕ) : ℚ)⌉₊ = 2 := by norm_num
  refine ⟨fun i κ c => at0 (analysis (-1) 2 1 [1, 1] (frameAt ((exCostY 0 ++ [exCostY 1].flatten).getD c []) i 2)) κ, ?_,
    fun _ _ _ _ => rfl⟩
  unfold DanseCfg.wired
  change (List.map _ (List.range ((12 - 1) / 1 - ⌈((2 : ℕ) : ℚ) / ((1 : ℕ) : ℚ)⌉₊))).take 6 = _
  rw [e2, ← List.map_take, List.take_range, min_eq_left (by norm_num)]
  apply List.map_congr_left
  intro i hi
  change (⟨_, _, _, _⟩ : UpEv (Fin exCost.nb) (Fin 2) ℂ ℚ) = _
  have e3 : (⌈(exCost.g.N : ℚ) / exCost.g.Ns⌉₊ + i) * exCost.g.Ns - exCost.g.N = i := by
    change (⌈((2 : ℕ) : ℚ) / ((1 : ℕ) : ℚ)⌉₊ + i) * 1 - 2 = i
    rw [e2]; omega
  have e4 : ((⌈(exCost.g.N : ℚ) / exCost.g.Ns⌉₊ + i : Nat) : ℚ) * exCost.g.Ns / 1 = (i : ℚ) + 2 := by
    change ((⌈((2 : ℕ) : ℚ) / ((1 : ℕ) : ℚ)⌉₊ + i : Nat) : ℚ) * ((1 : ℕ) : ℚ) / 1 = (i : ℚ) + 2
    rw [e2]; push_cast; ring
  simp only [e3, e4]
  rfl

theorem exCost_started : exCost.Started 0 ((exCost.wired exCostY 1 12 0).take 6) := by
  obtain ⟨F, hw, hF⟩ := exCost_wired
  have hv : ∀ i < 6, ∀ κ : Fin exCost.nb,
      F i κ 0 = at0 ((exCostY 0).getD 0 []) i + (-1) ^ κ.val * at0 ((exCostY 0).getD 0 []) (i + 1) ∧
      F i κ 1 = at0 ((exCostY 1).getD 0 []) i + (-1) ^ κ.val * at0 ((exCostY 1).getD 0 []) (i + 1) := by
    intro i hi κ
    have hκ : κ.val < 2 := κ.isLt
    rw [hF i hi κ 0, hF i hi κ 1]
    have : i = 0 ∨ i = 1 ∨ i = 2 ∨ i = 3 ∨ i = 4 ∨ i = 5 := by omega
    rcases this with rfl | rfl | rfl | rfl | rfl | rfl <;>
      exact ⟨analysis_two _ _ hκ, analysis_two _ _ hκ⟩
  have hsgn : ∀ κ : Fin exCost.nb, ((-1 : ℂ) ^ κ.val = 1 ∨ (-1 : ℂ) ^ κ.val = -1) := fun κ => neg_one_pow_eq_or ℂ _
  rw [hw]
  refine ⟨(List.range 5).map (fun (i : Nat) =>
      (⟨F i, i % 2 == 0, (i : ℚ) + 2, false⟩ : UpEv (Fin exCost.nb) (Fin 2) ℂ ℚ)), ⟨F 5, 5 % 2 == 0, ((5 : ℕ) : ℚ) + 2, false⟩, ?_, ?_, ?_, ?_, ?_⟩
  · exact List.prefix_refl _
  · change (3 : ℚ) ≤ ((5 : ℕ) : ℚ) + 2
    norm_num
  · change 2 < 3; norm_num
  · change 2 < 3; norm_num
  · refine decide_eq_true fun κ => ⟨?_, ?_⟩
    · change (expWeighted (((1 / 2 : ℝ)) : ℂ) (rankOne (F 1)) [F 3, F 5] κ).det ≠ 0
      rw [show (((1 / 2 : ℝ)) : ℂ) = 1 / 2 by push_cast; rfl]
      refine three_frames (hsgn κ) (.inr ⟨?_, ?_, ?_, ?_, ?_, ?_⟩) <;>
        first | rw [(hv _ (by norm_num) κ).1] | rw [(hv _ (by norm_num) κ).2]
      all_goals simp [exCostY, at0]
    · change (expWeighted (((1 / 2 : ℝ)) : ℂ) (rankOne (F 0)) [F 2, F 4] κ).det ≠ 0
      rw [show (((1 / 2 : ℝ)) : ℂ) = 1 / 2 by push_cast; rfl]
      refine three_frames (hsgn κ) (.inl ⟨?_, ?_, ?_, ?_, ?_, ?_⟩) <;>
        first | rw [(hv _ (by norm_num) κ).1] | rw [(hv _ (by norm_num) κ).2]
      all_goals simp [exCostY, at0]

/-- The hypotheses of C127 (a)-(c) with `use1stFrameAsBasis` and those of C128 are met: a run of `exCost` on the clicks, in
which updating of node 0 has started at the sixth update. -/
theorem exCost_run : ∃ out a, initEventsFC exCost.g.bc 2 1 false false 0 0 0 (syncNodes 1 12 [[1], [0]]) = .ok (out, [1, 1]) ∧
    danseRun exCost exCostY 12 (flatEvents out) = .ok a ∧ 5 < evUps (flatEvents out) 0 ∧
    exCost.heard 0 (a.run.hist 0) = exCost.wired exCostY 1 12 0 ∧
    exCost.Started 0 (exCost.heard 0 ((a.run.hist 0).take (5 + 1))) := by
  have hf : inferFs (clockStamps 1 12) = .ok 1 := by decide_cbv
  have gd : GoodNeighbours exCost.g.nb := ⟨fun k => by change [if k % 2 = 0 then k + 1 else k - 1].Nodup; simp, fun k q => by
      change q ∈ [if k % 2 = 0 then k + 1 else k - 1] → k ∈ [if q % 2 = 0 then q + 1 else q - 1]
      simp only [List.mem_singleton]; split <;> split <;> omega⟩
  have hy : ∀ k < ([[1], [0]] : List (List Nat)).length, ∀ ch ∈ exCostY k, ch.length = 12 := by
    intro k _ ch hch
    unfold exCostY at hch
    split at hch <;> (rw [List.mem_singleton] at hch; subst hch; rfl)
  obtain ⟨out, a, h1, h2⟩ := C117_completes (D := exCost) (y := exCostY) rfl (fun _ => Nat.one_pos)
    (fun _ => ⟨1 / 2, by norm_num, by norm_num, rfl⟩)
    (fun m Rnn Ryy h κ => (of_decide_eq_true h) κ) (.inl rfl)
    (n := 12) (L := 1) (by norm_num) one_pos hf [[1], [0]] (seq := false) (sim := false) (ri := 0) 0 0
    (by simp) (fun _ => rfl) rfl one_pos (le_refl _) (by change 0 < 2; norm_num) (by change 2 ∣ 2; norm_num)
    (.inl (by change 1 + 1 ≤ 2 + 1; norm_num)) rfl gd
    (by intro q hq k hk; change k ∈ [if q % 2 = 0 then q + 1 else q - 1] at hk; simp at hk hq ⊢; split at hk <;> omega)
    hy (fun k i => by simp [exCost, exOnline, exOnlineG, DanseCfg.nb])
  have hh := C128_heard (D := exCost) (y := exCostY) (n := 12) (L := 1) (q := 0) (by norm_num) one_pos hf [[1], [0]]
    (fun _ => rfl) rfl one_pos (one_dvd _) (by change 0 < 1; norm_num) h1 (by simp) (by change 2 ≤ 2; norm_num)
    (by change 1 ≤ 2; norm_num) gd (by norm_num)
    (by intro k hk; change k ∈ [1] at hk; simp at hk; subst hk; norm_num) (fun _ _ => rfl)
    (fun k => by change (exCostY k).length = 1; unfold exCostY; split <;> rfl) hy rfl rfl (fun _ _ _ => rfl) h2
  refine ⟨out, a, h1, h2, ?_, hh, by rw [heard_take, hh]; exact exCost_started⟩
  rw [← evUps_length, ← (C77_observed (C117_instance h2) 0).1, List.length_map, ← heard_length (D := exCost) (k := 0), hh]
  unfold DanseCfg.wired
  simp only [List.length_map, List.length_range]
  change 5 < (12 - 1) / 1 - ⌈((2 : ℕ) : ℚ) / ((1 : ℕ) : ℚ)⌉₊
  norm_num

/-- In this run the error with the neighbour is at most the error without. -/
example : ∃ (a : DanseSt exCost) (i : Nat), ∀ κ : Fin exCost.nb,
    exCost.estErr 0 (exCost.heard 0 ((a.run.hist 0).take (i + 1))) κ (fun c => coef (a.run.cfg.wInt 0 (i + 1)) κ c) ≤
      exCost.estErr 0 (exCost.heardLoc 0 ((a.run.hist 0).take (i + 1))) κ (fun c => coef (a.run.cfg.wLoc 0 (i + 1)) κ c) := by
  obtain ⟨out, a, h1, h2, h3, h4, h5⟩ := exCost_run
  exact ⟨a, 5, C127_beats_local rfl (β := 1 / 2) (by norm_num) (by norm_num) rfl
    (fun m Rnn Ryy h κ => (of_decide_eq_true h) κ) rfl rfl (by change 0 < 1; norm_num) (fun _ _ _ _ => rfl) h2 h3 rfl rfl h5⟩

/-- Without `use1stFrameAsBasis` and for any signals (the default): (a) and (b). -/
example (y : Nat → List (List ℂ)) (hy : ∀ k < 2, ∀ ch ∈ y k, ch.length = 12) :
    ∃ a : DanseSt exOnline, ∀ i, 5 ≤ i → i < 9 → ∀ (κ : Fin exOnline.nb) (v : Fin (exOnline.dim 0) → ℂ),
      exOnline.estErr 0 (exOnline.heard 0 ((a.run.hist 0).take (i + 1))) κ (fun c => coef (a.run.cfg.wInt 0 (i + 1)) κ c) ≤
        exOnline.estErr 0 (exOnline.heard 0 ((a.run.hist 0).take (i + 1))) κ v := by
  obtain ⟨out, a, h1, h2, h3⟩ := exOnline_run y hy
  obtain ⟨h4, h5⟩ := h3 0 (by norm_num)
  exact ⟨a, fun i l1 l2 κ v => ((C127_best rfl (β := 1 / 2) (by norm_num) (by norm_num) rfl
    (fun m Rnn Ryy h κ => (of_decide_eq_true h) κ) (.inr fun m κ => (exOnline_R0 0 m κ).posSemidef) h2 (by omega) rfl rfl).1
    (h5 i l1 l2).1 κ v).1⟩

/-- TI-DANSE, for any signals. -/
example {x : Fin 4 → List ℂ} (hx : ∀ k, (x k).length = 12) :
    ∃ a : TIDanseSt 4 exTIOnline, ∀ (k : Fin 4) (o : TIObs ℂ), (a.run.node k).hist[5]? = some o → o.bypass = false →
      ∀ κ : Fin exTIOnline.nb, exTIOnline.estErr k (exTIOnline.tiHeard k ((a.run.node k).hist.take (5 + 1))) κ
          (fun c => coef (a.row k (5 + 1)) κ c) ≤
        exTIOnline.power k false (exTIOnline.tiHeard k ((a.run.node k).hist.take (5 + 1))) κ
          (fun c => if c.val = exTIOnline.g.refSensor then 1 else 0) := by
  obtain ⟨out, trees, a, h1, h2, h3, h4⟩ := exTIOnline_run hx
  exact ⟨a, fun k o ho hb κ => (C127_ti_beats rfl (β := 1 / 2) (by norm_num) (by norm_num) rfl
    (fun m Rnn Ryy h κ => (of_decide_eq_true h) κ) (.inr fun m κ => (exTIOnline_R0 k m κ).posSemidef) rfl
    (by change 0 < 1; norm_num) h2 h3 ho hb rfl ((h4 k).2 5 (by omega) (by omega)).1 (by rintro ⟨h, -⟩; cases h) κ).2⟩

end
end Danse
