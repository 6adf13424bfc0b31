import Verif.Props.Total2
import Verif.Props.CostEx
import Verif.Props.DanseCentr
import Verif.Props.DanseCentr2

/-!
# Properties C130 and C131 (continued): runs that meet the hypotheses
-/

namespace Danse
section
open scoped ComplexOrder Matrix

/-- The two nodes of `exOnline` with whole-chunk broadcasts and both further estimates. -/
noncomputable def exCentrOf (u : Bool) : CDanseCfg ℂ :=
  { D := { exOnline with
      g := { exOnlineG with bc := .whole, stamps := fun _ => clockStamps 1 12 }
      use1st := u }
    n := 2, centr := true, ssbc := true, compensateSROs := false
    cvad := fun i => i % 2 == 0
    wC0 := fun _ _ => [[1, 1], [0, 0]], wS0 := fun _ _ => [[1, 1], [0, 0]], rotC := fun _ _ _ _ => 1 }

theorem exCentr_R0 (u : Bool) (k m : Nat) (κ : Fin (exCentrOf u).D.nb) : ((exCentrOf u).D.R0 k m κ).PosDef := exOnline_R0 k m κ

theorem exCentr_gd (u : Bool) : GoodNeighbours (exCentrOf u).D.g.nb :=
  ⟨fun k => by change [if k % 2 = 0 then k + 1 else k - 1].Nodup; simp, fun k q => by
      change q ∈ [if k % 2 = 0 then k + 1 else k - 1] → k ∈ [if q % 2 = 0 then q + 1 else q - 1]
      simp only [List.mem_singleton]; split <;> split <;> omega⟩

/-- A synchronous run of the two nodes completes, on any two signals of 12 samples. -/
theorem exCentr_run (u : Bool) (y : Nat → List (List ℂ)) (hM : ∀ q, (y q).length = 1)
    (hy : ∀ k < 2, ∀ ch ∈ y k, ch.length = 12) :
    ∃ out a, (exCentrOf u).Sync y 1 12 [[1], [0]] out ∧ cdanseRun (exCentrOf u) y 12 (flatEvents out) = .ok a ∧
      ∀ k < 2, evUps (flatEvents out) k = 9 := by
  have hf : inferFs (clockStamps 1 12) = .ok 1 := by decide_cbv
  obtain ⟨out, h3, h4, -⟩ := C78_schedule (bc := (.whole : BcType)) (N := 2) (Ns := 1) (n := 12) one_pos (by norm_num)
    (one_pos : (0 : ℚ) < 1) hf (fun _ => one_dvd _) (by intro L e h; cases h)
    [[1], [0]] (seq := false) (sim := false) (r := 0) 0 0 (by simp)
  have hs : (exCentrOf u).Sync y 1 12 [[1], [0]] out :=
    { hn := by norm_num
      hfs := one_pos
      infer := hf
      neighbours := by decide
      nodes := rfl
      clock := fun _ => rfl
      stamps := fun _ => rfl
      bc := .inl rfl
      sensors := hM
      samples := hy
      hN := Nat.two_pos
      hNs := Nat.one_pos
      dvd := one_dvd _
      sched := ⟨false, false, 0, 0, 0, _, by simp, h3⟩ }
  obtain ⟨a, ha⟩ := C131_centr (C := exCentrOf u) (y := y) rfl rfl (fun _ => Nat.one_pos)
    (fun _ => ⟨1 / 2, by norm_num, by norm_num, rfl⟩) (fun m Rnn Ryy h κ => (of_decide_eq_true h) κ)
    (.inr fun k m κ => (exCentr_R0 u k m κ).posSemidef) (fun _ _ => .inr fun _ => rfl) (fun _ => ⟨rfl, fun _ _ => rfl⟩)
    hs rfl rfl rfl rfl (exCentr_gd u)
    (by intro q hq k hk; change k ∈ [if q % 2 = 0 then q + 1 else q - 1] at hk; simp at hk hq ⊢; split at hk <;> omega)
    (fun k i => by simp [exCentrOf, exOnline, exOnlineG, DanseCfg.nb])
  refine ⟨out, a, hs, ha, fun k hk => ?_⟩
  rw [← evUps_length, (h4 k hk).1, everySep_length]
  decide +kernel

/-- One click in each recording, and a second one in the first recording. -/
noncomputable def exCentrY (k : Nat) : List (List ℂ) :=
  if k = 0 then [[1, 0, 0, 0, 0, 1, 0, 0, 0, 0, 0, 0]] else [[0, 0, 1, 0, 0, 0, 0, 0, 0, 0, 0, 0]]

/-- Three frames that span all the space. -/
theorem three_frames' {B : Nat} {f0 f1 f2 : Frame (Fin B) (Fin 2) ℂ} {κ : Fin B} {s : ℂ} (hs : s = 1 ∨ s = -1)
    (h : (f0 κ 0 = s ∧ f0 κ 1 = 0 ∧ f1 κ 0 = 0 ∧ f1 κ 1 = s ∧ f2 κ 0 = 0 ∧ f2 κ 1 = 0) ∨
      (f0 κ 0 = 1 ∧ f0 κ 1 = 0 ∧ f1 κ 0 = 0 ∧ f1 κ 1 = 1 ∧ f2 κ 0 = s ∧ f2 κ 1 = 0)) :
    (expWeighted (1 / 2 : ℂ) (rankOne f0) [f1, f2] κ).det ≠ 0 := by
  rw [Matrix.det_fin_two]
  unfold expWeighted
  simp only [List.length_cons, List.length_nil, List.zipIdx_cons, List.zipIdx_nil, List.map_cons, List.map_nil, List.sum_cons,
    List.sum_nil, Matrix.add_apply, Matrix.smul_apply, rankOne_entry, smul_eq_mul, Matrix.zero_apply]
  rcases hs with rfl | rfl <;> rcases h with ⟨a, b, c, d, e, f⟩ | ⟨a, b, c, d, e, f⟩ <;> simp [a, b, c, d, e, f] <;> norm_num

/-- The first six of the observations. -/
theorem exCentr_recorded (x0 x1 : List ℂ) :
    ∃ F : Nat → Frame (Fin (exCentrOf true).D.nb) (Fin 2) ℂ,
    ((exCentrOf true).recorded [x0, x1] 2 (fun i => i % 2 == 0) (fun _ => false) 1 12).take 6 = (List.range 6).map (fun (i : Nat) =>
      (⟨F i, i % 2 == 0, (i : ℚ) + 2, false⟩ : UpEv (Fin (exCentrOf true).D.nb) (Fin 2) ℂ ℚ)) ∧
    ∀ i < 6, ∀ κ c, F i κ c = at0 (analysis (-1) 2 1 [1, 1] (frameBefore 2 (([x0, x1] : List (List ℂ)).getD c []) (i + 1))) κ := by
  have e2 : ⌈((2 : ℕ) : ℚ) / ((1 : ℕ) : ℚ)⌉₊ = 2 := by norm_num
  refine ⟨fun i κ c => at0 (analysis (-1) 2 1 [1, 1] (frameBefore 2 (([x0, x1] : List (List ℂ)).getD c []) (i + 1))) κ, ?_,
    fun _ _ _ _ => rfl⟩
  unfold CDanseCfg.recorded
  change (List.map _ (List.range ((12 - 1) / 1 - ⌈((2 : ℕ) : ℚ) / ((1 : ℕ) : ℚ)⌉₊))).take 6 = _
  rw [e2, ← List.map_take, List.take_range, min_eq_left (by norm_num)]
  apply List.map_congr_left
  intro i hi
  have e3 : (⌈((exCentrOf true).D.g.N : ℚ) / (exCentrOf true).D.g.Ns⌉₊ + i) * (exCentrOf true).D.g.Ns - (exCentrOf true).lag = i + 1 := by
    change (⌈((2 : ℕ) : ℚ) / ((1 : ℕ) : ℚ)⌉₊ + i) * 1 - 1 = i + 1
    rw [e2]; omega
  have e4 : ((⌈((exCentrOf true).D.g.N : ℚ) / (exCentrOf true).D.g.Ns⌉₊ + i : Nat) : ℚ) * (exCentrOf true).D.g.Ns / 1 = (i : ℚ) + 2 := by
    change ((⌈((2 : ℕ) : ℚ) / ((1 : ℕ) : ℚ)⌉₊ + i : Nat) : ℚ) * ((1 : ℕ) : ℚ) / 1 = (i : ℚ) + 2
    rw [e2]; push_cast; ring
  simp only [e3, e4]
  rfl

theorem exCentr_valid {F : Nat → Frame (Fin (exCentrOf true).D.nb) (Fin 2) ℂ}
    (hF : ∀ i < 6, ∀ κ c, F i κ c = at0 (analysis (-1) 2 1 [1, 1]
      (frameBefore 2 (([[1, 0, 0, 0, 0, 1, 0, 0, 0, 0, 0, 0], [0, 0, 1, 0, 0, 0, 0, 0, 0, 0, 0, 0]] : List (List ℂ)).getD c []) (i + 1))) κ)
    (κ : Fin (exCentrOf true).D.nb) :
    (expWeighted (((1 / 2 : ℝ)) : ℂ) (rankOne (F 1)) [F 3, F 5] κ).det ≠ 0 ∧
    (expWeighted (((1 / 2 : ℝ)) : ℂ) (rankOne (F 0)) [F 2, F 4] κ).det ≠ 0 := by
  have hκ : κ.val < 2 := κ.isLt
  have hv : ∀ i < 6, F i κ 0 = (if i = 1 then 1 else 0) + (-1) ^ κ.val * (if i = 0 ∨ i = 5 then 1 else 0) ∧
      F i κ 1 = (if i = 3 then 1 else 0) + (-1) ^ κ.val * (if i = 2 then 1 else 0) := by
    intro i hi
    rw [hF i hi κ 0, hF i hi κ 1]
    have : i = 0 ∨ i = 1 ∨ i = 2 ∨ i = 3 ∨ i = 4 ∨ i = 5 := by omega
    rcases this with rfl | rfl | rfl | rfl | rfl | rfl <;>
      exact ⟨(analysis_two _ _ hκ).trans (by norm_num [at0]), (analysis_two _ _ hκ).trans (by norm_num [at0])⟩
  have hsgn : ((-1 : ℂ) ^ κ.val = 1 ∨ (-1 : ℂ) ^ κ.val = -1) := neg_one_pow_eq_or ℂ _
  rw [show (((1 / 2 : ℝ)) : ℂ) = 1 / 2 by push_cast; rfl]
  constructor
  · refine three_frames' hsgn (.inr ⟨?_, ?_, ?_, ?_, ?_, ?_⟩) <;>
      first | rw [(hv _ (by norm_num)).1] | rw [(hv _ (by norm_num)).2]
    all_goals norm_num
  · refine three_frames' hsgn (.inl ⟨?_, ?_, ?_, ?_, ?_, ?_⟩) <;>
      first | rw [(hv _ (by norm_num)).1] | rw [(hv _ (by norm_num)).2]
    all_goals norm_num

theorem exCentr_startedC {F : Nat → Frame (Fin (exCentrOf true).D.nb) (Fin 2) ℂ} {L : List (UpEv (Fin (exCentrOf true).D.nb) (Fin 2) ℂ ℚ)}
    (hL : L = (List.range 6).map (fun (i : Nat) =>
      (⟨F i, i % 2 == 0, (i : ℚ) + 2, false⟩ : UpEv (Fin (exCentrOf true).D.nb) (Fin 2) ℂ ℚ)))
    (hF : ∀ i < 6, ∀ κ c, F i κ c = at0 (analysis (-1) 2 1 [1, 1]
      (frameBefore 2 (([[1, 0, 0, 0, 0, 1, 0, 0, 0, 0, 0, 0], [0, 0, 1, 0, 0, 0, 0, 0, 0, 0, 0, 0]] : List (List ℂ)).getD c []) (i + 1))) κ) :
    (exCentrOf true).StartedC 0 L := by
  subst hL
  refine ⟨(List.range 5).map (fun (i : Nat) =>
        (⟨F i, i % 2 == 0, (i : ℚ) + 2, false⟩ : UpEv (Fin (exCentrOf true).D.nb) (Fin 2) ℂ ℚ)), ⟨F 5, 5 % 2 == 0, ((5 : ℕ) : ℚ) + 2, false⟩, ?_, ?_, ?_, ?_, ?_⟩
  · exact List.prefix_refl _
  · change (3 : ℚ) ≤ ((5 : ℕ) : ℚ) + 2
    norm_num
  · erw [List.length_map, List.length_range]
    change 2 < ((List.range 6).filter fun i => i % 2 == 0).length
    decide
  · erw [List.length_map, List.length_range]
    change 2 < ((List.range 6).filter fun i => !(i % 2 == 0)).length
    decide
  · exact decide_eq_true fun κ => exCentr_valid hF κ

theorem exCentr_startedS {F : Nat → Frame (Fin (exCentrOf true).D.nb) (Fin 2) ℂ} {L : List (UpEv (Fin (exCentrOf true).D.nb) (Fin 2) ℂ ℚ)}
    (hL : L = (List.range 6).map (fun (i : Nat) =>
      (⟨F i, i % 2 == 0, (i : ℚ) + 2, false⟩ : UpEv (Fin (exCentrOf true).D.nb) (Fin 2) ℂ ℚ)))
    (hF : ∀ i < 6, ∀ κ c, F i κ c = at0 (analysis (-1) 2 1 [1, 1]
      (frameBefore 2 (([[1, 0, 0, 0, 0, 1, 0, 0, 0, 0, 0, 0], [0, 0, 1, 0, 0, 0, 0, 0, 0, 0, 0, 0]] : List (List ℂ)).getD c []) (i + 1))) κ) :
    (exCentrOf true).D.Started 0 L := by
  subst hL
  refine ⟨(List.range 5).map (fun (i : Nat) =>
        (⟨F i, i % 2 == 0, (i : ℚ) + 2, false⟩ : UpEv (Fin (exCentrOf true).D.nb) (Fin 2) ℂ ℚ)), ⟨F 5, 5 % 2 == 0, ((5 : ℕ) : ℚ) + 2, false⟩, ?_, ?_, ?_, ?_, ?_⟩
  · exact List.prefix_refl _
  · change (3 : ℚ) ≤ ((5 : ℕ) : ℚ) + 2
    norm_num
  · change 2 < 3; norm_num
  · change 2 < 3; norm_num
  · exact decide_eq_true fun κ => exCentr_valid hF κ

theorem heardS_take {C : CDanseCfg ℂ} (k : Nat) (h : List (CObs ℂ)) (i : Nat) :
    C.heardS k (h.take i) = (C.heardS k h).take i := by
  apply List.ext_getElem?
  intro j
  unfold CDanseCfg.heardS
  by_cases hj : j < i
  · rw [List.getElem?_take_of_lt hj, List.getElem?_map, List.getElem?_map, List.getElem?_zipIdx, List.getElem?_zipIdx,
      List.getElem?_take_of_lt hj]
  · rw [List.getElem?_eq_none (by simp; omega), List.getElem?_eq_none (by simp; omega)]

/-- A run with `use1stFrameAsBasis` on the clicks; both further estimates of node 0 have started at the sixth update. -/
theorem exCentr_clicks : ∃ out a, (exCentrOf true).Sync exCentrY 1 12 [[1], [0]] out ∧
    cdanseRun (exCentrOf true) exCentrY 12 (flatEvents out) = .ok a ∧ evUps (flatEvents out) 0 = 9 ∧
    (exCentrOf true).StartedC 0 ((exCentrOf true).heardC 0 ((a.chist 0).take (5 + 1))) ∧
    (exCentrOf true).D.Started 0 ((exCentrOf true).heardS 0 ((a.chist 0).take (5 + 1))) := by
  obtain ⟨out, a, hs, ha, hu⟩ := exCentr_run true exCentrY (fun q => by unfold exCentrY; split <;> rfl) (by
    intro k _ ch hch
    unfold exCentrY at hch
    split at hch <;> (rw [List.mem_singleton] at hch; subst hch; rfl))
  refine ⟨out, a, hs, ha, hu 0 (by norm_num), ?_, ?_⟩
  · rw [heardC_take, C130_heard hs rfl (k := 0) Nat.two_pos (fun _ _ _ => rfl) ha]
    obtain ⟨F, hw, hF⟩ := exCentr_recorded [1, 0, 0, 0, 0, 1, 0, 0, 0, 0, 0, 0] [0, 0, 1, 0, 0, 0, 0, 0, 0, 0, 0, 0]
    change (exCentrOf true).StartedC 0 (((exCentrOf true).recorded _ 2 (fun i => i % 2 == 0) (fun _ => false) 1 12).take 6)
    rw [show (List.range (exCentrOf true).n).flatMap exCentrY =
      [[1, 0, 0, 0, 0, 1, 0, 0, 0, 0, 0, 0], [0, 0, 1, 0, 0, 0, 0, 0, 0, 0, 0, 0]] by
        change (List.range 2).flatMap exCentrY = _
        simp [List.range_succ, exCentrY]]
    exact exCentr_startedC hw hF
  · rw [heardS_take, C130_heard_single hs rfl rfl (fun _ _ => Nat.one_pos) (k := 0) Nat.two_pos ha]
    obtain ⟨F, hw, hF⟩ := exCentr_recorded [1, 0, 0, 0, 0, 1, 0, 0, 0, 0, 0, 0] [0, 0, 1, 0, 0, 0, 0, 0, 0, 0, 0, 0]
    change (exCentrOf true).D.Started 0 (((exCentrOf true).recorded _ 2 (fun i => i % 2 == 0) (fun _ => false) 1 12).take 6)
    rw [show (exCentrY 0 ++ ((exCentrOf true).others 0).map fun q => (exCentrY q).getD 0 []) =
      [[1, 0, 0, 0, 0, 1, 0, 0, 0, 0, 0, 0], [0, 0, 1, 0, 0, 0, 0, 0, 0, 0, 0, 0]] by
        change exCentrY 0 ++ ((List.range 2).filter fun q => q ≠ 0).map (fun q => (exCentrY q).getD 0 []) = _
        simp [List.range_succ, exCentrY]]
    exact exCentr_startedS hw hF

/-- C130 (a)-(d) in this run. -/
example : ∃ a : CDanseSt (exCentrOf true), ∃ evs, (∃ b, danseRun (exCentrOf true).D exCentrY 12 evs = .ok b ∧ b.run.st = a.st.base) ∧
    (∀ i < 9, (exCentrOf true).RowOkC 0 ((exCentrOf true).heardC 0 ((a.chist 0).take (i + 1))) false (a.cfg.wC 0 i)
      [[1, 1], [0, 0]] (a.cfg.wC 0 (i + 1))) ∧
    ∀ i < 9, (exCentrOf true).D.RowOk 0 ((exCentrOf true).heardS 0 ((a.chist 0).take (i + 1))) false (a.cfg.wS 0 i)
      [[1, 1], [0, 0]] (a.cfg.wS 0 (i + 1)) := by
  obtain ⟨out, a, hs, ha, hu, h1, h2⟩ := exCentr_clicks
  obtain ⟨b, h3, h4, -⟩ := C130_only_adds ha
  exact ⟨a, _, ⟨b, h3, h4⟩, fun i hi => C130_rows rfl ha (.inr fun _ => rfl) (by rw [hu]; exact hi),
    fun i hi => C130_rows_single rfl ha (by rw [hu]; exact hi)⟩

/-- C130 (e)-(h) in this run: its sixth update gives the centralised multichannel Wiener filter, and more sensors do not hurt. -/
example : ∃ a : CDanseSt (exCentrOf true), ∀ κ : Fin (exCentrOf true).D.nb,
    (exCentrOf true).D.scm 0 true ((exCentrOf true).heardC 0 ((a.chist 0).take 6)) κ *ᵥ
        (fun c : Fin (exCentrOf true).total => coef (a.cfg.wC 0 6) κ c) =
      ((exCentrOf true).D.scm 0 true ((exCentrOf true).heardC 0 ((a.chist 0).take 6)) κ -
        (exCentrOf true).D.scm 0 false ((exCentrOf true).heardC 0 ((a.chist 0).take 6)) κ) *ᵥ
          Pi.single ⟨0, Nat.two_pos⟩ 1 ∧
    (exCentrOf true).D.estErrAt 0 0 ((exCentrOf true).heardC 0 ((a.chist 0).take 6)) κ (fun c => coef (a.cfg.wC 0 6) κ c) ≤
      (exCentrOf true).D.estErr 0 ((exCentrOf true).heardS 0 ((a.chist 0).take 6)) κ (fun c => coef (a.cfg.wS 0 6) κ c) ∧
    (exCentrOf true).D.estErr 0 ((exCentrOf true).heardS 0 ((a.chist 0).take 6)) κ (fun c => coef (a.cfg.wS 0 6) κ c) ≤
      (exCentrOf true).D.estErr 0 ((exCentrOf true).D.heardLoc 0 ((a.hist 0).take 6)) κ (fun c => coef (a.cfg.g.wLoc 0 6) κ c) := by
  obtain ⟨out, a, hs, ha, hu, h1, h2⟩ := exCentr_clicks
  refine ⟨a, fun κ => ?_⟩
  obtain ⟨href, hw⟩ := C130_wiener rfl rfl ha (.inr fun _ => rfl) (i := 5) (by rw [hu]; norm_num) rfl rfl h1
  have ho := C130_order (C := exCentrOf true) rfl rfl rfl (k := 0) (β := 1 / 2) (by norm_num) (by norm_num) rfl
    (fun m Rnn Ryy h κ => (of_decide_eq_true h) κ) (fun _ => rfl) rfl Nat.two_pos hs.sensors
    (fun q hq x hx => by rw [hs.samples q hq x hx]; exact (by norm_num : 2 ≤ 12)) (cdanse_times hs).2 Nat.two_pos
    (fun t ht => (cdanse_long hs Nat.two_pos ht).2) (fun _ _ => Nat.one_pos) Nat.one_pos (fun _ _ _ => rfl) ha (i := 5)
    (by rw [hu]; norm_num) rfl rfl κ
  exact ⟨(hw κ _).mpr rfl, ho.1 h1, ho.2 h2⟩

/-- C130 (i)-(k) and C131 for all signals, without `use1stFrameAsBasis`. -/
example (y : Nat → List (List ℂ)) (hM : ∀ q, (y q).length = 1) (hy : ∀ k < 2, ∀ ch ∈ y k, ch.length = 12) :
    ∃ out a, cdanseRun (exCentrOf false) y 12 (flatEvents out) = .ok a ∧
      (exCentrOf false).heardC 1 (a.chist 1) =
        (exCentrOf false).recorded (y 0 ++ y 1) 2 (fun i => i % 2 == 0) (fun _ => false) 1 12 ∧
      ∀ i b, (exCentrOf false).D.scm 0 b ((exCentrOf false).heardC 0 ((a.chist 0).take i)) =
        (exCentrOf false).D.scm 1 b ((exCentrOf false).heardC 1 ((a.chist 1).take i)) := by
  obtain ⟨out, a, hs, ha, hu⟩ := exCentr_run false y hM hy
  refine ⟨out, a, ha, ?_, fun i b => C130_same hs rfl Nat.two_pos (by decide : 1 < 2) (fun _ _ _ => rfl) (fun _ _ _ => rfl) rfl
    (fun _ => rfl) ha i b⟩
  rw [C130_heard hs rfl (by decide : 1 < 2) (fun _ _ _ => rfl) ha]
  change (exCentrOf false).recorded ((List.range 2).flatMap y) 2 _ _ 1 12 = _
  rw [show (List.range 2).flatMap y = y 0 ++ y 1 by simp [List.range_succ]]
  rfl

end
end Danse
