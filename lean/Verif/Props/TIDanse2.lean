import Verif.Props.TIDanse

/-!
# Property C119 (continued): runs that meet the hypotheses
-/

namespace Danse
section
open scoped ComplexOrder

/-- Single-sensor nodes that do not fuse; frames of two samples, one new sample per frame. -/
noncomputable def exTIOnlineG : GivenCfg ℂ :=
  { N := 2, Ns := 1, ζ := -1, c := 1, h := [1, 1], f := [1 / 2, 1 / 2], nb := fun _ => [], fs := fun _ => 1,
    stamps := fun _ => [], bc := .few 1 false, upTDEvery := 1, noFusion := true, conv := false, refSensor := 0,
    wInt := fun _ _ => [[1, 1], [0, 0]], wExt := fun _ _ => [[1, 1], [0, 0]], wLoc := fun _ _ => [[1, 1]],
    rot := fun _ _ _ _ => 1 }

open Classical in
/-- Forgetting factor 1/2, identity matrices to begin with, every second frame active. -/
noncomputable def exTIOnline : DanseCfg ℂ :=
  { g := exTIOnlineG, M := fun _ => 1, use1st := false, beta := fun _ => ((1 / 2 : ℝ) : ℂ), startAfter := 3,
    bypassAll := false,
    valid := fun _ Rnn Ryy => decide (∀ κ, (Rnn κ).det ≠ 0 ∧ (Ryy κ).det ≠ 0),
    rule := mwfRule, cov0 := fun _ _ i j => if i = j then 1 else 0,
    vad := fun _ i => i % 2 == 0, bypass := fun _ _ => false, onlyRef := false, noRelax := false, seq := false,
    betaExt := fun _ => 1 / 2, alpha := 1 / 2, extEvery := 2, extTarget0 := fun _ => [[1, 1], [0, 0]],
    rot := fun _ _ _ _ => 1 }

theorem exTIOnline_R0 (k m : Nat) (κ : Fin exTIOnline.nb) : (exTIOnline.R0 k m κ).PosDef := by
  have : exTIOnline.R0 k m κ = 1 := by
    ext i j
    simp [DanseCfg.R0, exTIOnline, Matrix.one_apply, Fin.ext_iff]
  rw [this]
  exact Matrix.PosDef.one

theorem exTIOnline_sync {x : Fin 4 → List ℂ} (hx : ∀ k, (x k).length = 12) :
    SyncTI exTIOnline.g 1 12 (fun k => [x k]) :=
  ⟨Nat.one_pos, by change 1 < 2; norm_num, rfl, (by intro h; cases h),
    (by intro L eff h; injection h with a b; subst a b; exact ⟨rfl, le_refl _⟩), one_pos,
    by decide_cbv, fun _ => rfl, (by intro k ch h; simp at h; rw [h, hx]),
    by change syncBc (.few 1 false) 2 1 12 1 ≠ []; decide_cbv,
    by change syncUpTI (.few 1 false) 2 1 12 1 ≠ []; decide_cbv⟩

/-- The hypotheses of the theorems C119 are met: `C119_completes` gives a run of four nodes (in a star) on any
signals of 12 samples, in which each node makes 9 updates; updating (both of the filters of all channels and of
the local ones) has started at the sixth update. The times of the schedule are in order. -/
theorem exTIOnline_run {x : Fin 4 → List ℂ} (hx : ∀ k, (x k).length = 12) :
    ∃ out trees a, initEventsTI exTIOnline.g.bc 2 1 false false false 0 0 1 (syncNodes 1 12 [[], [], [], []])
        (fun r => (exTITree 0 r).2) (fun r => (exTITree 0 r).1) = .ok (out, [1, 1, 1, 1], trees) ∧
      tiDanseRun exTIOnline 12 (fun k => [x k]) (fun _ => []) trees out = .ok a ∧
      (out.map (·.t)).Pairwise (· ≤ ·) ∧
      ∀ k : Fin 4, (a.run.node k).hist.length = 9 ∧ ∀ i, 5 ≤ i → i < 9 →
        exTIOnline.Started k (exTIOnline.tiHeard k ((a.run.node k).hist.take (i + 1))) ∧
        exTIOnline.Started k (exTIOnline.tiHeardLoc k ((a.run.node k).hist.take (i + 1))) := by
  obtain ⟨out, trees, a, h1, h2⟩ := C119_completes (D := exTIOnline) rfl rfl (fun _ => Nat.one_pos)
    (fun _ => ⟨1 / 2, by norm_num, by norm_num, rfl⟩)
    (fun m Rnn Ryy h κ => (of_decide_eq_true h) κ) (.inr fun k m κ => (exTIOnline_R0 k m κ).posSemidef)
    (exTIOnline_sync hx) (by change 2 ∣ 2; norm_num) rfl (fun k => by simp [exTIOnline, exTIOnlineG, DanseCfg.nb])
    (nbs := [[], [], [], []]) rfl (keep := false) (sim := false) (ri := 0) (start := 0) 1 (by simp) (by decide)
    (fun r _ => exTITree_ok 0 r) (fun _ => [])
  refine ⟨out, trees, a, h1, h2, C119_times (exTIOnline_sync hx) rfl (by simp) (by decide)
    (fun r _ => exTITree_ok 0 r) h1, fun k => ?_⟩
  have hobs := C83_few (exTIOnline_sync hx) rfl (x := x) (fun q => rfl) (fun q => .inl ⟨rfl, rfl⟩)
    rfl (by simp) (by decide) (fun r _ => exTITree_ok 0 r) h1 (C119_instance h2) k
  have hts : (a.run.node k).hist.map (·.t) = (List.range 9).map fun (j : Nat) => (j : ℚ) + 2 := by
    have := congrArg (List.map Prod.fst) hobs
    rw [List.map_map, List.map_map] at this
    refine this.trans ?_
    have e : (12 - 1) / exTIOnline.g.Ns - ⌈(exTIOnline.g.N : ℚ) / exTIOnline.g.Ns⌉₊ = 9 := by
      change (12 - 1) / 1 - ⌈((2 : ℕ) : ℚ) / ((1 : ℕ) : ℚ)⌉₊ = 9
      norm_num
    rw [e]
    refine List.map_congr_left fun j _ => ?_
    change ((⌈((2 : ℕ) : ℚ) / ((1 : ℕ) : ℚ)⌉₊ + j : ℕ) : ℚ) * ((1 : ℕ) : ℚ) / 1 = _
    norm_num
    ring
  have hlen : (a.run.node k).hist.length = 9 := by simpa using congrArg List.length hts
  refine ⟨hlen, fun i h5 h9 => ?_⟩
  have ht6 : ((a.run.node k).hist.map (·.t))[5]? = some 7 := by
    rw [hts]
    decide +kernel
  have key : ∀ {m : Nat} (l : List (UpEv (Fin exTIOnline.nb) (Fin m) ℂ ℚ)), m ≤ 2 →
      l.map (·.vad) = (List.range (i + 1)).map (exTIOnline.vad k) →
      l.map (·.t) = ((a.run.node k).hist.take (i + 1)).map (·.t) → exTIOnline.Started k l := by
    intro m l hm hva hti
    have hll : l.length = i + 1 := by simpa using congrArg List.length hva
    have hcount : ∀ b : Bool, m < (framesWith b (l.take 6)).length := by
      intro b
      rw [framesWith_countP, List.map_take, hva, ← List.map_take, List.take_range, min_eq_left (by omega)]
      refine lt_of_le_of_lt hm ?_
      cases b <;> exact of_decide_eq_true rfl
    rw [C117_starts (b := 1 / 2) (by norm_num) (by norm_num) rfl rfl (fun κ => exTIOnline_R0 k m κ)
      (fun Rnn Ryy p q => decide_eq_true fun κ => ⟨ne_of_gt (p κ).det_pos, ne_of_gt (q κ).det_pos⟩)]
    refine ⟨5, l[5]'(by omega), List.getElem?_eq_getElem (by omega), ?_, hcount true, hcount false⟩
    have : (l.map (·.t))[5]? = some 7 := by
      rw [hti, List.map_take, List.getElem?_take_of_lt (by omega)]
      exact ht6
    rw [List.getElem?_map, List.getElem?_eq_getElem (by omega)] at this
    injection this with this
    change (3 : ℚ) ≤ _
    exact le_trans (by norm_num) (le_of_eq this.symm)
  have hl2 : ((a.run.node k).hist.take (i + 1)).length = i + 1 := by rw [List.length_take, hlen]; omega
  exact ⟨key _ (le_refl 2) (by rw [tiHeard_vad, hl2]) (tiHeard_t _ _),
    key _ (by change 1 ≤ 2; omega) (by rw [tiHeardLoc_vad, hl2]) (tiHeardLoc_t _ _)⟩

/-- `C119_wiener` applies to these runs: the filter of node 2 after its seventh update. -/
example {x : Fin 4 → List ℂ} (hx : ∀ k, (x k).length = 12) :
    ∃ out trees a, tiDanseRun exTIOnline 12 (fun k => [x k]) (fun _ => []) trees out = .ok a ∧
      ∀ o, (a.run.node 2).hist[6]? = some o → o.bypass = false →
        ∀ (κ : Fin exTIOnline.nb) (v : Fin 2 → ℂ),
          Matrix.mulVec (exTIOnline.scm 2 true (exTIOnline.tiHeard 2 ((a.run.node 2).hist.take 7)) κ) v =
          Matrix.mulVec (exTIOnline.scm 2 true (exTIOnline.tiHeard 2 ((a.run.node 2).hist.take 7)) κ -
            exTIOnline.scm 2 false (exTIOnline.tiHeard 2 ((a.run.node 2).hist.take 7)) κ) (Pi.single 0 1) ↔
          v = fun c : Fin 2 => coef (a.row 2 7) κ c := by
  obtain ⟨out, trees, a, h1, h2, h3, h4⟩ := exTIOnline_run hx
  refine ⟨out, trees, a, h2, fun o ho hb κ v => ?_⟩
  obtain ⟨_, h⟩ := (C119_wiener rfl h2 h3 ho hb rfl).1 ((h4 2).2 6 (by omega) (by omega)).1 (by
    rintro ⟨h, -⟩; cases h)
  exact h κ v

end

section
local instance exTISeqStar : StarRing ℚ := starRingOfComm

/-- Single-sensor nodes that update in turns; the update rule gives weight 2 for the sensor and for the sum; the initial
filters have the weight `w` on the sum. -/
def exTITurns (w : ℚ) : DanseCfg ℚ :=
  { g := { exHear with wInt := fun _ _ => [[1, 1], [w, w]], wExt := fun _ _ => [[1, 1], [w, w]],
                       wLoc := fun _ _ => [[1, 1]] },
    M := fun _ => 1, use1st := false, beta := fun _ => 1 / 2, startAfter := 0, bypassAll := false,
    valid := fun _ _ _ => true, rule := fun _ _ _ _ => .ok fun _ => 2, cov0 := fun _ _ _ _ => 0,
    vad := fun _ i => i % 2 == 0, bypass := fun _ _ => false, onlyRef := false, noRelax := false, seq := true,
    betaExt := fun _ => 1 / 2, alpha := 1 / 2, extEvery := 2, extTarget0 := fun _ => [[1, 1], [0, 0]],
    rot := fun _ _ _ _ => 1 }

/-- Signals of 12 samples. -/
def exTurnsSig (k : Fin 4) : List (List ℚ) := [[3, 1, 4, 1, 5, 9, 2, 6, 5, 3, 5, (k : Nat)]]

/-- The schedule in the star network around node 0 with one tree: the nodes update in turns. -/
def exTurnsOut : List (Instant ℚ) :=
  let ex := exTIEx [1, 2, 3, 0] [0, 1, 2, 3]
  ⟨0, exTIEvs .tr [0]⟩ :: ⟨1, ex⟩ :: (List.range 9).map fun (j : Nat) =>
    ⟨(j : ℚ) + 2, ex ++ (List.range 4).map fun k => ⟨k, .up, k != j % 4⟩⟩

set_option maxHeartbeats 4000000 in
example : (initEventsTI (.few 1 false) 2 1 true true false 0 0 1 (syncNodes 1 12 [[], [], [], []])
    (fun r => (exTITree 0 r).2) id).toOption = some (exTurnsOut, [1, 1, 1, 1], [0]) := by
  decide_cbv

/-- The run with weight 3 on the in-network sum before updating starts. Node 0 makes its own turns at its
updates 0, 4 and 8 and divides its weight on the sum in each of them: 3 and, once updating has started, 2 become 1.
The weight 2 on the sensor stays. Nodes in between copy their rows; node 1 has its turn at its update 5 and keeps
what the rule gave. -/
example : ((tiDanseRun (exTITurns 3) 12 exTurnsSig (fun _ => []) [(exTITree 0 0).1] exTurnsOut).toOption.map fun a =>
    ((List.range 10).map (a.row 0), (List.range 10).map (a.row 1), (a.run.node 0).started)) =
    some ([[[1, 1], [3, 3]]] ++ List.replicate 8 [[1, 1], [1, 1]] ++ [[[2, 2], [1, 1]]],
      List.replicate 6 [[1, 1], [3, 3]] ++ List.replicate 4 [[2, 2], [2, 2]], true) := by
  decide +kernel

/-- `C119_refuted_normalised` and `C119_rows` apply to the ninth update of node 0. -/
example : ∃ a o, tiDanseRun (exTITurns 3) 12 exTurnsSig (fun _ => []) [(exTITree 0 0).1] exTurnsOut = .ok a ∧
    (exTurnsOut.map (·.t)).Pairwise (· ≤ ·) ∧ (a.run.node 0).hist[8]? = some o ∧ (exTITurns 3).seq = true ∧
    o.bypass = false ∧ 1 ≤ o.t ∧ (exTITurns 3).bypassAll = false ∧
    (exTITurns 3).Started (0 : Fin 4) ((exTITurns 3).tiHeard (0 : Fin 4) ((a.run.node 0).hist.take 9)) := by
  have h1 : ((tiDanseRun (exTITurns 3) 12 exTurnsSig (fun _ => []) [(exTITree 0 0).1] exTurnsOut).toOption.map fun a =>
      ((a.run.node 0).hist.map fun o => (o.t, o.bypass), (a.run.node 0).started)) =
      some ((List.range 9).map fun (j : Nat) => ((j : ℚ) + 2, j % 4 != 0), true) := by
    decide +kernel
  rcases hr : tiDanseRun (exTITurns 3) 12 exTurnsSig (fun _ => []) [(exTITree 0 0).1] exTurnsOut with e | a
  · rw [hr] at h1; cases h1
  · rw [hr] at h1
    injection h1 with h1
    injection h1 with h1 h2
    have hl : (a.run.node 0).hist.length = 9 := by simpa using congrArg List.length h1
    have h3 : (((a.run.node 0).hist.map fun o => (o.t, o.bypass)))[8]? = some (10, false) := by
      rw [h1]; decide +kernel
    rw [List.getElem?_map, List.getElem?_eq_getElem (by omega)] at h3
    injection h3 with h3
    injection h3 with h3 h4
    refine ⟨a, _, rfl, by decide +kernel, List.getElem?_eq_getElem (by omega), rfl, h4, ?_, rfl, ?_⟩
    · rw [h3]; norm_num
    · rw [List.take_of_length_le (by omega)]
      exact (C119_started hr 0).1 h2

/-- With the default initial filters (weight zero on the sum) the run does not get past the first own turn of
node 0; so it is with the hypotheses of `C119_refuted_default`. -/
example : (match tiDanseRun (exTITurns 0) 12 exTurnsSig (fun _ => []) [(exTITree 0 0).1] exTurnsOut with
    | .error e => some e
    | .ok _ => none) = some PyErr.nan := by
  decide +kernel

/-- `C119_topology` applies to these runs and the star network around node 2. -/
example {out out' : List (Instant ℚ)} {f f' : List ℚ} {tr tr' : List (TreeObj 4)} {a : TIDanseSt 4 (exTITurns 3)}
    (h : initEventsTI (.few 1 false) 2 1 true false false 0 0 1 (syncNodes 1 12 [[], [], [], []])
      (fun r => (exTITree 0 r).2) (fun r => (exTITree 0 r).1) = .ok (out, f, tr))
    (h' : initEventsTI (.few 1 false) 2 1 true true false 0 0 1 (syncNodes 1 12 [[], [], [], []])
      (fun r => (exTITree 2 r).2) (fun r => (exTITree 2 r).1) = .ok (out', f', tr'))
    (hs : tiDanseRun (exTITurns 3) 12 exTurnsSig (fun _ => []) tr out = .ok a) :
    ∃ a', tiDanseRun (exTITurns 3) 12 exTurnsSig (fun _ => []) tr' out' = .ok a' ∧ a'.node = a.node ∧
      a'.run.node = a.run.node :=
  C119_topology (D := exTITurns 3)
    ⟨by decide, by decide, by decide, (by intro h; cases h), (by intro L eff h; cases h; decide), by decide,
      by decide_cbv, fun _ => rfl, by decide, by change syncBc (.few 1 false) 2 1 12 1 ≠ []; decide_cbv,
      by change syncUpTI (.few 1 false) 2 1 12 1 ≠ []; decide_cbv⟩
    rfl rfl (by simp) (by decide) (fun r _ => exTITree_ok 0 r) (fun r _ => exTITree_ok 2 r) h h' _ hs

end
end Danse
