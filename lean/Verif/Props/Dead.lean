import Verif.Proofs.Dead2
import Verif.Props.ScaleTI

/-!
# Property C124: sensors without information of their own stop the adaptation

`danseRun D y T evs` is the main loop of `danse` on the recording `y` (signals of node `k`: `y k`) over the schedule
`evs`; rows `0 .. evUps evs k` of `a.run.cfg.wInt k` and `a.run.cfg.wLoc k` are the DANSE and the local filters
that node `k` has had, `D.g.wInt k 0` and `D.g.wLoc k 0` the initial ones. All the theorems are about
`use1stFrameAsBasis` (`hu`) and a rank test that passes matrices of full rank only (`hv`).
-/

namespace Danse
section
variable {K : Type} [Field K] [StarRing K] [DecidableEq K] {D : DanseCfg K} {y : Nat → List (List K)}
  {T : Nat} {evs : List (ℚ × Nat × EvType)} {a : DanseSt D}

/-- C124 (general): if in one single bin the channels of all the active frames (or of all the inactive frames) that a
node hears satisfy one and the same linear equation, then the node keeps its initial filters for the whole run. The
same holds for its local filters, with its own channels. -/
theorem C124_redundant (h : danseRun D y T evs = .ok a) (hu : D.use1st = true) (hv : D.FullRankTest) {k : Nat} {b : Bool}
    {κ : Fin D.nb} :
    (∀ v, Redundant (D.heard k (a.run.hist k)) b κ v → (∀ j, D.g.wInt k j = D.g.wInt k 0) →
      ∀ i ≤ evUps evs k, D.SameFilter (D.dim k) (a.run.cfg.wInt k i) (D.g.wInt k 0)) ∧
    (∀ v, Redundant (D.heardLoc k (a.run.hist k)) b κ v → (∀ j, D.g.wLoc k j = D.g.wLoc k 0) →
      ∀ i ≤ evUps evs k, D.SameFilter (D.M k) (a.run.cfg.wLoc k i) (D.g.wLoc k 0)) :=
  ⟨fun v hr => (danseRun_frozen h hu hv).1 ⟨b, κ, v, hr⟩, fun v hr => (danseRun_frozen h hu hv).2 ⟨b, κ, v, hr⟩⟩

/-- C124 (a dead sensor): if one sensor of a node records zeros only, the node keeps its initial DANSE and local filters
for the whole run, however good its other sensors are. -/
theorem C124_dead_sensor (h : danseRun D y T evs = .ok a) (hu : D.use1st = true) (hv : D.FullRankTest) {k c : Nat}
    (hc : c < D.M k) {ch : List K} (hch : (y k)[c]? = some ch) (hs : Silent ch)
    (h1 : ∀ j, D.g.wInt k j = D.g.wInt k 0) (h2 : ∀ j, D.g.wLoc k j = D.g.wLoc k 0) :
    ∀ i ≤ evUps evs k, D.SameFilter (D.dim k) (a.run.cfg.wInt k i) (D.g.wInt k 0) ∧
      D.SameFilter (D.M k) (a.run.cfg.wLoc k i) (D.g.wLoc k 0) := by
  have hsil : ∀ o ∈ a.run.hist k, Silent (o.loc.getD c []) ∧ Silent ((o.loc ++ o.z).getD c []) := by
    intro o ho
    obtain ⟨fr, hfr, p, hp⟩ := loc_channel h hch ho
    have := silent_localChunk hs hp
    constructor
    · rw [List.getD_eq_getElem?_getD, hfr]; exact this
    · rw [List.getD_eq_getElem?_getD, getElem?_append_some hfr]; exact this
  have r1 : Redundant (D.heard k (a.run.hist k)) true (⟨0, by unfold DanseCfg.nb; omega⟩ : Fin D.nb)
      (Pi.single ⟨c, by unfold DanseCfg.dim; omega⟩ 1) := by
    refine ⟨by simp [Pi.single_eq_zero_iff], fun e he _ => sum_single_zero ?_⟩
    obtain ⟨o, ho, i, hy⟩ := mem_heard he
    rw [hy, coef_silent (hsil o ho).2, zero_mul]
  have r2 : Redundant (D.heardLoc k (a.run.hist k)) true (⟨0, by unfold DanseCfg.nb; omega⟩ : Fin D.nb)
      (Pi.single ⟨c, hc⟩ 1) := by
    refine ⟨by simp [Pi.single_eq_zero_iff], fun e he _ => sum_single_zero ?_⟩
    obtain ⟨o, ho, hy⟩ := mem_heardLoc he
    rw [hy, coef_silent (hsil o ho).1]
  exact fun i hi => ⟨(danseRun_frozen h hu hv).1 ⟨_, _, _, r1⟩ h1 i hi, (danseRun_frozen h hu hv).2 ⟨_, _, _, r2⟩ h2 i hi⟩

/-- C124 (two sensors with the same signal): the same holds if one sensor of a node records a multiple of what another
sensor of it records, its copy for instance (if the two channels get the same phase factors). -/
theorem C124_twin_sensors (h : danseRun D y T evs = .ok a) (hu : D.use1st = true) (hv : D.FullRankTest) {k c c' : Nat}
    (hc : c < D.M k) (hc' : c' < D.M k) (hne : c ≠ c') {ch : List K} {g : K} (hch : (y k)[c]? = some ch)
    (hch' : (y k)[c']? = some (scaled g ch)) (hr : ∀ l κ, D.rot k l c κ = D.rot k l c' κ)
    (h1 : ∀ j, D.g.wInt k j = D.g.wInt k 0) (h2 : ∀ j, D.g.wLoc k j = D.g.wLoc k 0) :
    ∀ i ≤ evUps evs k, D.SameFilter (D.dim k) (a.run.cfg.wInt k i) (D.g.wInt k 0) ∧
      D.SameFilter (D.M k) (a.run.cfg.wLoc k i) (D.g.wLoc k 0) := by
  have hmul : ∀ o ∈ a.run.hist k, ∃ fr, o.loc[c]? = some fr ∧ o.loc[c']? = some (scaled g fr) := by
    intro o ho
    obtain ⟨fr, hfr, p, hp⟩ := loc_channel h hch ho
    obtain ⟨fr', hfr', p', hp'⟩ := loc_channel h hch' ho
    exact ⟨fr, hfr, by rw [hfr', scaled_localChunk_inv hp hp']⟩
  have r1 : Redundant (D.heard k (a.run.hist k)) true (⟨0, by unfold DanseCfg.nb; omega⟩ : Fin D.nb)
      (Pi.single ⟨c, by unfold DanseCfg.dim; omega⟩ g - Pi.single ⟨c', by unfold DanseCfg.dim; omega⟩ 1) := by
    refine ⟨pair_ne_zero (by simpa using hne) g, fun e he _ => sum_pair_zero ?_⟩
    obtain ⟨o, ho, i, hy⟩ := mem_heard he
    obtain ⟨fr, e1, e2⟩ := hmul o ho
    rw [hy, hy, coef_multiple (getElem?_append_some e1) (getElem?_append_some e2), hr, mul_assoc]
  have r2 : Redundant (D.heardLoc k (a.run.hist k)) true (⟨0, by unfold DanseCfg.nb; omega⟩ : Fin D.nb)
      (Pi.single ⟨c, hc⟩ g - Pi.single ⟨c', hc'⟩ 1) := by
    refine ⟨pair_ne_zero (by simpa using hne) g, fun e he _ => sum_pair_zero ?_⟩
    obtain ⟨o, ho, hy⟩ := mem_heardLoc he
    obtain ⟨fr, e1, e2⟩ := hmul o ho
    rw [hy, hy, coef_multiple e1 e2]
  exact fun i hi => ⟨(danseRun_frozen h hu hv).1 ⟨_, _, _, r1⟩ h1 i hi, (danseRun_frozen h hu hv).2 ⟨_, _, _, r2⟩ h2 i hi⟩

/-- C124 (a dead node): if all the sensors of a node record zeros, none of its neighbours (in a fully connected network:
no node) changes its DANSE filters during the whole run. -/
theorem C124_dead_node (h : danseRun D y T evs = .ok a) (hu : D.use1st = true) (hv : D.FullRankTest)
    (gd : GoodNeighbours D.g.nb) {q : Nat} (hq : ∀ ch ∈ y q, Silent ch) {k : Nat} (hk : q ∈ D.g.nb k)
    (hM : (y k).length = D.M k) (h1 : ∀ j, D.g.wInt k j = D.g.wInt k 0) :
    ∀ i ≤ evUps evs k, D.SameFilter (D.dim k) (a.run.cfg.wInt k i) (D.g.wInt k 0) := by
  obtain ⟨idx, hidx⟩ := List.mem_iff_getElem?.mp hk
  have hlt := (List.getElem?_eq_some_iff.mp hidx).1
  have hs := danseRun_silent gd hq h
  have r1 : Redundant (D.heard k (a.run.hist k)) true (⟨0, by unfold DanseCfg.nb; omega⟩ : Fin D.nb)
      (Pi.single ⟨D.M k + idx, by unfold DanseCfg.dim; omega⟩ 1) := by
    refine ⟨by simp [Pi.single_eq_zero_iff], fun e he _ => sum_single_zero ?_⟩
    obtain ⟨o, ho, i, hy⟩ := mem_heard he
    have hl : o.loc.length = D.M k := by
      have w := adaptRun_observed (fun _ => rfl) evs (danseRun_adapt evs h).1
      obtain ⟨l, e1, e2⟩ := w.loc k o ho
      rw [e2, List.length_map, (mapM_get e1).1, hM]
    have : (o.loc ++ o.z).getD (D.M k + idx) [] = o.z.getD idx [] := by
      rw [List.getD_eq_getElem?_getD, List.getD_eq_getElem?_getD, List.getElem?_append_right (by omega), hl,
        Nat.add_sub_cancel_left]
    rw [hy, coef_silent (by rw [this]; exact hs.hist k o ho idx hidx), zero_mul]
  exact (danseRun_frozen h hu hv).1 ⟨_, _, _, r1⟩ h1

end

/-! ## A concrete network -/

/-- Two nodes with one sensor each that hear each other. -/
noncomputable def exDead (use1st : Bool) : DanseCfg ℚ :=
  { exLevel use1st with
    g := { exLevelG with nb := fun k => if k = 0 then [1] else if k = 1 then [0] else [], wInt := fun _ _ => [[1, 1], [0, 0]] }
    rule := pairRule }

/-- Broadcasts and updates of both nodes at every sample; the DANSE and the local filter of node 0 after six updates. -/
noncomputable def exDeadRun (use1st : Bool) (y0 y1 : List ℚ) : Except PyErr (List (List ℚ) × List (List ℚ)) :=
  letI : StarRing ℚ := starRingOfComm
  (danseRun (exDead use1st) (fun k => if k = 0 then [y0] else [y1]) 10
    ((List.range 7).flatMap fun (j : Nat) => [((j : ℚ) + 2, 0, .bc), ((j : ℚ) + 2, 1, .bc), ((j : ℚ) + 2, 0, .up),
      ((j : ℚ) + 2, 1, .up)])).map fun s => (s.run.cfg.wInt 0 7, s.run.cfg.wLoc 0 7)

/-- The hypotheses of `C124_dead_node` are met by a run in which node 0 has seven updates: with a dead neighbour its DANSE
filter is the initial one at the end (whereas its local filter has been updated), with a neighbour that records
something it has been updated. -/
example : letI : StarRing ℚ := starRingOfComm
    (exDead true).use1st = true ∧ (exDead true).FullRankTest ∧ GoodNeighbours (exDead true).g.nb ∧
    (exDead true).rule = mwfRule ∧ Silent (List.replicate 10 (0 : ℚ)) ∧
    exDeadRun true [4, 2, 2, 1, 5, 1, 3, 2, 4, 1] (List.replicate 10 0) = .ok ([[1, 1], [0, 0]], [[7 / 31, -7 / 41]]) ∧
    exDeadRun true [4, 2, 2, 1, 5, 1, 3, 2, 4, 1] [1, 0, 2, 3, -1, 2, 4, 2, 5, 3] =
      .ok ([[161 / 369, -131 / 573], [-344 / 1107, -80 / 573]], [[7 / 31, -7 / 41]]) := by
  refine ⟨rfl, fun m Rnn Ryy h => of_decide_eq_true h, ⟨fun k => ?_, fun k q h => ?_⟩, pairRule_eq,
    fun v hv => (List.mem_replicate.mp hv).2, ?_, ?_⟩
  · change (if k = 0 then [1] else if k = 1 then [0] else []).Nodup
    split_ifs <;> simp
  · change k ∈ (if q = 0 then [1] else if q = 1 then [0] else [])
    change q ∈ (if k = 0 then [1] else if k = 1 then [0] else []) at h
    by_cases h0 : k = 0
    · subst h0; simp at h; subst h; simp
    · by_cases h1 : k = 1
      · subst h1; simp at h; subst h; simp
      · simp [h0, h1] at h
  · decide +kernel
  · decide +kernel

/-- With the default (`use1stFrameAsBasis` off) the dead neighbour does not stop the adaptation of node 0 (C117 (start)). -/
example : exDeadRun false [4, 2, 2, 1, 5, 1, 3, 2, 4, 1] (List.replicate 10 0) =
    .ok ([[23 / 100, -1 / 4], [0, 0]], [[31 / 133, -19 / 79]]) := by decide +kernel

end Danse
