import Verif.Proofs.DeadTI2
import Verif.Props.TIDanse
import Verif.Props.ScaleTI

/-!
# Property C139: TI-DANSE nodes that do not adapt

`tiDanseRun D T y up0 trees out` is the main loop of `tidanse` on the recording `y` over the schedule `out`; `a.row k i` and
`a.rowLoc k i` are the filters of node `k` after its `i`-th update (`i = 0`: the initial ones), its channels are its
sensors and, last, the in-network sum.
-/

set_option linter.unusedSectionVars false

namespace Danse
section
variable {K : Type} [Field K] [StarRing K] [DecidableEq K] {D : DanseCfg K} {n : Nat} {y : Fin n → List (List K)} {T : Nat}
  {up0 : Fin n → List (Fin n)} {trees : List (TreeObj n)} {out : List (Instant ℚ)} {a : TIDanseSt n D}

/-- C139 (a): a node that has no reason to adapt (or one of whose channels is redundant) keeps its initial filters to the end
of the run, and its fused signal is not divided by the weight of the sum. The one exception is node 0 when nodes update
in turns: there the weight of the in-network sum may have been replaced by one, the weights of the sensors are still
the initial ones. -/
theorem C139_frozen (h : tiDanseRun D T y up0 trees out = .ok a) (hs : (out.map (·.t)).Pairwise (· ≤ ·)) {k : Fin n}
    (hid : D.TIIdle (a.run.node k).hist k (D.M k + 1) ∨ D.Deficient (D.tiHeard k (a.run.node k).hist))
    (hc : ∀ j, D.g.wInt k j = D.g.wInt k 0) :
    (¬ (D.seq = true ∧ k.val = 0) → ∀ i ≤ (a.run.node k).hist.length, D.SameFilter (D.M k + 1) (a.row k i) (D.g.wInt k 0)) ∧
    (∀ i ≤ (a.run.node k).hist.length, ∀ (κ : Fin D.nb), ∀ c < D.M k, coef (a.row k i) κ c = coef (D.g.wInt k 0) κ c) ∧
    (D.bypassAll = false → (a.run.node k).started = false) := by
  refine ⟨fun hq i hi => (tiFrozen_rows h hs hid hc i hi).1 hq, fun i hi => (tiFrozen_rows h hs hid hc i hi).2, fun hb => ?_⟩
  rw [← Bool.not_eq_true, C119_started h k]
  rcases tiIdle_not_started (List.prefix_refl _) (tiHeard_vad k _) (tiHeard_t k _) hid with hb' | hn
  · rw [hb] at hb'; cases hb'
  · exact hn

/-- C139 (b): the same for the local filters. -/
theorem C139_frozen_local (h : tiDanseRun D T y up0 trees out = .ok a) (hs : (out.map (·.t)).Pairwise (· ≤ ·)) {k : Fin n}
    (hid : D.TIIdle (a.run.node k).hist k (D.M k) ∨ D.Deficient (D.tiHeardLoc k (a.run.node k).hist))
    (hc : ∀ j, D.g.wLoc k j = D.g.wLoc k 0) :
    ∀ i ≤ (a.run.node k).hist.length, D.SameFilter (D.M k) (a.rowLoc k i) (D.g.wLoc k 0) :=
  tiFrozen_rowsLoc h hs hid hc

/-- C139 (c): if one sensor of a node records zeros only (with `use1stFrameAsBasis` and a test of full rank), the node keeps
its initial weights of all its sensors and its initial local filters, however good its other sensors are. -/
theorem C139_dead_sensor (h : tiDanseRun D T y up0 trees out = .ok a) (hs : (out.map (·.t)).Pairwise (· ≤ ·))
    (hu : D.use1st = true) (hv : D.FullRankTest) {k : Fin n} {c : Nat} (hc : c < D.M k) {ch : List K}
    (hch : (y k)[c]? = some ch) (hz : Silent ch) (h1 : ∀ j, D.g.wInt k j = D.g.wInt k 0)
    (h2 : ∀ j, D.g.wLoc k j = D.g.wLoc k 0) : ∀ i ≤ (a.run.node k).hist.length,
      (¬ (D.seq = true ∧ k.val = 0) → D.SameFilter (D.M k + 1) (a.row k i) (D.g.wInt k 0)) ∧
      (∀ (κ : Fin D.nb), ∀ c < D.M k, coef (a.row k i) κ c = coef (D.g.wInt k 0) κ c) ∧
      D.SameFilter (D.M k) (a.rowLoc k i) (D.g.wLoc k 0) := by
  have hsil : ∀ o ∈ (a.run.node k).hist, Silent (o.loc.getD c []) ∧ Silent ((o.loc ++ [o.eta]).getD c []) := by
    intro o ho
    obtain ⟨fr, hfr, p, hp⟩ := tiLoc_channel h hch ho
    have := silent_localChunk hz hp
    constructor
    · rw [List.getD_eq_getElem?_getD, hfr]; exact this
    · rw [List.getD_eq_getElem?_getD, getElem?_append_some hfr]; exact this
  have r1 : D.Deficient (D.tiHeard k (a.run.node k).hist) := by
    refine ⟨hu, hv, true, ⟨0, by unfold DanseCfg.nb; omega⟩, Pi.single ⟨c, by omega⟩ 1,
      by simp [Pi.single_eq_zero_iff], fun e he _ => sum_single_zero ?_⟩
    obtain ⟨o, ho, hy⟩ := mem_tiHeard he
    rw [hy, coef_silent (hsil o ho).2]
  have r2 : D.Deficient (D.tiHeardLoc k (a.run.node k).hist) := by
    refine ⟨hu, hv, true, ⟨0, by unfold DanseCfg.nb; omega⟩, Pi.single ⟨c, hc⟩ 1,
      by simp [Pi.single_eq_zero_iff], fun e he _ => sum_single_zero ?_⟩
    obtain ⟨o, ho, hy⟩ := mem_tiHeardLoc he
    rw [hy, coef_silent (hsil o ho).1]
  exact fun i hi => ⟨(tiFrozen_rows h hs (.inr r1) h1 i hi).1, (tiFrozen_rows h hs (.inr r1) h1 i hi).2,
    tiFrozen_rowsLoc h hs (.inr r2) h2 i hi⟩

/-- C139 (d): the same if one sensor of a node records a multiple of what another sensor of it records. -/
theorem C139_twin_sensors (h : tiDanseRun D T y up0 trees out = .ok a) (hs : (out.map (·.t)).Pairwise (· ≤ ·))
    (hu : D.use1st = true) (hv : D.FullRankTest) {k : Fin n} {c c' : Nat} (hc : c < D.M k) (hc' : c' < D.M k) (hne : c ≠ c')
    {ch : List K} {g : K} (hch : (y k)[c]? = some ch) (hch' : (y k)[c']? = some (scaled g ch))
    (h1 : ∀ j, D.g.wInt k j = D.g.wInt k 0)
    (h2 : ∀ j, D.g.wLoc k j = D.g.wLoc k 0) : ∀ i ≤ (a.run.node k).hist.length,
      (¬ (D.seq = true ∧ k.val = 0) → D.SameFilter (D.M k + 1) (a.row k i) (D.g.wInt k 0)) ∧
      (∀ (κ : Fin D.nb), ∀ c < D.M k, coef (a.row k i) κ c = coef (D.g.wInt k 0) κ c) ∧
      D.SameFilter (D.M k) (a.rowLoc k i) (D.g.wLoc k 0) := by
  have hmul : ∀ o ∈ (a.run.node k).hist, ∃ fr, o.loc[c]? = some fr ∧ o.loc[c']? = some (scaled g fr) := by
    intro o ho
    obtain ⟨fr, hfr, p, hp⟩ := tiLoc_channel h hch ho
    obtain ⟨fr', hfr', p', hp'⟩ := tiLoc_channel h hch' ho
    exact ⟨fr, hfr, by rw [hfr', scaled_localChunk_inv hp hp']⟩
  have r1 : D.Deficient (D.tiHeard k (a.run.node k).hist) := by
    refine ⟨hu, hv, true, ⟨0, by unfold DanseCfg.nb; omega⟩, Pi.single ⟨c, Nat.lt_succ_of_lt hc⟩ g - Pi.single ⟨c', Nat.lt_succ_of_lt hc'⟩ 1,
      pair_ne_zero (by simpa using hne) g, fun e he _ => sum_pair_zero ?_⟩
    obtain ⟨o, ho, hy⟩ := mem_tiHeard he
    obtain ⟨fr, e1, e2⟩ := hmul o ho
    rw [hy, hy, coef_multiple (getElem?_append_some e1) (getElem?_append_some e2)]
  have r2 : D.Deficient (D.tiHeardLoc k (a.run.node k).hist) := by
    refine ⟨hu, hv, true, ⟨0, by unfold DanseCfg.nb; omega⟩, Pi.single ⟨c, hc⟩ g - Pi.single ⟨c', hc'⟩ 1,
      pair_ne_zero (by simpa using hne) g, fun e he _ => sum_pair_zero ?_⟩
    obtain ⟨o, ho, hy⟩ := mem_tiHeardLoc he
    obtain ⟨fr, e1, e2⟩ := hmul o ho
    rw [hy, hy, coef_multiple e1 e2]
  exact fun i hi => ⟨(tiFrozen_rows h hs (.inr r1) h1 i hi).1, (tiFrozen_rows h hs (.inr r1) h1 i hi).2,
    tiFrozen_rowsLoc h hs (.inr r2) h2 i hi⟩

/-- C139 (e): if all the other nodes record zeros only, whatever the trees, the in-network sum that a node hears is zero, and
(with `use1stFrameAsBasis` and a test of full rank) the node keeps its initial weights, although its own sensors
may record enough speech and noise for its local filters to be updated. -/
theorem C139_others_dead {fs : ℚ} {m : Nat} (hg : SyncTI D.g fs m y) {nbs : List (List Nat)} (hn : nbs.length = n)
    {seq keep sim : Bool} {r start : Nat} {minF : Int} (hr : sim = true → r < n) (hstart : start < n)
    {ordOf : Nat → List Level} {treeOf : Nat → TreeObj n} (hT : ∀ k < n, OrientedTree (treeOf k) (ordOf k))
    {fsInf : List ℚ} (hev : initEventsTI D.g.bc D.g.N D.g.Ns seq keep sim r start minF (syncNodes fs m nbs) ordOf treeOf =
      .ok (out, fsInf, trees)) (h : tiDanseRun D T y up0 trees out = .ok a) (hu : D.use1st = true) (hv : D.FullRankTest)
    {k : Fin n} (hM : (y k).length = D.M k) (hz : ∀ v, v ≠ k → ∀ ch ∈ y v, Silent ch)
    (h1 : ∀ j, D.g.wInt k j = D.g.wInt k 0) :
    (∀ o ∈ (a.run.node k).hist, Silent o.eta) ∧ (D.bypassAll = false → (a.run.node k).started = false) ∧
    ∀ i ≤ (a.run.node k).hist.length,
      (¬ (D.seq = true ∧ k.val = 0) → D.SameFilter (D.M k + 1) (a.row k i) (D.g.wInt k 0)) ∧
      ∀ (κ : Fin D.nb), ∀ c < D.M k, coef (a.row k i) κ c = coef (D.g.wInt k 0) κ c := by
  have hs := C119_times hg hn hr hstart hT hev
  have hd := (C82_run (U := D.tiStrategy n) hg hn hr hstart hT hev T (fun k => D.g.wExt k 0) up0).1 _ (C119_instance h)
  have ho := (directRun_others hz hd (othersSilent_init _ _ _ _ k)).hist
  have hdef : D.Deficient (D.tiHeard k (a.run.node k).hist) := by
    refine ⟨hu, hv, true, ⟨0, by unfold DanseCfg.nb; omega⟩, Pi.single (Fin.last _) 1,
      by simp [Pi.single_eq_zero_iff], fun e he _ => sum_single_zero ?_⟩
    obtain ⟨o, ho', hy⟩ := mem_tiHeard he
    have hl : o.loc.length = D.M k := by
      obtain ⟨l, e1, e2⟩ := tiRun_locs out (C119_instance h) (fun _ o ho => by cases ho) k o ho'
      rw [e2, List.length_map, (mapM_get e1).1, hM]
    have : (o.loc ++ [o.eta]).getD (Fin.last (D.M k)).val [] = o.eta := by
      rw [Fin.val_last, List.getD_eq_getElem?_getD, ← hl, List.getElem?_concat_length]
      rfl
    rw [hy, coef_silent (by rw [this]; exact ho o ho')]
  exact ⟨ho, (C139_frozen h hs (.inr hdef) h1).2.2, tiFrozen_rows h hs (.inr hdef) h1⟩

end

/-! ## Concrete networks -/

/-- The star network of `n + 1` nodes with node 0 in the middle. -/
def star0 (n : Nat) (v : Fin (n + 1)) : List (Fin (n + 1)) :=
  if v = 0 then (List.finRange (n + 1)).filter (· ≠ 0) else [0]

theorem star0_ok (n : Nat) : NeighboursOf (SimpleGraph.starGraph (0 : Fin (n + 1))) (star0 n) := by
  intro v
  unfold star0
  constructor
  · split_ifs
    · exact (List.nodup_finRange _).filter _
    · simp
  · intro q
    rw [SimpleGraph.starGraph_adj]
    by_cases hv : v = 0
    · subst hv
      rw [if_pos rfl, List.mem_filter]
      simp only [List.mem_finRange, true_and, decide_eq_true_eq]
      exact ⟨fun h => ⟨Ne.symm h, .inl trivial⟩, fun h => h.1.symm⟩
    · rw [if_neg hv, List.mem_singleton]
      exact ⟨fun h => ⟨by rw [h]; exact hv, .inr h⟩, fun h => h.2.resolve_left hv⟩

/-- Its tree and ordering, rooted at node 0. -/
def exStar (n : Nat) : TreeObj (n + 1) × List Level :=
  match orientate (star0 n) 0 (n + 2) with
  | some o => (⟨0, o.1.up⟩, o.2.map TreeLevel.toLevel)
  | none => (⟨0, fun _ => []⟩, [])

theorem exStar_ok (n : Nat) : OrientedTree (exStar n).1 (exStar n).2 := by
  obtain ⟨o, ho, _⟩ := C21_orientation (SimpleGraph.isTree_starGraph (0 : Fin (n + 1))) (star0_ok n) 0
  have ho5 := ho (n + 2) (by simp)
  have e : exStar n = (⟨0, o.1.up⟩, o.2.map TreeLevel.toLevel) := by
    unfold exStar
    rw [ho5]
  rw [e]
  exact ⟨_, _, o, SimpleGraph.isTree_starGraph _, star0_ok n, ho5, rfl, rfl⟩

/-- The schedule for ten samples: an exchange at every sample from sample 1 on, updates from sample 2 on; `l` are the nodes
from the leaves to the root, `u` those from the root to the leaves. -/
def exStarOut (l u : List Nat) : List (Instant ℚ) :=
  ⟨0, exLevelEv .tr [0]⟩ :: (List.range 8).map fun (j : Nat) =>
    ⟨(j : ℚ) + 1, exLevelEv .fu l ++ exLevelEv .bc l ++ exLevelEv .re u ++ if j = 0 then [] else exLevelEv .up u⟩

theorem exStar_sched2 : (initEventsTI (.few 1 false) 2 1 false true false 0 0 1 (syncNodes 1 10 [[], []])
    (fun _ => (exStar 1).2) id).toOption = some (exStarOut [1, 0] [0, 1], [1, 1], [0]) := by decide_cbv

theorem exStar_sched3 : (initEventsTI (.few 1 false) 2 1 false true false 0 0 1 (syncNodes 1 10 [[], [], []])
    (fun _ => (exStar 2).2) id).toOption = some (exStarOut [1, 2, 0] [0, 1, 2], [1, 1, 1], [0]) := by decide_cbv

theorem exStar_sync {n : Nat} {y : Fin n → List (List ℚ)} (hy : ∀ k, ∀ ch ∈ y k, ch.length = 10) : SyncTI exLevelTIG 1 10 y :=
  ⟨Nat.one_pos, by change 1 < 2; norm_num, rfl, (by intro h; cases h),
    (by intro L eff h; injection h with a b; subst a b; exact ⟨rfl, le_refl _⟩), one_pos,
    by decide_cbv, fun _ => rfl, hy, by change syncBc (.few 1 false) 2 1 10 1 ≠ []; decide_cbv,
    by change syncUpTI (.few 1 false) 2 1 10 1 ≠ []; decide_cbv⟩

/-- A run of two nodes with one sensor each: has node 0 started, its filter and its local filter after seven updates. -/
noncomputable def exTwoTI (y0 y1 : List ℚ) : Except PyErr (Bool × List (List ℚ) × List (List ℚ)) :=
  letI : StarRing ℚ := starRingOfComm
  (tiDanseRun (exLevelTI true) 10 ![[y0], [y1]] (fun _ => []) [(exStar 1).1] (exStarOut [1, 0] [0, 1])).map fun s =>
    ((s.run.node 0).started, s.row 0 7, s.rowLoc 0 7)

/-- The hypotheses of `C139_others_dead` are met by a run in which node 0 makes seven updates (its local filter is
updated, its TI-DANSE filter is not); with another node that records something, both are updated. -/
example : letI : StarRing ℚ := starRingOfComm
    SyncTI (exLevelTI true).g 1 10 ![[[4, 2, 2, 1, 5, 1, 3, 2, 4, 1]], [List.replicate 10 (0 : ℚ)]] ∧
    OrientedTree (exStar 1).1 (exStar 1).2 ∧ (exLevelTI true).use1st = true ∧ (exLevelTI true).FullRankTest ∧
    exTwoTI [4, 2, 2, 1, 5, 1, 3, 2, 4, 1] (List.replicate 10 0) = .ok (false, [[1, 1], [0, 0]], [[7 / 31, -7 / 41]]) ∧
    exTwoTI [4, 2, 2, 1, 5, 1, 3, 2, 4, 1] [1, 0, 2, 3, -1, 2, 4, 2, 5, 3] =
      .ok (true, [[5827 / 13915, -79 / 417], [-7616 / 13915, -128 / 1251]], [[7 / 31, -7 / 41]]) := by
  refine ⟨exStar_sync ?_, exStar_ok 1, rfl, fun m Rnn Ryy h => of_decide_eq_true h, ?_, ?_⟩
  · intro k
    fin_cases k <;> simp
  · decide +kernel
  · decide +kernel

/-- No frame is inactive; nodes update in turns. -/
noncomputable def exTIQuiet : DanseCfg ℚ :=
  { exLevelTI true with g := { exLevelTIG with wInt := fun _ _ => [[1, 1], [3, 3]] }, vad := fun _ _ => true, seq := true }

/-- C139 (a) for the speech-only recording of two nodes: node 1 keeps its filter; node 0 keeps its weights of its sensor, its
weight of the sum has been replaced by one. -/
example : letI : StarRing ℚ := starRingOfComm
    (∀ h : List (TIObs ℚ), exTIQuiet.TIIdle h 0 (exTIQuiet.M 0 + 1) ∧ exTIQuiet.TIIdle h 1 (exTIQuiet.M 1 + 1)) ∧
    ((exStarOut [1, 0] [0, 1]).map (·.t)).Pairwise (· ≤ ·) ∧
    (tiDanseRun exTIQuiet 10 ![[[4, 2, 2, 1, 5, 1, 3, 2, 4, 1]], [[1, 0, 2, 3, -1, 2, 4, 2, 5, 3]]] (fun _ => [])
      [(exStar 1).1] (exStarOut [1, 0] [0, 1])).map (fun s => (s.row 0 0, s.row 0 7, s.row 1 7)) =
      .ok ([[1, 1], [3, 3]], [[1, 1], [1, 1]], [[1, 1], [3, 3]]) := by
  refine ⟨fun h => ⟨.inr (.inl ⟨false, ?_⟩), .inr (.inl ⟨false, ?_⟩)⟩, by decide_cbv, by decide +kernel⟩ <;>
  · have hv : ∀ k, exTIQuiet.vad k = fun _ => true := fun _ => rfl
    rw [hv, List.countP_eq_zero.mpr (by simp)]
    exact Nat.zero_le _

/-- Two sensors per node. -/
noncomputable def exTIPairs : DanseCfg ℚ :=
  { exLevelTI true with
    g := { exLevelTIG with wInt := fun _ _ => [[1, 1], [0, 0], [3, 3]], wExt := fun _ _ => [[1, 1], [0, 0], [3, 3]],
                           wLoc := fun _ _ => [[1, 1], [0, 0]] }
    M := fun _ => 2 }

/-- The hypotheses of C139 (c) and (d) are met by a run in which node 0 has a dead sensor and node 1 a sensor that records
twice what the other one records. -/
example : letI : StarRing ℚ := starRingOfComm
    exTIPairs.use1st = true ∧ exTIPairs.FullRankTest ∧ ((exStarOut [1, 0] [0, 1]).map (·.t)).Pairwise (· ≤ ·) ∧
    (tiDanseRun exTIPairs 10 ![[[4, 2, 2, 1, 5, 1, 3, 2, 4, 1], List.replicate 10 0],
      [[1, 0, 2, 3, -1, 2, 4, 2, 5, 3], scaled 2 [1, 0, 2, 3, -1, 2, 4, 2, 5, 3]]] (fun _ => [])
      [(exStar 1).1] (exStarOut [1, 0] [0, 1])).map (fun s => (s.row 0 7, s.row 1 7, s.rowLoc 0 7, s.rowLoc 1 7)) =
      .ok ([[1, 1], [0, 0], [3, 3]], [[1, 1], [0, 0], [3, 3]], [[1, 1], [0, 0]], [[1, 1], [0, 0]]) :=
  ⟨rfl, fun m Rnn Ryy h => of_decide_eq_true h, by decide_cbv, by decide +kernel⟩

end Danse
