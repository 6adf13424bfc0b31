import Verif.Proofs.TIRun19
import Verif.Props.PipelineTI

/-!
# Property C133: TI-DANSE with efficient few-sample broadcasts completes, and so does the driver
-/

set_option linter.unusedSectionVars false

namespace Danse
section
variable {n : Nat} {K : Type} [Field K] [StarRing K] [DecidableEq K] {g : GivenCfg K} {U : TIStrategy n K}
  {fs : ℚ} {m L : Nat} {y : Fin n → List (List K)}

/-- C133 (a): for synchronous nodes with efficient broadcasts of multiples of `L` samples, `L` a divisor of `Ns`, frames of even
length, over trees of any shape, each node with a neighbour: the schedule is built and the run goes through without an exception,
whatever filters (with the right number of bins) the nodes compute; the outputs are as long as the signals. -/
theorem C133_completes (hg : SyncTIEff g fs m L y) (he : 2 ∣ g.N) (hfl : g.f.length = g.N)
    (hr : ∀ k hist, (∀ b ∈ (U.rows k hist).int, b.length = g.N / 2 + 1) ∧
      (∀ b ∈ (U.rows k hist).ext, b.length = g.N / 2 + 1) ∧ ∀ b ∈ (U.rows k hist).loc, b.length = g.N / 2 + 1)
    {ext : Fin n → List (List K)} (hext : ∀ k, ∀ b ∈ ext k, b.length = g.N / 2 + 1)
    {nbs : List (List Nat)} (hn : nbs.length = n) (hne : ∀ nb ∈ nbs, nb ≠ [] ∧ ∀ q ∈ nb, q < nbs.length)
    {seq keep sim : Bool} {ri start : Nat} (minF : Int)
    (hri : sim = true → ri < n) (hstart : start < n)
    {ordOf : Nat → List Level} {treeOf : Nat → TreeObj n} (hT : ∀ k < n, OrientedTree (treeOf k) (ordOf k))
    (up0 : Fin n → List (Fin n)) :
    ∃ out trees s, initEventsTI g.bc g.N g.Ns seq keep sim ri start minF (syncNodes fs m nbs) ordOf treeOf =
        .ok (out, List.replicate n fs, trees) ∧
      tiRun g U y trees (.init g.N g.refSensor m y ext up0) out = .ok s ∧
      ∀ k, (s.node k).d.length = m ∧ (s.node k).dLoc.length = m := by
  have hNo := hg.overlap
  have hLNs := Nat.le_of_dvd hg.shift hg.divides
  obtain ⟨out, trees, h1, -⟩ := C92_schedule (seq := seq) (keep := keep) (sim := sim) (r := ri) (start := start)
    hg.shift (by omega) hg.L_pos hLNs hg.L_lt hg.rate hg.clock nbs hne hg.update minF (by rw [hn]; exact hri) (by rw [hn]; exact hstart)
    ordOf (by rw [hn]; exact fun k hk => (hT k hk).covers) treeOf
  rw [hn] at h1
  have h1' : initEventsTI g.bc g.N g.Ns seq keep sim ri start minF (syncNodes fs m nbs) ordOf treeOf =
      .ok (out, List.replicate n fs, trees) := by rw [hg.bc]; exact h1
  obtain ⟨w1, w2⟩ : (worksOf out).map (·.t) = everySep g.Ns fs ⌈(g.N : ℚ) / g.Ns⌉₊ ((m - 1) / g.Ns) ∧
      ∀ w ∈ worksOf out, w.exchange = true := by
    subst hn
    obtain ⟨tr, rfl, h2, h3, h4⟩ := eff_built hg hne hri hstart h1'
    have htr := treesOriented hT hstart tr.2.length
    have hcov : ∀ o ∈ tr.2, CoversNodes nbs.length o := by
      intro o ho
      rw [h4] at ho
      exact orientedTrees_cover htr o ho
    obtain ⟨w1, w2⟩ := built_sync_works h3 h2 hcov rfl (fun t ht => ht) (everySep_sorted hg.shift hg.rate _ _)
    exact ⟨w1, fun w hw => (w2 w hw).1⟩
  have hR := hg.frames_pos
  have h2 : (0 : ℚ) < g.Ns := by exact_mod_cast hg.shift
  have hRN : g.N ≤ ⌈(g.N : ℚ) / g.Ns⌉₊ * g.Ns := by
    have h1 : (g.N : ℚ) / g.Ns ≤ (⌈(g.N : ℚ) / g.Ns⌉₊ : ℚ) := Nat.le_ceil _
    rw [div_le_iff₀ h2] at h1
    exact_mod_cast h1
  have hRN' : ⌈(g.N : ℚ) / g.Ns⌉₊ * g.Ns ≤ 2 * g.N - 1 := by
    have h1 := Nat.ceil_lt_add_one (a := (g.N : ℚ) / g.Ns) (by positivity)
    have h3 : (⌈(g.N : ℚ) / g.Ns⌉₊ : ℚ) * g.Ns < g.N + g.Ns := by
      have := mul_lt_mul_of_pos_right h1 h2
      rwa [add_mul, div_mul_cancel₀ _ h2.ne', one_mul] at this
    have h4 : ⌈(g.N : ℚ) / g.Ns⌉₊ * g.Ns < g.N + g.Ns := by exact_mod_cast h3
    omega
  have hlen : (worksOf out).length = (m - 1) / g.Ns - ⌈(g.N : ℚ) / g.Ns⌉₊ := by
    have := congrArg List.length w1
    simpa [everySep] using this
  have hpos : (worksOf out).length ≠ 0 := by
    intro h0
    have := congrArg List.length w1
    rw [List.length_map, h0] at this
    exact hg.update (List.length_eq_zero_iff.mp this.symm)
  obtain ⟨b, hb, hal⟩ := direct_total_eff (U := U) hg he hfl hr (worksOf out) ⌈(g.N : ℚ) / g.Ns⌉₊ 0 (by
      intro j hj
      have h3 : ((worksOf out).map (·.t))[j]? = some ((worksOf out)[j]).t := by
        rw [List.getElem?_map, List.getElem?_eq_getElem hj]; rfl
      rw [w1] at h3
      unfold everySep at h3
      rw [List.getElem?_map, List.getElem?_range (by omega)] at h3
      injection h3 with h3
      rw [← h3]
      push_cast
      ring) w2 (by omega) hRN (Nat.zero_le _) (dvd_zero _) (by rw [Nat.sub_zero]; exact hRN')
    (.init g.N g.refSensor m y ext) (fun k => ⟨⟨by
      intro a ha
      simp only [TIView.init, TINode.init, List.mem_map] at ha
      obtain ⟨i, _, rfl⟩ := ha
      split <;> simp, by simp [TIView.init, TINode.init], by simp [TIView.init, TINode.init], hext k, fun _ h => by
        simp [TIView.init, TINode.init] at h⟩, by simp [TIView.init, TINode.init]⟩)
  obtain ⟨s, hs, hv⟩ := (C92_run (U := U) hg hn hne hri hstart hT h1' m ext up0).2 b hb
  refine ⟨out, trees, s, h1', hs, fun k => ?_⟩
  have := hal k
  rw [← hv] at this
  exact ⟨this.d, this.dLoc⟩

/-- The schedule of synchronous nodes does not depend on their neighbours. -/
theorem initEventsTI_eff_nb {β : Type} (hg : SyncTIEff g fs m L y) {nbs nbs' : List (List Nat)} (hl : nbs.length = nbs'.length)
    (hne : ∀ nb ∈ nbs, nb ≠ [] ∧ ∀ q ∈ nb, q < nbs.length) (hne' : ∀ nb ∈ nbs', nb ≠ [] ∧ ∀ q ∈ nb, q < nbs'.length)
    {seq keep sim : Bool} {ri start : Nat} {minF : Int} (hri : sim = true → ri < nbs.length) (ordOf : Nat → List Level) (treeOf : Nat → β) :
    initEventsTI g.bc g.N g.Ns seq keep sim ri start minF (syncNodes fs m nbs) ordOf treeOf =
      initEventsTI g.bc g.N g.Ns seq keep sim ri start minF (syncNodes fs m nbs') ordOf treeOf := by
  have hN : 0 < g.N := by have := hg.overlap; omega
  have hLNs := Nat.le_of_dvd hg.shift hg.divides
  have h1 := tiInstants_eff hg.shift hN hg.pos hg.L_pos hLNs hg.L_lt hg.rate nbs hne
  have h2 := tiInstants_eff hg.shift hN hg.pos hg.L_pos hLNs hg.L_lt hg.rate nbs' hne'
  have e : ∀ l : List (List Nat), (syncNodes fs m l).mapM (fun n => pyGet n.stamps (-1)) =
      .ok (List.replicate l.length (((m - 1 : Nat) : ℚ) / fs)) := by
    intro l
    rw [mapM_const (b := ((m - 1 : Nat) : ℚ) / fs)]
    · simp [syncNodes]
    · intro x hx
      unfold syncNodes at hx
      obtain ⟨nb, _, rfl⟩ := List.mem_map.mp hx
      exact clockStamps_last hg.pos
  unfold initEventsTI
  rw [baseChecks_sync hg.clock nbs hri, baseChecks_sync hg.clock nbs' (by rw [← hl]; exact hri)]
  simp only [bind, Except.bind]
  rw [e, e, hg.bc]
  simp only
  rw [h1, h2]
  have e3 : ∀ l : List (List Nat), (syncNodes fs m l).length = l.length := by simp [syncNodes]
  simp only [e3, hl]

end

section
variable {n : Nat} [NeZero n] {mst : SimpleGraph (Fin n) → (Fin n → Fin n → ℝ) → SimpleGraph (Fin n)} {pos : Fin n → Pt}
  {K : Type} [Field K] [StarRing K] [DecidableEq K] {D : DanseCfg K} {s : TIPlan} {nodeFs : Fin n → ℚ} {W : TINet n}
  {p : EvalSettings} {y ys yn : Fin n → List (List K)} {best : Fin n → BestCol K}

/-- In a connected network of two or more nodes every node has a neighbour, also after pruning. -/
theorem pruned_neighbours (hn : 2 ≤ n) (hm : MstAlgorithm mst) {A : Fin n → Fin n → ℝ} (hA : (linksOf A).Connected)
    (hp : NearlySamePosition pos ∨ ∀ u v, (linksOf A).Adj u v → pos u ≠ pos v) (k : Nat) (q : Fin n) :
    (prunedAt mst pos A k).nbr q ≠ [] := by
  obtain ⟨T, -, ht, -, hT⟩ := C93_tree (c := ⟨"", none, fun _ => [], fun _ => []⟩) hm hA hp
  obtain ⟨P, hP, hnb, -⟩ := hT (Fin.ofNat n k)
  rw [prune_prunedAt] at hP
  injection hP with hP
  injection hP with hP
  have hk : prunedAt mst pos A ((Fin.ofNat n k : Fin n) : Nat) = prunedAt mst pos A k := by
    unfold prunedAt
    have : Fin.ofNat n ((Fin.ofNat n k : Fin n) : Nat) = Fin.ofNat n k := by
      apply Fin.ext
      simp [Fin.ofNat]
    rw [this]
  rw [hk] at hP
  subst hP
  intro h0
  have : Nontrivial (Fin n) := Fin.nontrivial_iff_two_le.mpr hn
  obtain ⟨r, hr⟩ := ht.connected.preconnected.exists_adj_of_nontrivial q
  have := ((hnb q).2 r).mpr hr
  rw [h0] at this
  cases this

theorem pruned_in_schedule {g : GivenCfg K} {sch : List (Instant ℚ) × List ℚ × List (PrunedWasn n)}
    (h : tiSchedule mst pos g s nodeFs W = .ok sch) {P : PrunedWasn n} (hP : P ∈ sch.2.2) :
    ∃ k, P = prunedAt mst pos W.adj k := by
  unfold tiSchedule initEventsTI at h
  obtain ⟨fsInf, -, h⟩ := bind_ok_inv h
  obtain ⟨ttot, -, h⟩ := bind_ok_inv h
  obtain ⟨ub, -, h⟩ := bind_ok_inv h
  obtain ⟨tr, -, h⟩ := bind_ok_inv h
  obtain ⟨out, -, h⟩ := bind_ok_inv h
  injection h with h
  subst h
  obtain ⟨j, -, rfl⟩ := List.mem_map.mp hP
  exact ⟨_, rfl⟩

/-- C133 (b): with efficient broadcasts between synchronous nodes, in a connected network of two or more nodes in which every node
lists a neighbour and linked nodes are not at the same place (or all nodes are): the schedule of the driver is built and starts with a tree
formation, and the re-runs in any of the trees of a run have its schedule and its trees (with other clocks they may not:
`C126_refuted_efficient`). -/
theorem C133_same_schedule (hn2 : 2 ≤ n) (hm : MstAlgorithm mst) {g : GivenCfg K} {fs : ℚ} {m L : Nat} (hg : SyncTIEff g fs m L y)
    (hst : ∀ k : Fin n, nodeFs k = fs) (hA : (linksOf W.adj).Connected) (hnb : ∀ k, W.nbr k ≠ [])
    (hp : NearlySamePosition pos ∨ ∀ u v, (linksOf W.adj).Adj u v → pos u ≠ pos v)
    (hr : s.sim = true → s.jitterRef < n) (hstart : s.start < n) :
    ∃ sch, tiSchedule mst pos g s nodeFs W = .ok sch ∧ StartsWithTree sch.1 ∧
      ∀ P ∈ sch.2.2, tiSchedule mst pos g s nodeFs P.net = .ok sch := by
  have hN : 0 < g.N := by have := hg.overlap; omega
  have hLNs := Nat.le_of_dvd hg.shift hg.divides
  have hnodes : ∀ V : TINet n, ((List.finRange n).map fun k => (⟨nodeFs k, g.stamps k, (V.nbr k).map (·.val)⟩ : ClockNode)) =
      syncNodes fs m ((List.finRange n).map fun k => (V.nbr k).map (·.val)) := by
    intro V
    simp only [syncNodes, List.map_map, Function.comp_def, hst, hg.stamps]
  have hne : ∀ V : TINet n, (∀ k, V.nbr k ≠ []) → ∀ nb ∈ (List.finRange n).map fun k => (V.nbr k).map (·.val),
      nb ≠ [] ∧ ∀ q ∈ nb, q < ((List.finRange n).map fun k => (V.nbr k).map (·.val)).length := by
    intro V hV nb hnb
    obtain ⟨k, -, rfl⟩ := List.mem_map.mp hnb
    refine ⟨by simpa using hV k, fun q hq => ?_⟩
    obtain ⟨q', -, rfl⟩ := List.mem_map.mp hq
    simp
  have hl : ∀ V : TINet n, ((List.finRange n).map fun k => (V.nbr k).map (·.val)).length = n := by intro V; simp
  have hti := tiInstants_eff hg.shift hN hg.pos hg.L_pos hLNs hg.L_lt hg.rate _ (hne W hnb)
  rw [syncBcEff_dvd hg.divides] at hti
  obtain ⟨out, tr, h1, h2, h3, h4⟩ := initEventsTI_of (seq := s.seq) (keep := s.keep) (sim := s.sim) (r := s.jitterRef)
    hg.pos hg.clock _ s.minFrames (by rw [hl]; exact hr) (by rw [hl]; exact hstart) hti (everySep_sorted hg.shift hg.rate _ _)
    (everySep_pos hg.shift hg.rate hg.frames_pos) (everySep_pos hg.shift hg.rate hg.frames_pos) hg.update
    (fun _ _ => hg.update) (fun k => (prunedAt mst pos W.adj k).order.map TreeLevel.toLevel) (prunedAt mst pos W.adj)
  rw [← hg.bc] at h1
  have hsch : tiSchedule mst pos g s nodeFs W = .ok (out,
      List.replicate ((List.finRange n).map fun k => (W.nbr k).map (·.val)).length fs, (List.range tr.2.length).map fun j =>
      prunedAt mst pos W.adj ((s.start + j) % ((List.finRange n).map fun k => (W.nbr k).map (·.val)).length)) := by
    unfold tiSchedule
    rw [hnodes]
    exact h1
  refine ⟨_, hsch, starts_with_tree h3 h2 ?_, ?_⟩
  · change ∀ o ∈ tr.2, _
    rw [h4, hl]
    intro o ho
    obtain ⟨j, -, rfl⟩ := List.mem_map.mp ho
    exact (prunedAt_oriented hm hA hp _ (Nat.mod_lt _ (by omega))).covers
  · intro P hP
    obtain ⟨k, rfl⟩ := pruned_in_schedule hsch hP
    rw [← hsch]
    unfold tiSchedule PrunedWasn.net
    simp only [prunedAt_again hm]
    rw [hnodes W]
    have e := hnodes ⟨(prunedAt mst pos W.adj k).adj, (prunedAt mst pos W.adj k).nbr, (prunedAt mst pos W.adj k).orient.up⟩
    simp only at e
    rw [e]
    refine initEventsTI_eff_nb hg (by simp) (hne ⟨(prunedAt mst pos W.adj k).adj, (prunedAt mst pos W.adj k).nbr,
      (prunedAt mst pos W.adj k).orient.up⟩ fun q => pruned_neighbours hn2 hm hA hp k q) (hne W hnb) ?_ _ _
    rw [hl ⟨(prunedAt mst pos W.adj k).adj, (prunedAt mst pos W.adj k).nbr, (prunedAt mst pos W.adj k).orient.up⟩]
    exact hr

/-- C133 (c): so the driver ends like the run on the recordings, and filtered speech and filtered noise add up to the
estimates. -/
theorem C133_driver (hn2 : 2 ≤ n) (hm : MstAlgorithm mst) {fs : ℚ} {m L T : Nat} (hg : SyncTIEff D.g fs m L y)
    (hst : ∀ k : Fin n, nodeFs k = fs) (hA : (linksOf W.adj).Connected) (hnb : ∀ k, W.nbr k ≠ [])
    (hp : NearlySamePosition pos ∨ ∀ u v, (linksOf W.adj).Adj u v → pos u ≠ pos v)
    (hr : s.sim = true → s.jitterRef < n) (hstart : s.start < n) (hy : ∀ k, SumsM (ys k) (yn k) (y k)) :
    ∃ sch, tiSchedule mst pos D.g s nodeFs W = .ok sch ∧
      (∀ a, tiDanseRun D T y W.up (sch.2.2.map PrunedWasn.obj) sch.1 = .ok a →
        ∃ o, tidanseItUp mst pos D s nodeFs W p T y ys yn best = .ok o) ∧
      (∀ e, tiDanseRun D T y W.up (sch.2.2.map PrunedWasn.obj) sch.1 = .error e →
        tidanseItUp mst pos D s nodeFs W p T y ys yn best = .error e) ∧
      (p.batch = false → ∀ o, tidanseItUp mst pos D s nodeFs W p T y ys yn best = .ok o →
        (∃ u v, o.danse.filt = some (u, v) ∧ ∀ k, Sums (u k) (v k) (o.danse.est k)) ∧
        ∀ l, o.loc = some l → ∃ u v, l.filt = some (u, v) ∧ ∀ k, Sums (u k) (v k) (l.est k)) := by
  obtain ⟨sch, h1, h2, h3⟩ := C133_same_schedule (s := s) hn2 hm hg hst hA hnb hp hr hstart
  obtain ⟨h4, h5⟩ := ti_ends_of_same (T := T) (p := p) (best := best) hg.bc (fun k => (hy k).shape.1)
    (fun k => (hy k).shape.2) h1 h2 h3
  exact ⟨sch, h1, h4, h5, fun hb o ho => ti_adds_of_same hg.bc hy h1 h2 h3 hb ho⟩

end

section
open scoped ComplexOrder
variable {n : Nat} [NeZero n] {mst : SimpleGraph (Fin n) → (Fin n → Fin n → ℝ) → SimpleGraph (Fin n)} {pos : Fin n → Pt}
  {D : DanseCfg ℂ} {s : TIPlan} {nodeFs : Fin n → ℚ} {W : TINet n} {p : EvalSettings} {y ys yn : Fin n → List (List ℂ)}
  {best : Fin n → BestCol ℂ}

/-- C133 (d): the whole of an online TI-DANSE run with efficient broadcasts, whose nodes do not normalise (they do not update in
turns), ends without an exception, under the conditions of `C119_completes` on the covariance matrices; the update rule
succeeds on positive definite matrices. -/
theorem C133_tidanse {n : Nat} {y : Fin n → List (List ℂ)} (hseq : D.seq = false)
    (hrule : ∀ k m Ryy Rnn, D.M k ≤ m → Matrix.PosDef Ryy → Matrix.PosDef Rnn → ∃ w, D.rule m Ryy Rnn D.g.refSensor = .ok w)
    (hβ : ∀ k, ∃ b : ℝ, 0 < b ∧ b ≤ 1 ∧ D.beta k = (b : ℂ))
    (hv : ∀ m Rnn Ryy, D.valid m Rnn Ryy = true → ∀ κ, (Rnn κ).det ≠ 0 ∧ (Ryy κ).det ≠ 0)
    (hR : D.use1st = true ∨ ∀ k m κ, (D.R0 k m κ).PosSemidef)
    {fs : ℚ} {m L : Nat} (hg : SyncTIEff D.g fs m L y) (he : 2 ∣ D.g.N) (hfl : D.g.f.length = D.g.N)
    (hw : ∀ k, ∀ b ∈ D.g.wExt k 0, b.length = D.nb)
    {nbs : List (List Nat)} (hn : nbs.length = n) (hne : ∀ nb ∈ nbs, nb ≠ [] ∧ ∀ q ∈ nb, q < nbs.length)
    {seq keep sim : Bool} {ri start : Nat} (minF : Int)
    (hri : sim = true → ri < n) (hstart : start < n)
    {ordOf : Nat → List Level} {treeOf : Nat → TreeObj n} (hT : ∀ k < n, OrientedTree (treeOf k) (ordOf k))
    (up0 : Fin n → List (Fin n)) :
    ∃ out trees a, initEventsTI D.g.bc D.g.N D.g.Ns seq keep sim ri start minF (syncNodes fs m nbs) ordOf treeOf =
        .ok (out, List.replicate n fs, trees) ∧ tiDanseRun D m y up0 trees out = .ok a := by
  obtain ⟨out, trees, s, h1, h2, -⟩ := C133_completes (U := D.tiStrategy n) hg he hfl
    tiStrategy_bins (ext := fun k => D.g.wExt k 0) (fun k => hw k) hn hne
    (seq := seq) (keep := keep) (sim := sim) minF hri hstart hT up0
  obtain ⟨a, h3, -⟩ := tiDanse_run_of (D := D) (tiDanse_init_ok m up0) out (fun k => by
    obtain ⟨b, b0, b1, bb⟩ := hβ k
    exact tiNodeFold_total hseq b0 b1 bb (fun m hm Ryy Rnn p q => hrule k m Ryy Rnn hm p q) hv (hR.imp_right fun h => h k) _) h2
  exact ⟨out, trees, a, h1, h3⟩

/-- C133 (e): end to end, as C126 (j), with the Wiener filter. -/
theorem C133_driver_completes (hn2 : 2 ≤ n) (hm : MstAlgorithm mst) (hseq : D.seq = false) (hrule : D.rule = mwfRule)
    (href : ∀ k, D.g.refSensor < D.M k) (hβ : ∀ k, ∃ b : ℝ, 0 < b ∧ b ≤ 1 ∧ D.beta k = (b : ℂ))
    (hv : ∀ m Rnn Ryy, D.valid m Rnn Ryy = true → ∀ κ, (Rnn κ).det ≠ 0 ∧ (Ryy κ).det ≠ 0)
    (hR : D.use1st = true ∨ ∀ k m κ, (D.R0 k m κ).PosSemidef)
    {fs : ℚ} {m L : Nat} (hg : SyncTIEff D.g fs m L y) (he : 2 ∣ D.g.N) (hfl : D.g.f.length = D.g.N)
    (hw : ∀ k, ∀ b ∈ D.g.wExt k 0, b.length = D.nb)
    (hst : ∀ k : Fin n, nodeFs k = fs) (hA : (linksOf W.adj).Connected) (hnb : ∀ k, W.nbr k ≠ [])
    (hp : NearlySamePosition pos ∨ ∀ u v, (linksOf W.adj).Adj u v → pos u ≠ pos v)
    (hr : s.sim = true → s.jitterRef < n) (hstart : s.start < n) (hy : ∀ k, SumsM (ys k) (yn k) (y k))
    (hbt : p.batch = false) :
    ∃ o, tidanseItUp mst pos D s nodeFs W p m y ys yn best = .ok o ∧
      (∃ u v, o.danse.filt = some (u, v) ∧ ∀ k, Sums (u k) (v k) (o.danse.est k)) ∧
      ∀ l, o.loc = some l → ∃ u v, l.filt = some (u, v) ∧ ∀ k, Sums (u k) (v k) (l.est k) := by
  obtain ⟨sch, h1, h2, -, h3⟩ := C133_driver (T := m) (s := s) (p := p) (best := best) hn2 hm hg hst hA hnb hp hr hstart hy
  obtain ⟨out, fsInf, Ps⟩ := sch
  obtain ⟨out', trees, a, h4, h5⟩ := C133_tidanse (D := D) hseq (fun k m Ryy Rnn hm p _ => by
      rw [hrule]; exact mwfRule_total (lt_of_lt_of_le (href k) hm) p) hβ hv hR hg he hfl hw
    (nbs := (List.finRange n).map fun k => (W.nbr k).map (·.val)) (by simp) (by
      intro nb hnb'
      obtain ⟨k, -, rfl⟩ := List.mem_map.mp hnb'
      refine ⟨by simpa using hnb k, fun q hq => ?_⟩
      obtain ⟨q', -, rfl⟩ := List.mem_map.mp hq
      simp) (seq := s.seq) (keep := s.keep) (sim := s.sim)
    (ri := s.jitterRef) s.minFrames hr hstart (fun k hk => prunedAt_oriented hm hA hp k hk) W.up
  have h6 := h1
  unfold tiSchedule at h6
  have h6 := initEventsTI_map PrunedWasn.obj h6
  have e : ((List.finRange n).map fun k => (⟨nodeFs k, D.g.stamps k, (W.nbr k).map (·.val)⟩ : ClockNode)) =
      syncNodes fs m ((List.finRange n).map fun k => (W.nbr k).map (·.val)) := by
    simp only [syncNodes, List.map_map, Function.comp_def, hst, hg.stamps]
  rw [e, h4] at h6
  injection h6 with h6
  injection h6 with e1 h6
  injection h6 with e2 e3
  subst e1 e3
  obtain ⟨o, ho⟩ := h2 a h5
  exact ⟨o, ho, h3 hbt o ho⟩

/-- The nodes of `exTIOnline` with efficient broadcasts and the clocks that signals of 12 samples have. -/
noncomputable def exTIDriveEff : DanseCfg ℂ :=
  { exTIOnline with g := { exTIOnlineG with bc := .few 1 true, stamps := fun _ => clockStamps 1 12 } }

theorem exTIDriveEff_sync (y : Fin 4 → List (List ℂ)) (hy : ∀ k, ∀ ch ∈ y k, ch.length = 12) :
    SyncTIEff exTIDriveEff.g 1 12 1 y :=
  ⟨Nat.one_pos, (by change 1 < 2; norm_num), rfl, one_dvd _, one_pos, by decide_cbv, fun _ => rfl, fun _ => rfl, hy, by
    change everySep 1 1 ⌈((2 : Nat) : ℚ) / (1 : Nat)⌉₊ ((12 - 1) / 1) ≠ []
    intro h
    have := congrArg List.length h
    rw [everySep_length] at this
    norm_num at this⟩

/-- Four nodes in a line. -/
def exLineNbr (k : Fin 4) : List (Fin 4) := if k = 0 then [1] else if k = 1 then [0, 2] else if k = 2 then [1, 3] else [2]

/-- The hypotheses of C133 (b), (c), (e) are met by four nodes in a line, for any speech and noise of 12 samples. -/
example (us un : Fin 4 → List ℂ) (hs : ∀ k, (us k).length = 12) (hn : ∀ k, (un k).length = 12) (p : EvalSettings)
    (hp : p.batch = false) (best : Fin 4 → BestCol ℂ) : ∃ mst, MstAlgorithm mst ∧
    ∃ o, tidanseItUp mst exApart exTIDriveEff ⟨false, false, false, 0, 0, 1⟩ (fun _ => 1) ⟨exLine, exLineNbr, fun _ => []⟩ p 12
        (fun k => [List.zipWith (· + ·) (us k) (un k)]) (fun k => [us k]) (fun k => [un k]) best = .ok o ∧
      ∃ u v, o.danse.filt = some (u, v) ∧ ∀ k, Sums (u k) (v k) (o.danse.est k) := by
  obtain ⟨mst, hm⟩ := exists_mst 4
  obtain ⟨o, h1, h2, -⟩ := C133_driver_completes (D := exTIDriveEff) (s := ⟨false, false, false, 0, 0, 1⟩) (nodeFs := fun _ => 1)
    (W := ⟨exLine, exLineNbr, fun _ => []⟩) (p := p) (best := best)
    (ys := fun k => [us k]) (yn := fun k => [un k]) (by norm_num) hm rfl rfl
    (fun _ => Nat.one_pos) (fun _ => ⟨1 / 2, by norm_num, by norm_num, rfl⟩)
    (fun m Rnn Ryy h κ => (of_decide_eq_true h) κ) (.inr fun k m κ => (exTIOnline_R0 k m κ).posSemidef)
    (exTIDriveEff_sync (fun k => [List.zipWith (· + ·) (us k) (un k)]) (by intro k ch h; simp at h; simp [h, hs, hn]))
    (by change 2 ∣ 2; norm_num) rfl (fun k => by simp [exTIDriveEff, exTIOnline, exTIOnlineG, DanseCfg.nb]) (fun _ => rfl)
    exLine_connected (by decide) (.inr exApart_ok) (by simp) (by decide) (fun k => .cons (sums_zipWith (by rw [hs, hn])) .nil) hp
  exact ⟨mst, hm, o, h1, h2⟩

/-- The hypotheses of C133 (a), (d) are met by the four nodes in a star, with the GEVD update and a library that returns; nodes
take turns (without normalisation). -/
example (y : Fin 4 → List (List ℂ)) (hy : ∀ k, ∀ ch ∈ y k, ch.length = 12) (up0 : Fin 4 → List (Fin 4)) :
    ∃ lib out trees a, initEventsTI (.few 1 true) 2 1 true false false 0 0 1 (syncNodes 1 12 [[1, 2, 3], [0], [0], [0]])
        (fun r => (exTITree 0 r).2) (fun r => (exTITree 0 r).1) = .ok (out, List.replicate 4 1, trees) ∧
      tiDanseRun { exTIDriveEff with rule := gevdRule lib 1 } 12 y up0 trees out = .ok a := by
  obtain ⟨lib, hlib⟩ := exLib
  obtain ⟨out, trees, a, h1, h2⟩ := C133_tidanse (D := { exTIDriveEff with rule := gevdRule lib 1 }) (y := y) rfl
    (fun k m Ryy Rnn hk p q => gevdRule_total (lt_of_lt_of_le Nat.one_pos hk) hk (hlib m Ryy Rnn p q))
    (fun _ => ⟨1 / 2, by norm_num, by norm_num, rfl⟩)
    (fun m Rnn Ryy h κ => (of_decide_eq_true h) κ) (.inr fun k m κ => (exTIOnline_R0 k m κ).posSemidef)
    (exTIDriveEff_sync y hy)
    (by change 2 ∣ 2; norm_num) rfl (fun k => by simp [exTIDriveEff, exTIOnline, exTIOnlineG, DanseCfg.nb])
    (nbs := [[1, 2, 3], [0], [0], [0]]) rfl (by decide) (seq := true) (keep := false) (sim := false) (ri := 0) (start := 0) 1
    (by simp) (by decide) (fun r _ => exTITree_ok 0 r) up0
  exact ⟨lib, out, trees, a, h1, h2⟩

end
end Danse
