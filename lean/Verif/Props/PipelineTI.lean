import Verif.Proofs.PipelineTI
import Verif.Props.Prune
import Verif.Props.TISched
import Verif.Props.TIDanse2
import Verif.Props.TIEff
import Verif.Props.TIGiven

/-!
# C126 in ad-hoc networks

`tidanseItUp` is one call of the driver for TI-DANSE: a run on the recordings `y` in the network `W`, and re-runs with its
filters on the clean speech `ys` and on the clean noise `yn`, in the tree which that run returned as its network. `mst` is any
minimum-spanning-tree algorithm.
-/

namespace Danse
section
variable {n : Nat} {mst : SimpleGraph (Fin n) → (Fin n → Fin n → ℝ) → SimpleGraph (Fin n)}
  {A : Fin n → Fin n → ℝ} {pos : Fin n → Pt} {c : RootCfg n}

/-- C126 (e): pruning a tree that came out of pruning a network, for any root, gives what pruning the network itself for that
root gives: the same links, neighbours, orientation and ordering. -/
theorem C126_ti_pruned_again (hm : MstAlgorithm mst) {r0 r : Fin n} {P Q : PrunedWasn n}
    (hP : pruneToTree mst A (fun q => some (pos q)) c (some r0) = .ok (some P))
    (hQ : pruneToTree mst A (fun q => some (pos q)) c (some r) = .ok (some Q)) :
    ∃ Q', pruneToTree mst P.adj (fun q => some (pos q)) c (some r) = .ok (some Q') ∧
      Q'.adj = Q.adj ∧ Q'.nbr = Q.nbr ∧ Q'.root = Q.root ∧ Q'.orient = Q.orient ∧ Q'.order = Q.order := by
  have : NeZero n := ⟨fun h => by subst h; exact r.elim0⟩
  rw [prune_prunedAt] at hP hQ
  injection hP with hP
  injection hP with hP
  injection hQ with hQ
  injection hQ with hQ
  subst hP hQ
  refine ⟨prunedAt mst pos A r, ?_, rfl, rfl, rfl, rfl, rfl⟩
  rw [prune_prunedAt, prunedAt_again hm]

variable [NeZero n] {K : Type} [Field K] [StarRing K] [DecidableEq K] {D : DanseCfg K} {s : TIPlan} {nodeFs : Fin n → ℚ}
  {W : TINet n} {p : EvalSettings} {T : Nat} {y ys yn : Fin n → List (List K)} {best : Fin n → BestCol K}
  {sch : List (Instant ℚ) × List ℚ × List (PrunedWasn n)}

/-- C126 (f): unless the broadcasts are "efficient", the re-runs in any of the trees of a run have its schedule and its trees,
whatever the clocks. -/
theorem C126_ti_same_schedule (hm : MstAlgorithm mst) {g : GivenCfg K} (hb : ∀ L, g.bc ≠ .few L true)
    (h : tiSchedule mst pos g s nodeFs W = .ok sch) {P : PrunedWasn n} (hP : P ∈ sch.2.2) :
    tiSchedule mst pos g s nodeFs P.net = .ok sch := by
  have hk : ∃ k, P = prunedAt mst pos W.adj k := by
    unfold tiSchedule initEventsTI at h
    obtain ⟨fsInf, -, h⟩ := bind_ok_inv h
    obtain ⟨ttot, -, h⟩ := bind_ok_inv h
    obtain ⟨ub, -, h⟩ := bind_ok_inv h
    obtain ⟨tr, -, h⟩ := bind_ok_inv h
    obtain ⟨out, -, h⟩ := bind_ok_inv h
    injection h with h
    subst h
    obtain ⟨j, -, rfl⟩ := List.mem_map.mp hP
    exact ⟨_, rfl⟩
  obtain ⟨k, rfl⟩ := hk
  rw [← h]
  unfold tiSchedule PrunedWasn.net
  simp only [prunedAt_again hm]
  exact initEventsTI_nb hb _ _ _ _ _ _ _ _ _ _ _ _ _ _

/-- The driver ends like the run on the recordings if the re-runs have its schedule. -/
theorem ti_ends_of_same {L : Nat} {eff : Bool} (hb : D.g.bc = .few L eff)
    (hs : ∀ k, SameShape (ys k) (y k)) (hn : ∀ k, SameShape (yn k) (y k))
    (h : tiSchedule mst pos D.g s nodeFs W = .ok sch) (h0 : StartsWithTree sch.1)
    (hsame : ∀ P ∈ sch.2.2, tiSchedule mst pos D.g s nodeFs P.net = .ok sch) :
    (∀ a, tiDanseRun D T y W.up (sch.2.2.map PrunedWasn.obj) sch.1 = .ok a →
      ∃ o, tidanseItUp mst pos D s nodeFs W p T y ys yn best = .ok o) ∧
    ∀ e, tiDanseRun D T y W.up (sch.2.2.map PrunedWasn.obj) sch.1 = .error e →
      tidanseItUp mst pos D s nodeFs W p T y ys yn best = .error e := by
  obtain ⟨t, e0, es, rest, hout, hty⟩ := h0
  unfold tidanseItUp
  rw [h]
  simp only [bind, Except.bind]
  cases hh : sch.2.2 with
  | nil =>
    have herr : tiDanseRun D T y W.up (([] : List (PrunedWasn n)).map PrunedWasn.obj) sch.1 = .error .indexError := by
      unfold tiDanseRun
      rw [hout, List.foldlM_cons]
      unfold tiDanseInstant
      simp only [List.foldlM_cons]
      have : tiDanseStepEv D y (([] : List (PrunedWasn n)).map PrunedWasn.obj) t (.init D T y W.up) e0 =
          .error .indexError := by
        unfold tiDanseStepEv tiStepEv
        simp only [hty]
        rfl
      rw [this]
      rfl
    refine ⟨fun a ha => ?_, fun e he => ?_⟩
    · rw [herr] at ha; cases ha
    · rw [herr] at he
      injection he with he
      subst he
      rfl
  | cons P Ps =>
    have hP : P ∈ sch.2.2 := by rw [hh]; exact List.mem_cons_self ..
    have hsch := hsame P hP
    simp only [List.head?_cons, Option.elim]
    refine ⟨fun a ha => ?_, fun e he => ?_⟩
    · rw [ha]
      simp only
      rw [hsch]
      simp only
      rw [hh]
      obtain ⟨hr, -⟩ := tiDanse_run (tiDanse_init_ok T W.up) sch.1 ha
      obtain ⟨m, hm', -⟩ := C85_reproduces hb hr
      have hm'' : tiRun D.g (.given (recorded (D.tiStrategy n) a.run)) y ((P :: Ps).map PrunedWasn.obj)
          (.init D.g.N D.g.refSensor T y (fun k => D.g.wExt k 0) P.orient.up) sch.1 = .ok m := by
        rw [← hm', hout]
        exact tiRun_up hty
      obtain ⟨vn, hvn⟩ := tiRun_ok_of_shape hb (fun k => (hn k).symm) hm''
      obtain ⟨vs, hvs⟩ := tiRun_ok_of_shape hb (fun k => (hs k).symm) hm''
      rw [hvn]
      simp only
      rw [hvs]
      exact ⟨_, rfl⟩
    · rw [he]

/-- Filtered speech and noise add up if the re-runs have the schedule of the run on the recordings. -/
theorem ti_adds_of_same {L : Nat} {eff : Bool} (hb : D.g.bc = .few L eff)
    (hy : ∀ k, SumsM (ys k) (yn k) (y k)) (h : tiSchedule mst pos D.g s nodeFs W = .ok sch) (h0 : StartsWithTree sch.1)
    (hsame : ∀ P ∈ sch.2.2, tiSchedule mst pos D.g s nodeFs P.net = .ok sch)
    (hp : p.batch = false) {o : EvalOut n K} (ho : tidanseItUp mst pos D s nodeFs W p T y ys yn best = .ok o) :
    (∃ u v, o.danse.filt = some (u, v) ∧ ∀ k, Sums (u k) (v k) (o.danse.est k)) ∧
    ∀ l, o.loc = some l → ∃ u v, l.filt = some (u, v) ∧ ∀ k, Sums (u k) (v k) (l.est k) := by
  obtain ⟨t, e0, es, rest, hout, hty⟩ := h0
  unfold tidanseItUp at ho
  obtain ⟨sch1, h1, ho⟩ := bind_ok_inv ho
  rw [h] at h1
  injection h1 with h1
  subst h1
  obtain ⟨P, hP, ho⟩ := bind_ok_inv ho
  have hPm : P ∈ sch.2.2 := by
    cases hh : sch.2.2 with
    | nil => rw [hh] at hP; cases hP
    | cons Q Qs => rw [hh] at hP; injection hP with hP; subst hP; exact List.mem_cons_self ..
  obtain ⟨a, ha, ho⟩ := bind_ok_inv ho
  obtain ⟨sch', h2, ho⟩ := bind_ok_inv ho
  rw [hsame P hPm] at h2
  injection h2 with h2
  subst h2
  obtain ⟨vn, hvn, ho⟩ := bind_ok_inv ho
  obtain ⟨vs, hvs, ho⟩ := bind_ok_inv ho
  injection ho with ho
  subst ho
  obtain ⟨hr, -⟩ := tiDanse_run (tiDanse_init_ok T W.up) sch.1 ha
  have hr' : tiRun D.g (D.tiStrategy n) y (sch.2.2.map PrunedWasn.obj)
      (.init D.g.N D.g.refSensor T y (fun k => D.g.wExt k 0) P.orient.up) sch.1 = .ok a.run := by
    rw [← hr, hout]
    exact tiRun_up hty
  have hk := C85_mixture hb hy D.g.N D.g.refSensor T (fun k => D.g.wExt k 0) P.orient.up sch.1 hr' hvs hvn
  constructor
  · exact ⟨fun k => (vs.node k).d, fun k => (vn.node k).d, by simp [driverOut, hp, TISt.sigs], fun k => (hk k).1⟩
  · intro l hl
    unfold driverOut at hl
    simp only [hp, Bool.false_eq_true, if_false] at hl
    split_ifs at hl with hc
    · injection hl with hl
      subst hl
      exact ⟨fun k => (vs.node k).dLoc, fun k => (vn.node k).dLoc, by simp [TISt.sigs], fun k => (hk k).2⟩

/-- C126 (g): with few-sample broadcasts that are not "efficient", whatever the clocks: if the schedule starts with a tree
formation, the driver ends normally whenever the run on the recordings does, and fails with the exception of that run
otherwise. -/
theorem C126_ti_ends_like_run (hm : MstAlgorithm mst) {L : Nat} (hb : D.g.bc = .few L false)
    (hs : ∀ k, SameShape (ys k) (y k)) (hn : ∀ k, SameShape (yn k) (y k))
    (h : tiSchedule mst pos D.g s nodeFs W = .ok sch) (h0 : StartsWithTree sch.1) :
    (∀ a, tiDanseRun D T y W.up (sch.2.2.map PrunedWasn.obj) sch.1 = .ok a →
      ∃ o, tidanseItUp mst pos D s nodeFs W p T y ys yn best = .ok o) ∧
    ∀ e, tiDanseRun D T y W.up (sch.2.2.map PrunedWasn.obj) sch.1 = .error e →
      tidanseItUp mst pos D s nodeFs W p T y ys yn best = .error e :=
  ti_ends_of_same hb hs hn h h0 fun _ hP => C126_ti_same_schedule hm (by rw [hb]; simp) h hP

/-- C126 (h): and then, in what the evaluation gets, the estimate of every node is at every sample the sum of its filtered
speech and its filtered noise, for TI-DANSE and (if it was asked for) for the local processing. -/
theorem C126_ti_adds_up (hm : MstAlgorithm mst) {L : Nat} (hb : D.g.bc = .few L false)
    (hy : ∀ k, SumsM (ys k) (yn k) (y k)) (h : tiSchedule mst pos D.g s nodeFs W = .ok sch) (h0 : StartsWithTree sch.1)
    (hp : p.batch = false) {o : EvalOut n K} (ho : tidanseItUp mst pos D s nodeFs W p T y ys yn best = .ok o) :
    (∃ u v, o.danse.filt = some (u, v) ∧ ∀ k, Sums (u k) (v k) (o.danse.est k)) ∧
    ∀ l, o.loc = some l → ∃ u v, l.filt = some (u, v) ∧ ∀ k, Sums (u k) (v k) (l.est k) :=
  ti_adds_of_same hb hy h h0 (fun _ hP => C126_ti_same_schedule hm (by rw [hb]; simp) h hP) hp ho

theorem prunedAt_oriented (hm : MstAlgorithm mst) (hA : (linksOf A).Connected)
    (hp : NearlySamePosition pos ∨ ∀ u v, (linksOf A).Adj u v → pos u ≠ pos v) (k : Nat) (hk : k < n) :
    OrientedTree (prunedAt mst pos A k).obj ((prunedAt mst pos A k).order.map TreeLevel.toLevel) := by
  obtain ⟨_, -, -, -, hT⟩ := C93_tree (c := ⟨"", none, fun _ => [], fun _ => []⟩) hm hA hp
  obtain ⟨P, hP, -, -, ho, -⟩ := hT ⟨k, hk⟩
  rw [prune_prunedAt] at hP
  injection hP with hP
  injection hP with hP
  subst hP
  exact ho

/-- C126 (i): the hypothesis of (g) and (h) on the schedule is met by every connected network of synchronous nodes in which no
two linked nodes are at the same place (or all nodes are). -/
theorem C126_ti_sync (hm : MstAlgorithm mst) {g : GivenCfg K} {fs : ℚ} {m : Nat} (hg : SyncTI g fs m y)
    (hst : ∀ k : Fin n, nodeFs k = fs ∧ g.stamps k = clockStamps fs m) (hA : (linksOf W.adj).Connected)
    (hp : NearlySamePosition pos ∨ ∀ u v, (linksOf W.adj).Adj u v → pos u ≠ pos v)
    (hr : s.sim = true → s.jitterRef < n) (hstart : s.start < n) :
    ∃ sch, tiSchedule mst pos g s nodeFs W = .ok sch ∧ StartsWithTree sch.1 := by
  set nbs : List (List Nat) := (List.finRange n).map fun k => (W.nbr k).map (·.val) with hnbs
  have hl : nbs.length = n := by simp [hnbs]
  obtain ⟨out, tr, h1, h2, h3, h4⟩ := initEventsTI_sync (seq := s.seq) (keep := s.keep) (sim := s.sim) (r := s.jitterRef)
    hg.shift (by have := hg.overlap; omega) hg.pos hg.rate hg.clock hg.whole hg.L_pos nbs s.minFrames
    (by rw [hl]; exact hr) (by rw [hl]; exact hstart) hg.exchange (fun _ _ => hg.update)
    (fun k => (prunedAt mst pos W.adj k).order.map TreeLevel.toLevel) (prunedAt mst pos W.adj)
  have hsch : tiSchedule mst pos g s nodeFs W = .ok (out, List.replicate nbs.length fs,
      (List.range tr.2.length).map fun j => prunedAt mst pos W.adj ((s.start + j) % nbs.length)) := by
    unfold tiSchedule
    rw [← h1]
    congr 1
    simp only [hnbs, syncNodes, List.map_map, Function.comp_def, (hst _).1, (hst _).2]
  refine ⟨_, hsch, starts_with_tree h3 h2 ?_⟩
  · change ∀ o ∈ tr.2, _
    rw [h4, hl]
    intro o ho
    obtain ⟨j, -, rfl⟩ := List.mem_map.mp ho
    exact (prunedAt_oriented hm hA hp _ (Nat.mod_lt _ (by omega))).covers

end

section
open scoped ComplexOrder
variable {n : Nat} [NeZero n] {mst : SimpleGraph (Fin n) → (Fin n → Fin n → ℝ) → SimpleGraph (Fin n)} {pos : Fin n → Pt}
  {D : DanseCfg ℂ} {s : TIPlan} {nodeFs : Fin n → ℚ} {W : TINet n} {p : EvalSettings} {y ys yn : Fin n → List (List ℂ)}
  {best : Fin n → BestCol ℂ}

/-- C126 (j): end to end. Synchronous nodes that update at the same time with Wiener filters, broadcasts of `Ns` samples, frames
of even length, positive semi-definite initial matrices (or the first frame as basis), a rank test that rejects singular matrices,
any connected network in which linked nodes are not at the same place: for every recording (of equally long signals) and every
decomposition of it the driver ends normally, and filtered speech and filtered noise add up to the estimates. -/
theorem C126_ti_completes (hm : MstAlgorithm mst) (hseq : D.seq = false) (hsq : s.seq = false) (hrule : D.rule = mwfRule)
    (href : ∀ k, D.g.refSensor < D.M k) (hβ : ∀ k, ∃ b : ℝ, 0 < b ∧ b ≤ 1 ∧ D.beta k = (b : ℂ))
    (hv : ∀ m Rnn Ryy, D.valid m Rnn Ryy = true → ∀ κ, (Rnn κ).det ≠ 0 ∧ (Ryy κ).det ≠ 0)
    (hR : D.use1st = true ∨ ∀ k m κ, (D.R0 k m κ).PosSemidef)
    {fs : ℚ} {m : Nat} (hg : SyncTI D.g fs m y) (he : 2 ∣ D.g.N) (hb : D.g.bc = .few D.g.Ns false)
    (hw : ∀ k, ∀ b ∈ D.g.wExt k 0, b.length = D.nb)
    (hst : ∀ k : Fin n, nodeFs k = fs ∧ D.g.stamps k = clockStamps fs m) (hA : (linksOf W.adj).Connected)
    (hp : NearlySamePosition pos ∨ ∀ u v, (linksOf W.adj).Adj u v → pos u ≠ pos v)
    (hr : s.sim = true → s.jitterRef < n) (hstart : s.start < n) (hy : ∀ k, SumsM (ys k) (yn k) (y k))
    (hbt : p.batch = false) :
    ∃ o, tidanseItUp mst pos D s nodeFs W p m y ys yn best = .ok o ∧
      (∃ u v, o.danse.filt = some (u, v) ∧ ∀ k, Sums (u k) (v k) (o.danse.est k)) ∧
      ∀ l, o.loc = some l → ∃ u v, l.filt = some (u, v) ∧ ∀ k, Sums (u k) (v k) (l.est k) := by
  obtain ⟨sch, h1, h2⟩ := C126_ti_sync (s := s) (W := W) hm hg hst hA hp hr hstart
  obtain ⟨out, fsInf, Ps⟩ := sch
  obtain ⟨out', trees, a, h3, h4⟩ := C119_completes (D := D) hseq hrule href hβ hv hR hg he hb hw
    (nbs := (List.finRange n).map fun k => (W.nbr k).map (·.val)) (by simp) (keep := s.keep) (sim := s.sim)
    (ri := s.jitterRef) s.minFrames hr hstart (fun k hk => prunedAt_oriented hm hA hp k hk) W.up
  have h5 := h1
  unfold tiSchedule at h5
  have h5 := initEventsTI_map PrunedWasn.obj h5
  have e : ((List.finRange n).map fun k => (⟨nodeFs k, D.g.stamps k, (W.nbr k).map (·.val)⟩ : ClockNode)) =
      syncNodes fs m ((List.finRange n).map fun k => (W.nbr k).map (·.val)) := by
    simp only [syncNodes, List.map_map, Function.comp_def, (hst _).1, (hst _).2]
  rw [e, hsq, h3] at h5
  injection h5 with h5
  injection h5 with e1 h5
  injection h5 with e2 e3
  subst e1 e3
  obtain ⟨o, ho⟩ := (C126_ti_ends_like_run (p := p) (best := best) hm hb (fun k => (hy k).shape.1)
    (fun k => (hy k).shape.2) h1 h2).1 a h4
  exact ⟨o, ho, C126_ti_adds_up hm hb hy h1 h2 hbt ho⟩

/-- The nodes of `exTIOnline` with the clocks that the signals of 12 samples have. -/
noncomputable def exTIDrive : DanseCfg ℂ :=
  { exTIOnline with g := { exTIOnlineG with stamps := fun _ => clockStamps 1 12 } }

/-- The hypotheses of C126 (j) are met by four nodes in a line, for any speech and noise of 12 samples: (g) and (h) apply to
runs in which every node makes nine updates (`exTIOnline_run`). -/
example (us un : Fin 4 → List ℂ) (hs : ∀ k, (us k).length = 12) (hn : ∀ k, (un k).length = 12) (p : EvalSettings)
    (hp : p.batch = false) (best : Fin 4 → BestCol ℂ) : ∃ mst, MstAlgorithm mst ∧
    ∃ o, tidanseItUp mst exApart exTIDrive ⟨false, false, false, 0, 0, 1⟩ (fun _ => 1) ⟨exLine, fun _ => [], fun _ => []⟩ p 12
        (fun k => [List.zipWith (· + ·) (us k) (un k)]) (fun k => [us k]) (fun k => [un k]) best = .ok o ∧
      ∃ u v, o.danse.filt = some (u, v) ∧ ∀ k, Sums (u k) (v k) (o.danse.est k) := by
  obtain ⟨mst, hm⟩ := exists_mst 4
  have hsync : SyncTI exTIDrive.g 1 12 (fun k => [List.zipWith (· + ·) (us k) (un k)]) :=
    ⟨Nat.one_pos, by change 1 < 2; norm_num, rfl, (by intro h; cases h),
    (by intro L eff h; injection h with a b; subst a b; exact ⟨rfl, le_refl _⟩), one_pos,
    by decide_cbv, fun _ => rfl, (by intro k ch h; simp at h; simp [h, hs, hn]),
    by change syncBc (.few 1 false) 2 1 12 1 ≠ []; decide_cbv,
    by change syncUpTI (.few 1 false) 2 1 12 1 ≠ []; decide_cbv⟩
  obtain ⟨o, h1, h2, -⟩ := C126_ti_completes (D := exTIDrive) (s := ⟨false, false, false, 0, 0, 1⟩) (nodeFs := fun _ => 1)
    (W := ⟨exLine, fun _ => [], fun _ => []⟩) (p := p) (best := best)
    (ys := fun k => [us k]) (yn := fun k => [un k]) hm rfl rfl rfl
    (fun _ => Nat.one_pos) (fun _ => ⟨1 / 2, by norm_num, by norm_num, rfl⟩)
    (fun m Rnn Ryy h κ => (of_decide_eq_true h) κ) (.inr fun k m κ => (exTIOnline_R0 k m κ).posSemidef) hsync
    (by change 2 ∣ 2; norm_num) rfl (fun k => by simp [exTIDrive, exTIOnline, exTIOnlineG, DanseCfg.nb]) (fun _ => ⟨rfl, rfl⟩)
    exLine_connected (.inr exApart_ok) (by simp) (by decide) (fun k => .cons (sums_zipWith (by rw [hs, hn])) .nil) hp
  exact ⟨mst, hm, o, h1, h2⟩

end

/-! ## Efficient broadcasts -/

section
local instance starRatFast : StarRing ℚ := starRingOfComm

/-- Node 1 samples at 5/4 Hz, the others at 1 Hz. -/
def exFastClock (k : Nat) : List ℚ :=
  if k = 1 then [0, 4 / 5, 8 / 5, 12 / 5, 16 / 5, 4, 24 / 5, 28 / 5, 32 / 5, 36 / 5] else [0, 1, 2, 3, 4, 5, 6]

/-- The schedule with efficient broadcasts in a network with neighbour lists `nb` that is pruned to the star around node 0. -/
def exFastSched (nb : List (List Nat)) : Except PyErr (List (Instant ℚ) × List ℚ × List Nat) :=
  initEventsTI (.few 1 true) 2 1 true true false 0 0 1
    (nb.mapIdx fun k q => ⟨if k = 1 then 5 / 4 else 1, exFastClock k, q⟩) (fun r => (exTITree 0 r).2) id

/-- The two schedules: they differ in the events at 1 s and 6 s. -/
def exFastOut (first : List OutEv) : List (Instant ℚ) :=
  let own := exTIEx [1] [1]
  let others := exTIEx [2, 3, 0] [0, 2, 3]
  [⟨0, exTIEvs .tr [0]⟩, ⟨1, first⟩, ⟨8 / 5, own ++ [⟨1, .up, true⟩]⟩,
   ⟨2, others ++ [⟨0, .up, false⟩, ⟨2, .up, true⟩, ⟨3, .up, true⟩]⟩, ⟨12 / 5, own ++ [⟨1, .up, false⟩]⟩,
   ⟨3, others ++ [⟨0, .up, true⟩, ⟨2, .up, false⟩, ⟨3, .up, true⟩]⟩, ⟨16 / 5, [⟨1, .up, true⟩]⟩,
   ⟨4, exTIEx [1, 2, 3, 0] [0, 1, 2, 3] ++ [⟨0, .up, true⟩, ⟨1, .up, true⟩, ⟨2, .up, true⟩, ⟨3, .up, false⟩]⟩,
   ⟨24 / 5, own ++ [⟨1, .up, true⟩]⟩, ⟨5, others ++ [⟨0, .up, false⟩, ⟨2, .up, true⟩, ⟨3, .up, true⟩]⟩,
   ⟨28 / 5, [⟨1, .up, false⟩]⟩, ⟨6, first⟩, ⟨32 / 5, [⟨1, .up, true⟩]⟩]

/-- `y` with three more samples at node 1. -/
def exFastSig (y : Fin 4 → List (List ℚ)) (k : Fin 4) : List (List ℚ) := (y k).map (· ++ if k = 1 then [0, 0, 0] else [])

/-- A run with one of the schedules. -/
def exFastRun (first : List OutEv) (U : TIStrategy 4 ℚ) (y : Fin 4 → List (List ℚ)) : Except PyErr (TISt 4 ℚ) :=
  tiRun { exTI (.few 1 true) with stamps := exFastClock, fs := fun k => if k = 1 then 5 / 4 else 1 } U (exFastSig y)
    [(exTITree 0 0).1] (exTIStart (exFastSig y)) (exFastOut first)

/-- The re-run on `y`, in the star, with the filters of the run on the mixture in the complete network: the output of node 0. -/
def exFastAgain (y : Fin 4 → List (List ℚ)) : Option (List ℚ) :=
  (exFastRun (exTIEx [2, 3, 0] [0, 2, 3]) exTIStrategy exTISig).toOption.bind fun m =>
    (exFastRun (exTIEx [0] [0]) (.given (recorded exTIStrategy m)) y).toOption.map fun s => (s.node 0).d

set_option maxHeartbeats 4000000 in
/-- C126, refuted part: with efficient broadcasts and different sampling rates the re-runs have another schedule than the run.
The broadcasts serve the updates of the neighbours; the run counts all neighbours, the re-runs only those in the tree. Complete
network of four nodes, pruned to the star around node 0: in the run nodes 0, 2 and 3 broadcast at 1 s, in the re-runs node 0 does.
The first output samples of node 0 are 5 and 26; filtered speech and noise add up to 3 and 10, and so does the re-run on the
mixture itself. -/
theorem C126_refuted_efficient :
    (exFastSched [[1, 2, 3], [0, 2, 3], [0, 1, 3], [0, 1, 2]]).toOption =
      some (exFastOut (exTIEx [2, 3, 0] [0, 2, 3]), [1, 5 / 4, 1, 1], [0]) ∧
    (exFastSched [[1, 2, 3], [0], [0], [0]]).toOption = some (exFastOut (exTIEx [0] [0]), [1, 5 / 4, 1, 1], [0]) ∧
    ((exFastRun (exTIEx [2, 3, 0] [0, 2, 3]) exTIStrategy exTISig).toOption.map fun s => (s.node 0).d) =
      some [5, 26, 19, 110, 29, 0, 0] ∧
    exFastAgain exTISp = some [0, 0, 0, 28, 27 / 2, 0, 0] ∧
    exFastAgain exTINo = some [3, 10, 19, 82, 31 / 2, 0, 0] ∧
    exFastAgain exTISig = some [3, 10, 19, 110, 29, 0, 0] := by
  refine ⟨by decide_cbv, by decide_cbv, by decide +kernel, by decide +kernel, by decide +kernel, by decide +kernel⟩

end
end Danse
