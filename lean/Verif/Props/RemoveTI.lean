import Verif.Proofs.DeadTI2
import Verif.Props.DeadTI

/-!
# Property C140: a TI-DANSE node that records nothing does not matter

`D`, the parameters, is the same in both networks: that of `n + 1` nodes with the signals `y` and that of its first `n`
nodes (`withoutLast y`).
-/

set_option linter.unusedSectionVars false

namespace Danse
section
variable {K : Type} [Field K] [StarRing K] [DecidableEq K] {D : DanseCfg K} {n : Nat} {y : Fin (n + 1) → List (List K)}

/-- C140: synchronous nodes that do not update in turns, the last of which records zeros only. If the run of the network of
all nodes ends without an exception, then so does the run of the network without that node, and in it every node has
the same observations (the same in-network sums), the same filters after every update, the same broadcast filter and the
same output (in exact arithmetic); whatever the two networks are, and their trees, roots and re-rootings. -/
theorem C140_remove {fs : ℚ} {m : Nat} (hg : SyncTI D.g fs m y) (hz : ∀ ch ∈ y (Fin.last n), Silent ch)
    {nbs nbs' : List (List Nat)} (hn : nbs.length = n + 1) (hn' : nbs'.length = n) {keep keep' sim sim' : Bool}
    {r r' start start' : Nat} {minF : Int} (hr : sim = true → r < n + 1) (hr' : sim' = true → r' < n) (hs : start < n + 1)
    (hs' : start' < n) {ordOf ordOf' : Nat → List Level} {treeOf : Nat → TreeObj (n + 1)} {treeOf' : Nat → TreeObj n}
    (hT : ∀ k < n + 1, OrientedTree (treeOf k) (ordOf k)) (hT' : ∀ k < n, OrientedTree (treeOf' k) (ordOf' k))
    {out out' : List (Instant ℚ)} {fsInf fsInf' : List ℚ} {trees : List (TreeObj (n + 1))} {trees' : List (TreeObj n)}
    (h : initEventsTI D.g.bc D.g.N D.g.Ns false keep sim r start minF (syncNodes fs m nbs) ordOf treeOf =
      .ok (out, fsInf, trees))
    (h' : initEventsTI D.g.bc D.g.N D.g.Ns false keep' sim' r' start' minF (syncNodes fs m nbs') ordOf' treeOf' =
      .ok (out', fsInf', trees'))
    {T : Nat} {up0 : Fin (n + 1) → List (Fin (n + 1))} {a : TIDanseSt (n + 1) D}
    (ha : tiDanseRun D T y up0 trees out = .ok a) (up0' : Fin n → List (Fin n)) :
    ∃ a', tiDanseRun D T (withoutLast y) up0' trees' out' = .ok a' ∧
      ∀ k : Fin n, a'.run.node k = a.run.node k.castSucc ∧
        ∀ i, a'.row k i = a.row k.castSucc i ∧ a'.rowLoc k i = a.rowLoc k.castSucc i := by
  have hg' : SyncTI D.g fs m (withoutLast y) :=
    ⟨hg.shift, hg.overlap, hg.window, hg.whole, hg.few, hg.rate, hg.clock, hg.rates, fun k => hg.signals k.castSucc,
      hg.exchange, hg.update⟩
  have hd := (C82_run (U := D.tiStrategy (n + 1)) hg hn hr hs hT h T (fun k => D.g.wExt k 0) up0).1 _ (C119_instance ha)
  have hw : List.Forall₂ (SubWork n) (worksOf out) (worksOf out') := by
    obtain ⟨o1, tr, e1, b1, -, c1⟩ := initEventsTI_sync (seq := false) (keep := keep) (sim := sim)
      (r := r) hg.shift (by have := hg.overlap; omega) hg.pos hg.rate hg.clock hg.whole hg.L_pos nbs minF (by rw [hn]; exact hr)
      (by rw [hn]; exact hs) hg.exchange (fun _ _ => hg.update) ordOf treeOf
    obtain ⟨o2, tr2, e2, b2, -, c2⟩ := initEventsTI_sync (seq := false) (keep := keep') (sim := sim')
      (r := r') hg.shift (by have := hg.overlap; omega) hg.pos hg.rate hg.clock hg.whole hg.L_pos nbs' minF (by rw [hn']; exact hr')
      (by rw [hn']; exact hs') hg.exchange (fun _ _ => hg.update) ordOf' treeOf'
    rw [h] at e1
    rw [h'] at e2
    injection e1 with e1
    injection e1 with e1 _
    injection e2 with e2
    injection e2 with e2 _
    subst e1 e2
    rw [hn] at b1 c1
    rw [hn'] at b2 c2
    refine built_subWorks (by omega) (Nat.le_succ n) hg.exchange b1 b2 ?_ ?_
    · intro o ho
      rw [c1] at ho
      obtain ⟨j, _, rfl⟩ := List.mem_map.mp ho
      exact (hT _ (Nat.mod_lt _ (by omega))).covers
    · intro o ho
      rw [c2] at ho
      obtain ⟨j, _, rfl⟩ := List.mem_map.mp ho
      exact (hT' _ (Nat.mod_lt _ (by omega))).covers
  have hd' := directRun_dropLast (U' := D.tiStrategy n) (fun k => ⟨rfl, rfl⟩) hz hw hd
    ⟨silent_nil, fun _ hv => (List.mem_replicate.mp hv).2⟩
  obtain ⟨s', h1, h2⟩ := (C82_run (U := D.tiStrategy n) hg' hn' hr' hs' hT' h' T (fun k => D.g.wExt k 0) up0').2 _ hd'
  have hnode : ∀ k : Fin n, s'.node k = a.run.node k.castSucc := by
    intro k
    have := congrArg (fun v : TIView n K => v.node k) h2
    exact this
  have hok := (tiDanse_run (tiDanse_init_ok T up0) out ha).2
  obtain ⟨a', h3, h4⟩ := tiDanse_run_of (D := D) (tiDanse_init_ok T up0') out' (s := s') (fun k => by
    obtain ⟨q, hq, -⟩ := hok k.castSucc
    rw [hnode k]
    exact ⟨_, hq⟩) h1
  refine ⟨a', h3, fun k => ⟨by rw [h4, hnode k], ?_⟩⟩
  obtain ⟨r1, e1, -⟩ := hok k.castSucc
  obtain ⟨r2, e2, -⟩ := (tiDanse_run (tiDanse_init_ok T up0') out' h3).2 k
  rw [h4, hnode k] at e2
  have e3 : D.tiNodeFold k (a.run.node k.castSucc).hist = .ok (a.node k.castSucc, r1) := e1
  rw [e3] at e2
  injection e2 with e2
  injection e2 with e2 _
  intro i
  unfold TIDanseSt.row TIDanseSt.rowLoc
  constructor
  · exact congrArg (fun nd : TDNode D.nb (D.M k) K => ((nd.danse.w i).toOption.map frameRow).getD []) e2.symm
  · exact congrArg (fun nd : TDNode D.nb (D.M k) K => ((nd.loc.w i).toOption.map frameRow).getD []) e2.symm

end

/-! ## Concrete networks -/

/-- A run of three nodes: has node 0 started, its filter, its local filter after seven updates, its output. -/
noncomputable def exThreeTI (use1st : Bool) (y0 y1 y2 : List ℚ) :
    Except PyErr (Bool × List (List ℚ) × List (List ℚ) × List ℚ) :=
  letI : StarRing ℚ := starRingOfComm
  (tiDanseRun (exLevelTI use1st) 10 ![[y0], [y1], [y2]] (fun _ => []) [(exStar 2).1] (exStarOut [1, 2, 0] [0, 1, 2])).map
    fun s => ((s.run.node 0).started, s.row 0 7, s.rowLoc 0 7, (s.run.node 0).d)

/-- The hypotheses of `C140_remove` are met by a network of three nodes the last of which records zeros, and in which the
others update their filters (`exStar_sched2` and `exStar_sched3` are the schedules): node 0 computes what it computes in
the network of two nodes (`exTwoTI`). With a third node that records something, it computes something else. -/
example : SyncTI (exLevelTI true).g 1 10 ![[[4, 2, 2, 1, 5, 1, 3, 2, 4, 1]], [[1, 0, 2, 3, -1, 2, 4, 2, 5, 3]],
      [List.replicate 10 (0 : ℚ)]] ∧
    OrientedTree (exStar 2).1 (exStar 2).2 ∧ OrientedTree (exStar 1).1 (exStar 1).2 ∧
    exThreeTI true [4, 2, 2, 1, 5, 1, 3, 2, 4, 1] [1, 0, 2, 3, -1, 2, 4, 2, 5, 3] (List.replicate 10 0) =
      .ok (true, [[5827 / 13915, -79 / 417], [-7616 / 13915, -128 / 1251]], [[7 / 31, -7 / 41]],
        [2, 2, 2, 1, 5, -22165 / 17091, -111501229393 / 33057155835, 3236003 / 17407665, 0, 0]) ∧
    exTwoTI [4, 2, 2, 1, 5, 1, 3, 2, 4, 1] [1, 0, 2, 3, -1, 2, 4, 2, 5, 3] =
      .ok (true, [[5827 / 13915, -79 / 417], [-7616 / 13915, -128 / 1251]], [[7 / 31, -7 / 41]]) ∧
    exThreeTI true [4, 2, 2, 1, 5, 1, 3, 2, 4, 1] [1, 0, 2, 3, -1, 2, 4, 2, 5, 3] (List.replicate 10 0) ≠
      exThreeTI true [4, 2, 2, 1, 5, 1, 3, 2, 4, 1] [1, 0, 2, 3, -1, 2, 4, 2, 5, 3] [3, 1, 4, 1, 5, 9, 2, 6, 5, 3] := by
  refine ⟨exStar_sync ?_, exStar_ok 2, exStar_ok 1, ?_, ?_, ?_⟩
  · intro k
    fin_cases k <;> simp
  · decide +kernel
  · decide +kernel
  · decide +kernel

end Danse
