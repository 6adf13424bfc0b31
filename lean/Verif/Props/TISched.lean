import Verif.Proofs.TIRun9
import Verif.Proofs.Sched3
import Verif.Props.Tree

/-!
# C82: TI-DANSE from the time stamps to the outputs, for synchronous nodes
-/

set_option linter.unusedSectionVars false

namespace Danse
section
variable {n : Nat} {K : Type} {g : GivenCfg K} {fs : ℚ} {m : Nat} {y : Fin n → List (List K)}

theorem SyncTI.pos (h : SyncTI g fs m y) : 0 < m := by
  by_contra hc
  have hm : m = 0 := by omega
  have := h.update
  unfold syncUpTI everySep at this
  rw [hm] at this
  split at this <;> simp at this

theorem SyncTI.L_pos (h : SyncTI g fs m y) : ∀ L eff, g.bc = .few L eff → 0 < L ∧ eff = false :=
  fun L eff hb => ⟨lt_of_lt_of_le h.shift (h.few L eff hb).2, (h.few L eff hb).1⟩

/-- C82 (a): for synchronous nodes `initialize_events` succeeds whatever the network, with or without
re-rooting. Every node fuses, sends and relays at the times `syncBc` and updates at the times `syncUpTI`;
the roots of the trees that are returned follow the update sequence. -/
theorem C82_schedule {β : Type} (hg : SyncTI g fs m y) {nbs : List (List Nat)} (hn : nbs.length = n)
    {seq keep sim : Bool} {r start : Nat} (minF : Int) (hr : sim = true → r < n) (hstart : start < n)
    (ordOf : Nat → List Level) (hord : ∀ k < n, CoversNodes n (ordOf k)) (treeOf : Nat → β) :
    ∃ out trees, initEventsTI g.bc g.N g.Ns seq keep sim r start minF (syncNodes fs m nbs) ordOf treeOf =
        .ok (out, List.replicate n fs, trees) ∧
      (∀ t k, (t, k, .up) ∈ delivered out ↔ k < n ∧ t ∈ syncUpTI g.bc g.N g.Ns m fs) ∧
      (∀ ty ∈ [EvType.fu, .bc, .re], ∀ t k,
        (t, k, ty) ∈ delivered out ↔ k < n ∧ t ∈ syncBc g.bc g.N g.Ns m fs) ∧
      ∀ j b, trees[j]? = some b → b = treeOf ((start + j) % n) := by
  subst hn
  obtain ⟨out, tr, h1, h2, h3, h4⟩ := initEventsTI_sync (β := β) (seq := seq) (keep := keep) (sim := sim)
    (r := r) hg.shift (by have := hg.overlap; omega) hg.pos hg.rate hg.clock hg.whole hg.L_pos nbs minF hr hstart
    hg.exchange (fun _ _ => hg.update) ordOf treeOf
  have hcov : ∀ o ∈ tr.2, CoversNodes nbs.length o := by
    intro o ho
    rw [h4] at ho
    obtain ⟨j, _, rfl⟩ := List.mem_map.mp ho
    exact hord _ (Nat.mod_lt _ (by omega))
  obtain ⟨e1, e2, e3, e4⟩ := C01_exactly_once h2 fun _ => by simpa [tiArgs] using hcov
  refine ⟨out, _, h1, ?_, ?_, ?_⟩
  · intro t k
    rw [e4]
    unfold Scheduled
    constructor
    · rintro ⟨hk, ts, hts, ht⟩
      have hk' : k < nbs.length := by simpa [tiArgs] using hk
      refine ⟨hk', ?_⟩
      rw [List.eq_of_mem_replicate (List.mem_of_getElem? hts)] at ht
      exact ht
    · rintro ⟨hk, ht⟩
      refine ⟨by simpa [tiArgs] using hk, _, ?_, ht⟩
      show (List.replicate _ _)[k]? = _
      rw [List.getElem?_eq_getElem (by simpa using hk), List.getElem_replicate]
  · intro ty hty t k
    rw [e4]
    exact scheduled_ex h3 hty
  · intro j b hb
    rw [List.getElem?_map] at hb
    obtain ⟨i, hi, rfl⟩ := Option.map_eq_some_iff.mp hb
    rw [List.getElem?_range (by
      by_contra hc
      rw [List.getElem?_eq_none (by simpa using hc)] at hi
      cases hi)] at hi
    injection hi with hi
    rw [hi]

end

section
variable {n : Nat} {K : Type} [Field K] [StarRing K] [DecidableEq K] {g : GivenCfg K} {U : TIStrategy n K}
  {fs : ℚ} {m : Nat} {y : Fin n → List (List K)}

/-- Exchanges take place within the signals. -/
theorem SyncTI.within (h : SyncTI g fs m y) :
    ∀ t ∈ syncBc g.bc g.N g.Ns m fs, ∀ k, ∀ ch ∈ y k, 0 ≤ ⌊t * g.fs k⌋ ∧ ⌊t * g.fs k⌋ ≤ ch.length := by
  intro t ht k ch hch
  rw [h.rates, h.signals k ch hch]
  have key : ∀ sep a, 0 < sep → t ∈ everySep sep fs a ((m - 1) / sep) → 0 ≤ ⌊t * fs⌋ ∧ ⌊t * fs⌋ ≤ m := by
    intro sep a hs ht
    obtain ⟨j, hj, rfl⟩ := List.mem_map.mp ht
    rw [floor_everySep h.rate]
    have := mul_lt_of_lt_div h.pos hs (j := a + j) (by have := List.mem_range.mp hj; omega)
    omega
  unfold syncBc at ht
  split at ht
  · exact key _ _ h.shift ht
  · next L eff hb => exact key _ _ (h.L_pos L eff hb).1 ht

theorem treesOriented {ordOf : Nat → List Level} {treeOf : Nat → TreeObj n}
    (hT : ∀ k < n, OrientedTree (treeOf k) (ordOf k)) {start : Nat} (hstart : start < n) (l : Nat) :
    List.Forall₂ OrientedTree ((List.range l).map fun j => treeOf ((start + j) % n))
      ((List.range l).map fun j => ordOf ((start + j) % n)) := by
  rw [List.forall₂_map_left_iff, List.forall₂_map_right_iff, List.forall₂_same]
  exact fun j _ => hT _ (Nat.mod_lt _ (by omega))

/-- C82 (b): synchronous nodes, from the time stamps on. A run of TI-DANSE over any trees (one for each
root), with or without re-rooting, computes what nodes that exchange their signals directly would. -/
theorem C82_run (hg : SyncTI g fs m y) {nbs : List (List Nat)} (hn : nbs.length = n)
    {seq keep sim : Bool} {r start : Nat} {minF : Int} (hr : sim = true → r < n) (hstart : start < n)
    {ordOf : Nat → List Level} {treeOf : Nat → TreeObj n} (hT : ∀ k < n, OrientedTree (treeOf k) (ordOf k))
    {out : List (Instant ℚ)} {fsInf : List ℚ} {trees : List (TreeObj n)}
    (h : initEventsTI g.bc g.N g.Ns seq keep sim r start minF (syncNodes fs m nbs) ordOf treeOf =
      .ok (out, fsInf, trees))
    (T : Nat) (ext : Fin n → List (List K)) (up0 : Fin n → List (Fin n)) :
    (∀ s, tiRun g U y trees (.init g.N g.refSensor T y ext up0) out = .ok s →
      DirectRun g U y (.init g.N g.refSensor T y ext) (worksOf out) s.view) ∧
    ∀ b, DirectRun g U y (.init g.N g.refSensor T y ext) (worksOf out) b →
      ∃ s, tiRun g U y trees (.init g.N g.refSensor T y ext up0) out = .ok s ∧ s.view = b := by
  subst hn
  obtain ⟨out', tr, h1, h2, h3, h4⟩ := initEventsTI_sync (seq := seq) (keep := keep) (sim := sim)
    (r := r) hg.shift (by have := hg.overlap; omega) hg.pos hg.rate hg.clock hg.whole hg.L_pos nbs minF hr hstart
    hg.exchange (fun _ _ => hg.update) ordOf treeOf
  rw [h] at h1
  injection h1 with h1
  injection h1 with e1 h1
  injection h1 with e2 e3
  subst e1 e3
  refine C81_run h3 h2 ?_ hg.overlap hg.window hg.few hg.within T ext up0
  show List.Forall₂ _ _ tr.2
  rw [h4]
  simpa using treesOriented hT hstart tr.2.length

/-- C82 (c): the outputs of TI-DANSE depend neither on the network, nor on how it is pruned to trees, nor
on whether it is re-rooted. -/
theorem C82_topology (hg : SyncTI g fs m y) {nbs nbs' : List (List Nat)} (hn : nbs.length = n)
    (hn' : nbs'.length = n) {seq keep keep' sim : Bool} {r start : Nat} {minF : Int} (hr : sim = true → r < n)
    (hstart : start < n) {ordOf ordOf' : Nat → List Level} {treeOf treeOf' : Nat → TreeObj n}
    (hT : ∀ k < n, OrientedTree (treeOf k) (ordOf k)) (hT' : ∀ k < n, OrientedTree (treeOf' k) (ordOf' k))
    {out out' : List (Instant ℚ)} {fsInf fsInf' : List ℚ} {trees trees' : List (TreeObj n)}
    (h : initEventsTI g.bc g.N g.Ns seq keep sim r start minF (syncNodes fs m nbs) ordOf treeOf =
      .ok (out, fsInf, trees))
    (h' : initEventsTI g.bc g.N g.Ns seq keep' sim r start minF (syncNodes fs m nbs') ordOf' treeOf' =
      .ok (out', fsInf', trees'))
    (T : Nat) (ext : Fin n → List (List K)) (up0 up0' : Fin n → List (Fin n)) {s : TISt n K}
    (hs : tiRun g U y trees (.init g.N g.refSensor T y ext up0) out = .ok s) :
    ∃ s', tiRun g U y trees' (.init g.N g.refSensor T y ext up0') out' = .ok s' ∧ s'.node = s.node ∧
      s'.net.etaMk = s.net.etaMk := by
  subst hn
  obtain ⟨o1, tr, h1, h2, h3, h4⟩ := initEventsTI_sync (seq := seq) (keep := keep) (sim := sim)
    (r := r) hg.shift (by have := hg.overlap; omega) hg.pos hg.rate hg.clock hg.whole hg.L_pos nbs minF hr hstart
    hg.exchange (fun _ _ => hg.update) ordOf treeOf
  obtain ⟨o1', tr', h1', h2', h3', h4'⟩ := initEventsTI_sync (seq := seq) (keep := keep') (sim := sim)
    (r := r) hg.shift (by have := hg.overlap; omega) hg.pos hg.rate hg.clock hg.whole hg.L_pos nbs' minF
    (by rw [hn']; exact hr) (by rw [hn']; exact hstart)
    hg.exchange (fun _ _ => hg.update) ordOf' treeOf'
  rw [h] at h1
  injection h1 with h1
  injection h1 with e1 h1
  injection h1 with e2 e3
  subst e1 e3
  rw [h'] at h1'
  injection h1' with h1'
  injection h1' with e1 h1'
  injection h1' with e2 e3
  subst e1 e3
  rw [hn'] at h2' h3' h4'
  obtain ⟨s', k1, k2, _, _, k3⟩ := C81_topology (U := U) (trees := _) (tr := tr'.1) (ord := tr'.2) h3 h3' h2 h2'
    (by
      show List.Forall₂ _ _ tr.2
      rw [h4]
      simpa using treesOriented hT hstart tr.2.length)
    (trees' := (List.range tr'.2.length).map fun j => treeOf' ((start + j) % nbs.length)) (by
      rw [h4']
      simpa using treesOriented hT' hstart tr'.2.length) hg.overlap hg.window hg.few hg.within T ext up0 up0' hs
  exact ⟨s', by rw [hn']; exact k1, k2, k3⟩

end

/-! ## A concrete case: four nodes in two different star networks -/

section
local instance : StarRing ℚ := starRingOfComm

/-- Four nodes with one sensor each and seven samples. -/
def exTISig (k : Fin 4) : List (List ℚ) :=
  [[[3, 1, 4, 1, 5, 9, 2], [2, 7, 1, 8, 2, 8, 1], [1, 4, 1, 4, 2, 1, 3], [1, 6, 1, 8, 0, 3, 3]].getD k []]

/-- Frames of two samples, every sample. -/
def exTI (bc : BcType) : GivenCfg ℚ :=
  { N := 2, Ns := 1, ζ := -1, c := 1, h := [1, 1], f := [1, 1], nb := fun _ => [], fs := fun _ => 1,
    stamps := fun _ => [], bc := bc, upTDEvery := 3, noFusion := false, conv := false, refSensor := 0,
    wInt := fun _ _ => [], wExt := fun _ _ => [], wLoc := fun _ _ => [], rot := fun _ _ _ _ => 1 }

/-- Filters that change at every update. -/
def exTIStrategy : TIStrategy 4 ℚ :=
  { rows := fun k hist => ⟨[[1, 1], [1, 1]], [[(hist.length : ℚ) + k, 1], [2, 1]], [[1, 1]]⟩
    started := fun _ _ => true }

/-- The star network with node `c` in the middle. -/
def starAt (c v : Fin 4) : List (Fin 4) := if v = c then (List.finRange 4).filter (· ≠ c) else [c]

theorem starAt_ok (c : Fin 4) : NeighboursOf (SimpleGraph.starGraph c) (starAt c) := by
  intro v
  constructor
  · revert v c; decide
  · intro q
    rw [SimpleGraph.starGraph_adj]
    revert v q c
    decide

/-- Tree and ordering for the root `r`. -/
def exTITree (c : Fin 4) (r : Nat) : TreeObj 4 × List Level :=
  match orientate (starAt c) (Fin.ofNat 4 r) 5 with
  | some o => (⟨Fin.ofNat 4 r, o.1.up⟩, o.2.map TreeLevel.toLevel)
  | none => (⟨Fin.ofNat 4 r, fun _ => []⟩, [])

theorem exTITree_ok (c : Fin 4) (r : Nat) : OrientedTree (exTITree c r).1 (exTITree c r).2 := by
  obtain ⟨o, ho, _⟩ := C21_orientation (SimpleGraph.isTree_starGraph c) (starAt_ok c) (Fin.ofNat 4 r)
  have ho5 := ho 5 (by simp)
  have e : exTITree c r = (⟨Fin.ofNat 4 r, o.1.up⟩, o.2.map TreeLevel.toLevel) := by
    unfold exTITree
    rw [ho5]
  rw [e]
  exact ⟨_, _, o, SimpleGraph.isTree_starGraph c, starAt_ok c, ho5, rfl, rfl⟩

theorem exTI_whole : SyncTI (exTI .whole) 1 7 exTISig :=
  ⟨by decide, by decide, by decide, fun _ => by decide, (by intro L eff h; cases h), by decide, by decide_cbv,
    fun _ => rfl, by decide, by decide_cbv, by decide_cbv⟩

theorem exTI_few : SyncTI (exTI (.few 1 false)) 1 7 exTISig :=
  ⟨by decide, by decide, by decide, (by intro h; cases h), (by intro L eff h; cases h; decide), by decide,
    by decide_cbv, fun _ => rfl, by decide, by decide_cbv, by decide_cbv⟩

/-- Events of one type. -/
def exTIEvs (ty : EvType) (l : List Nat) : List OutEv := l.map fun k => ⟨k, ty, false⟩

/-- An exchange, from the leaves to the root and back. -/
def exTIEx (l m : List Nat) : List OutEv := exTIEvs .fu l ++ exTIEvs .bc l ++ exTIEvs .re m

/-- The schedule in the star network around node 0, re-rooted: node 0 updates first, then node 1. -/
def exTIOut : List (Instant ℚ) :=
  [⟨0, exTIEvs .tr [0]⟩, ⟨2, exTIEx [1, 2, 3, 0] [0, 1, 2, 3]⟩, ⟨3, exTIEx [1, 2, 3, 0] [0, 1, 2, 3]⟩,
   ⟨4, exTIEx [1, 2, 3, 0] [0, 1, 2, 3] ++ [⟨0, .up, false⟩, ⟨1, .up, true⟩, ⟨2, .up, true⟩, ⟨3, .up, true⟩]⟩,
   ⟨5, exTIEvs .tr [1] ++ exTIEx [2, 3, 0, 1] [1, 0, 2, 3] ++
     [⟨1, .up, false⟩, ⟨0, .up, true⟩, ⟨2, .up, true⟩, ⟨3, .up, true⟩]⟩]

/-- The schedule in the star network around node 2, with one tree, the one of node 0. -/
def exTIOut' : List (Instant ℚ) :=
  [⟨0, exTIEvs .tr [0]⟩, ⟨2, exTIEx [1, 3, 2, 0] [0, 2, 1, 3]⟩, ⟨3, exTIEx [1, 3, 2, 0] [0, 2, 1, 3]⟩,
   ⟨4, exTIEx [1, 3, 2, 0] [0, 2, 1, 3] ++ [⟨0, .up, false⟩, ⟨2, .up, true⟩, ⟨1, .up, true⟩, ⟨3, .up, true⟩]⟩,
   ⟨5, exTIEx [1, 3, 2, 0] [0, 2, 1, 3] ++ [⟨0, .up, true⟩, ⟨2, .up, true⟩, ⟨1, .up, false⟩, ⟨3, .up, true⟩]⟩]

/-- The hypotheses of C81 and C82 on the schedules are met. -/
example : (initEventsTI .whole 2 1 true false false 0 0 1 (syncNodes 1 7 [[], [], [], []])
    (fun r => (exTITree 0 r).2) id).toOption = some (exTIOut, [1, 1, 1, 1], [0, 1]) := by
  decide_cbv

example : (initEventsTI .whole 2 1 true true false 0 0 1 (syncNodes 1 7 [[], [], [], []])
    (fun r => (exTITree 2 r).2) id).toOption = some (exTIOut', [1, 1, 1, 1], [0]) := by
  decide_cbv

/-- The run with the given trees. -/
def exTIRun (out : List (Instant ℚ)) (trees : List (TreeObj 4)) : Except PyErr (TISt 4 ℚ) :=
  tiRun (exTI .whole) exTIStrategy exTISig trees
    (.init 2 0 7 exTISig (fun _ => [[1, 1], [0, 0]]) (fun _ => [])) out

/-- The run in the first network ends without an error. -/
example : ((exTIRun exTIOut [(exTITree 0 0).1, (exTITree 0 1).1]).toOption.map fun s =>
    (List.finRange 4).map fun k => (s.node k).d) =
    some [[0, 18, 14, 95 / 4, 0, 0, 0], [0, 18, 14, 23, 0, 0, 0], [0, 18, 14, 89 / 4, 0, 0, 0],
      [0, 18, 14, 21, 0, 0, 0]] := by
  decide +kernel

/-- In the other network, with one tree for the whole run, the outputs are the same. -/
example : ((exTIRun exTIOut' [(exTITree 2 0).1]).toOption.map fun s =>
    (List.finRange 4).map fun k => (s.node k).d) =
    some [[0, 18, 14, 95 / 4, 0, 0, 0], [0, 18, 14, 23, 0, 0, 0], [0, 18, 14, 89 / 4, 0, 0, 0],
      [0, 18, 14, 21, 0, 0, 0]] := by
  decide +kernel

/-- `C82_topology` applies to these runs. -/
example {out out' : List (Instant ℚ)} {f f' : List ℚ} {tr tr' : List (TreeObj 4)}
    (h : initEventsTI .whole 2 1 true false false 0 0 1 (syncNodes 1 7 [[], [], [], []])
      (fun r => (exTITree 0 r).2) (fun r => (exTITree 0 r).1) = .ok (out, f, tr))
    (h' : initEventsTI .whole 2 1 true true false 0 0 1 (syncNodes 1 7 [[], [], [], []])
      (fun r => (exTITree 2 r).2) (fun r => (exTITree 2 r).1) = .ok (out', f', tr')) {s : TISt 4 ℚ}
    (hs : tiRun (exTI .whole) exTIStrategy exTISig tr
      (.init 2 0 7 exTISig (fun _ => [[1, 1], [0, 0]]) (fun _ => [])) out = .ok s) :
    ∃ s', tiRun (exTI .whole) exTIStrategy exTISig tr'
      (.init 2 0 7 exTISig (fun _ => [[1, 1], [0, 0]]) (fun _ => [])) out' = .ok s' ∧ s'.node = s.node ∧
        s'.net.etaMk = s.net.etaMk :=
  C82_topology exTI_whole rfl rfl (by simp) (by decide) (fun r _ => exTITree_ok 0 r) (fun r _ => exTITree_ok 2 r)
    h h' 7 _ _ _ hs

end
end Danse
