import Verif.Proofs.TIRun16
import Verif.Props.TIHear

/-!
# C84: TI-DANSE runs end normally, and when they do not
-/

set_option linter.unusedSectionVars false

namespace Danse
section
variable {n : Nat} {K : Type} [Field K] [StarRing K] [DecidableEq K] {g : GivenCfg K} {U : TIStrategy n K}
  {fs : ℚ} {m : Nat} {y : Fin n → List (List K)}

/-- C84 (a): for synchronous nodes with signals of `m` samples, over trees of any shape, a TI-DANSE run ends
normally when the frame length is even (and two hops for whole-chunk broadcasts), `Ns` samples are sent at
a time with few-sample broadcasts, the filters have one value per bin and, with whole-chunk broadcasts, a
node that has started to update has no zero weight on the in-network sum. -/
theorem C84_completes (hg : SyncTI g fs m y) (he : 2 ∣ g.N) (hw : g.bc = .whole → g.N = 2 * g.Ns ∧ g.h.length = g.N)
    (hL : ∀ L eff, g.bc = .few L eff → L = g.Ns)
    (hr : ∀ k hist, (∀ b ∈ (U.rows k hist).int, b.length = g.N / 2 + 1) ∧
      (∀ b ∈ (U.rows k hist).ext, b.length = g.N / 2 + 1) ∧ ∀ b ∈ (U.rows k hist).loc, b.length = g.N / 2 + 1)
    (hgk : g.bc = .whole → ∀ k hist, U.started k hist = true → ∀ b ∈ (U.rows k hist).ext.getLastD [], b ≠ 0)
    {ext : Fin n → List (List K)} (hext : ∀ k, ∀ b ∈ ext k, b.length = g.N / 2 + 1)
    {nbs : List (List Nat)} (hn : nbs.length = n) {seq keep sim : Bool} {ri start : Nat} (minF : Int)
    (hri : sim = true → ri < n) (hstart : start < n)
    {ordOf : Nat → List Level} {treeOf : Nat → TreeObj n} (hT : ∀ k < n, OrientedTree (treeOf k) (ordOf k))
    (up0 : Fin n → List (Fin n)) :
    ∃ out trees s, initEventsTI g.bc g.N g.Ns seq keep sim ri start minF (syncNodes fs m nbs) ordOf treeOf =
        .ok (out, List.replicate n fs, trees) ∧
      tiRun g U y trees (.init g.N g.refSensor m y ext up0) out = .ok s ∧
      ∀ k, (s.node k).d.length = m ∧ (s.node k).dLoc.length = m := by
  obtain ⟨out, trees, h1, _⟩ := C82_schedule hg hn (seq := seq) (keep := keep) minF hri hstart ordOf
    (fun k hk => (hT k hk).covers) treeOf
  obtain ⟨a, A, ha, haA, e1, e2, _⟩ := sync_up_bc hg hL
  obtain ⟨w1, w2⟩ := sync_works hg hn hri hstart hT h1 (by
    rw [e1, e2]
    exact everySep_subset haA)
  have hNo := hg.overlap
  obtain ⟨b, hb, hal⟩ := direct_total (g := g) (U := U) (y := y) (fs := fs) (m := m) (by omega) he hg.shift hNo.le
    hg.window (fun h => (hw h).1) (fun h => (hw h).2) (fun L eff h => ⟨(hg.few L eff h).1, by
      rw [hL L eff h]; omega⟩) hr hgk hg.signals hg.rates (worksOf out) (sync_workOk hg hL w1 w2)
    (.init g.N g.refSensor m y ext) (fun k => ⟨by
      intro a ha
      simp only [TIView.init, TINode.init, List.mem_map] at ha
      obtain ⟨i, _, rfl⟩ := ha
      split <;> simp, by simp [TIView.init, TINode.init], by simp [TIView.init, TINode.init], hext k, fun _ h => by
        simp [TIView.init, TINode.init] at h⟩)
  obtain ⟨s, hs, hv⟩ := (C82_run (U := U) hg hn hri hstart hT h1 m ext up0).2 b hb
  refine ⟨out, trees, s, h1, hs, fun k => ?_⟩
  have := hal k
  rw [← hv] at this
  exact ⟨this.d, this.dLoc⟩

/-- C84 (b): the condition on the weights is not met by default. In a sequential run with whole-chunk
broadcasts, let the initial filters have a zero weight on the in-network sum (`filterInitType` 'selectFirstSensor',
the default, selects one of the local sensors), let all the nodes start at their update number `j`, and let
a node keep its filters until the first update after the start that is its turn. Then the run never ends
normally, whatever the signals and the network: a node whose turn it is not divides by its zero weight. -/
theorem C84_default_filters_refuted (hg : SyncTI g fs m y) (hb : g.bc = .whole) (hn2 : 2 ≤ n)
    {ext : Fin n → List (List K)} (h0 : ∀ k, (0 : K) ∈ (ext k).getLastD []) {j : Nat} (hj0 : 0 < j)
    (hj : j < (syncUpTI g.bc g.N g.Ns m fs).length)
    (hst : ∀ k hist, U.started k hist = decide (j ≤ hist.length))
    (hkeep : ∀ k hist, hist.length < j ∨ (hist.length = j ∧ ∃ o, hist.getLast? = some o ∧ o.bypass = true) →
      (U.rows k hist).ext = ext k)
    {nbs : List (List Nat)} (hn : nbs.length = n)
    {keep sim : Bool} {ri start : Nat} {minF : Int} (hri : sim = true → ri < n) (hstart : start < n)
    {ordOf : Nat → List Level} {treeOf : Nat → TreeObj n} (hT : ∀ k < n, OrientedTree (treeOf k) (ordOf k))
    {out : List (Instant ℚ)} {fsInf : List ℚ} {trees : List (TreeObj n)}
    (h : initEventsTI g.bc g.N g.Ns true keep sim ri start minF (syncNodes fs m nbs) ordOf treeOf =
      .ok (out, fsInf, trees)) (T : Nat) (up0 : Fin n → List (Fin n)) (s : TISt n K) :
    tiRun g U y trees (.init g.N g.refSensor T y ext up0) out ≠ .ok s := by
  intro hs
  have hd := (C82_run (U := U) hg hn hri hstart hT h T ext up0).1 s hs
  obtain ⟨a, A, ha, haA, e1, e2, _⟩ := sync_up_bc hg (by rw [hb]; intro L eff h; cases h)
  obtain ⟨w1, w2⟩ := sync_works hg hn hri hstart hT h (by
    rw [e1, e2]
    exact everySep_subset haA)
  exact direct_nan hg hb hn2 h0 hj0 hj hst hkeep w1 w2 (sync_one_updater hg hn hri hstart hT h) hd

end

section
local instance : StarRing ℚ := starRingOfComm

/-- `C84_completes` applies to the four nodes of `TISched`, in both modes. -/
example (up0 : Fin 4 → List (Fin 4)) :=
  C84_completes (U := exTIStrategy) exTI_whole (by decide) (fun _ => ⟨rfl, rfl⟩) (by intro L eff h; cases h)
    (fun k hist => by simp [exTIStrategy, exTI]) (fun _ k hist _ => by simp [exTIStrategy])
    (ext := fun _ => [[1, 1], [0, 0]]) (by decide) (nbs := [[], [], [], []]) rfl (seq := true) (keep := false)
    (sim := false) (ri := 0) (start := 0) 1 (by simp) (by decide) (fun r _ => exTITree_ok 0 r) up0

example (up0 : Fin 4 → List (Fin 4)) :=
  C84_completes (U := exTIStrategy) exHear_sync (by decide) (by intro h; cases h) (by intro L eff h; cases h; rfl)
    (fun k hist => by simp [exTIStrategy, exHear, exTI]) (by intro h; cases h)
    (ext := fun _ => [[1, 1], [0, 0]]) (by decide) (nbs := [[], [], [], []]) rfl (seq := true) (keep := false)
    (sim := false) (ri := 0) (start := 0) 1 (by simp) (by decide) (fun r _ => exTITree_ok 0 r) up0

/-- A node that starts at its first update, and keeps its filters at that update if it is not its turn. -/
def exTISeq : TIStrategy 4 ℚ :=
  { rows := fun _ hist => ⟨[[1, 1], [1, 1]],
      if hist.length < 1 ∨ (hist.length = 1 ∧ ∃ o ∈ hist.getLast?, o.bypass = true) then [[1, 1], [0, 0]]
      else [[1, 1], [1, 1]], [[1, 1]]⟩
    started := fun _ hist => decide (1 ≤ hist.length) }

/-- `C84_default_filters_refuted` applies. -/
example {out : List (Instant ℚ)} {f : List ℚ} {tr : List (TreeObj 4)}
    (h : initEventsTI .whole 2 1 true false false 0 0 1 (syncNodes 1 7 [[], [], [], []])
      (fun r => (exTITree 0 r).2) (fun r => (exTITree 0 r).1) = .ok (out, f, tr)) (s : TISt 4 ℚ) :
    tiRun (exTI .whole) exTISeq exTISig tr
      (.init 2 0 7 exTISig (fun _ => [[1, 1], [0, 0]]) (fun _ => [])) out ≠ .ok s :=
  C84_default_filters_refuted exTI_whole rfl (by decide) (ext := fun _ => [[1, 1], [0, 0]]) (by decide +kernel)
    (j := 1) (by decide) (by decide_cbv) (fun _ _ => rfl) (fun k hist hh => by
      simp only [exTISeq]
      rw [if_pos]
      simpa using hh) rfl (by simp) (by decide) (fun r _ => exTITree_ok 0 r) h 7 _ s

/-- The run of the example: not a number. -/
example : (match tiRun (exTI .whole) exTISeq exTISig [(exTITree 0 0).1, (exTITree 0 1).1]
    (.init 2 0 7 exTISig (fun _ => [[1, 1], [0, 0]]) (fun _ => [])) exTIOut with
    | .error e => some e
    | .ok _ => none) = some PyErr.nan := by
  decide +kernel

/-! ## Few-sample broadcasts of another length than `Ns` -/

/-- Four samples per frame, two per hop. -/
def exShort : GivenCfg ℚ :=
  { exTI (.few 1 false) with N := 4, Ns := 2, h := [1, 1, 1, 1], f := [1, 1, 1, 1], noFusion := true }

/-- Nine samples for each node. -/
def exShortSig (k : Fin 4) : List (List ℚ) := [[1, 2, 3, 4, 5, 6, 7, 8, (k : Nat)]]

/-- The schedule in the star network around node 0. -/
def exShortOut : List (Instant ℚ) :=
  let ex := exTIEx [1, 2, 3, 0] [0, 1, 2, 3]
  [⟨0, exTIEvs .tr [0]⟩, ⟨1, ex⟩, ⟨2, ex⟩, ⟨3, ex⟩,
   ⟨4, ex ++ [⟨0, .up, false⟩, ⟨1, .up, true⟩, ⟨2, .up, true⟩, ⟨3, .up, true⟩]⟩, ⟨5, ex⟩,
   ⟨6, ex ++ [⟨0, .up, true⟩, ⟨1, .up, false⟩, ⟨2, .up, true⟩, ⟨3, .up, true⟩]⟩, ⟨7, ex⟩]

/-- C84 (c): with few-sample broadcasts of fewer than `Ns` samples the frames of the in-network sum shrink, and the
first update raises `ValueError`, although DANSE in fully connected networks runs with these parameters. -/
theorem C84_short_chunks_refuted :
    (initEventsTI (.few 1 false) 4 2 true true false 0 0 1 (syncNodes 1 9 [[], [], [], []])
      (fun r => (exTITree 0 r).2) id).toOption = some (exShortOut, [1, 1, 1, 1], [0]) ∧
    (match tiRun exShort exTIStrategy exShortSig [(exTITree 0 0).1]
      (.init 4 0 9 exShortSig (fun _ => [[1, 1, 1], [0, 0, 0]]) (fun _ => [])) exShortOut with
    | .error e => some e
    | .ok _ => none) = some PyErr.valueError := by
  constructor
  · decide_cbv
  · decide +kernel

/-- Two samples are sent at a time, the hop is one sample. -/
def exLong : GivenCfg ℚ := { exTI (.few 2 false) with noFusion := true }

theorem exLong_sync : SyncTI exLong 1 7 exTISig :=
  ⟨by decide, by decide, by decide, (by intro h; cases h), (by intro L eff h; cases h; decide), by decide,
    by decide_cbv, fun _ => rfl, by decide, by decide_cbv, by decide_cbv⟩

/-- The schedule in the star network around node 0. -/
def exLongOut : List (Instant ℚ) :=
  let ex := exTIEx [1, 2, 3, 0] [0, 1, 2, 3]
  [⟨0, exTIEvs .tr [0]⟩,
   ⟨2, ex ++ [⟨0, .up, false⟩, ⟨1, .up, true⟩, ⟨2, .up, true⟩, ⟨3, .up, true⟩]⟩,
   ⟨3, [⟨0, .up, true⟩, ⟨1, .up, false⟩, ⟨2, .up, true⟩, ⟨3, .up, true⟩]⟩,
   ⟨4, ex ++ [⟨0, .up, true⟩, ⟨1, .up, true⟩, ⟨2, .up, false⟩, ⟨3, .up, true⟩]⟩,
   ⟨5, [⟨0, .up, true⟩, ⟨1, .up, true⟩, ⟨2, .up, true⟩, ⟨3, .up, false⟩]⟩]

/-- C84 (d): with few-sample broadcasts of more than `Ns` samples all but the first `Ns` samples of each
broadcast are lost. Here node 0 should have the sums of the samples 2 and 3 of the others at time 4; it has
the sums of the samples 0 and 2. -/
theorem C84_long_chunks_refuted :
    (initEventsTI (.few 2 false) 2 1 true true false 0 0 1 (syncNodes 1 7 [[], [], [], []])
      (fun r => (exTITree 0 r).2) id).toOption = some (exLongOut, [1, 1, 1, 1], [0]) ∧
    ((tiRun exLong exTIStrategy exTISig [(exTITree 0 0).1]
      (.init 2 0 7 exTISig (fun _ => [[1, 1], [0, 0]]) (fun _ => [])) exLongOut).toOption.map fun s =>
      ((s.node 0).hist.map TIObs.seen)[2]?) = some (some (4, [[4, 1]], [4, 3])) ∧
    observedAt 2 1 1 exTISig (fun q => (exTISig q).getD 0 []) 0 4 4 4 = (4, [[4, 1]], [3, 20]) ∧
    (exTISig 1, exTISig 2, exTISig 3) =
      ([[2, 7, 1, 8, 2, 8, 1]], [[1, 4, 1, 4, 2, 1, 3]], [[1, 6, 1, 8, 0, 3, 3]]) := by
  refine ⟨by decide_cbv, by decide +kernel, by decide +kernel, by decide +kernel⟩

end
end Danse
