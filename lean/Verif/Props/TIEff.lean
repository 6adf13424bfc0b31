import Verif.Proofs.TIRun18
import Verif.Props.TITotal

/-!
# C92: TI-DANSE with efficient few-sample broadcasts
-/

set_option linter.unusedSectionVars false

namespace Danse
section
variable {n : Nat} {K : Type} [Field K] [StarRing K] [DecidableEq K] {g : GivenCfg K} {U : TIStrategy n K}
  {fs : ℚ} {m L : Nat} {y : Fin n → List (List K)}

/-- C92 (a): the TI-DANSE schedule with efficient few-sample broadcasts in chunks of at most `Ns` samples, for
synchronous nodes with at least one neighbour each: every node updates every `Ns` samples from `⌈N/Ns⌉ Ns` on;
fusions, partial sums and relays are at the last multiple of `L` samples before each update, at no other time. -/
theorem C92_schedule {β : Type} {N Ns : Nat} (hNs : 0 < Ns) (hN : 0 < N) (hL : 0 < L) (hLNs : L ≤ Ns) (hLm : L < m)
    (hfs : 0 < fs) (hf : inferFs (clockStamps fs m) = .ok fs) (nbs : List (List Nat))
    (hne : ∀ nb ∈ nbs, nb ≠ [] ∧ ∀ q ∈ nb, q < nbs.length)
    (hup : everySep Ns fs ⌈(N : ℚ) / Ns⌉₊ ((m - 1) / Ns) ≠ [])
    {seq keep sim : Bool} {r start : Nat} (minF : Int) (hr : sim = true → r < nbs.length) (hstart : start < nbs.length)
    (ordOf : Nat → List Level) (hord : ∀ k < nbs.length, CoversNodes nbs.length (ordOf k)) (treeOf : Nat → β) :
    ∃ out trees, initEventsTI (.few L true) N Ns seq keep sim r start minF (syncNodes fs m nbs) ordOf treeOf =
        .ok (out, List.replicate nbs.length fs, trees) ∧
      (∀ t k, (t, k, .up) ∈ delivered out ↔
        k < nbs.length ∧ t ∈ everySep Ns fs ⌈(N : ℚ) / Ns⌉₊ ((m - 1) / Ns)) ∧
      (∀ ty ∈ [EvType.fu, .bc, .re], ∀ t k,
        (t, k, ty) ∈ delivered out ↔ k < nbs.length ∧ t ∈ syncBcEff L N Ns m fs) ∧
      ∀ j b, trees[j]? = some b → b = treeOf ((start + j) % nbs.length) := by
  have hex : syncBcEff L N Ns m fs ≠ [] := by
    intro h
    apply hup
    unfold syncBcEff at h
    unfold everySep
    rw [List.map_eq_nil_iff] at h
    rw [h, List.map_nil]
  have hA : 0 < ⌈(N : ℚ) / Ns⌉₊ := by
    rw [Nat.ceil_pos]
    have h1 : (0 : ℚ) < N := by exact_mod_cast hN
    have h2 : (0 : ℚ) < Ns := by exact_mod_cast hNs
    positivity
  obtain ⟨out, tr, h1, h2, h3, h4⟩ := initEventsTI_of (β := β) (bc := .few L true) (N := N) (Ns := Ns) (seq := seq)
    (keep := keep) (sim := sim) (r := r) (by omega) hf nbs minF hr hstart
    (tiInstants_eff hNs hN (by omega) hL hLNs hLm hfs nbs hne) (everySep_sorted hNs hfs _ _)
    (everySep_pos hNs hfs hA) (syncBcEff_pos hL hLNs hN hfs) hex (fun _ _ => hup) ordOf treeOf
  have hcov : ∀ o ∈ tr.2, CoversNodes nbs.length o := by
    intro o ho
    rw [h4] at ho
    obtain ⟨j, _, rfl⟩ := List.mem_map.mp ho
    exact hord _ (Nat.mod_lt _ (by omega))
  obtain ⟨e1, e2, e3, e4⟩ := C01_exactly_once h2 fun _ => by simpa [tiArgs] using hcov
  refine ⟨out, _, h1, ?_, ?_, ?_⟩
  · intro t k
    rw [e4]
    unfold Scheduled
    constructor
    · rintro ⟨hk, ts, hts, ht⟩
      have hk' : k < nbs.length := by simpa [tiArgs] using hk
      refine ⟨hk', ?_⟩
      rw [List.eq_of_mem_replicate (List.mem_of_getElem? hts)] at ht
      exact ht
    · rintro ⟨hk, ht⟩
      refine ⟨by simpa [tiArgs] using hk, _, ?_, ht⟩
      show (List.replicate _ _)[k]? = _
      rw [List.getElem?_eq_getElem (by simpa using hk), List.getElem_replicate]
  · intro ty hty t k
    rw [e4]
    exact scheduled_ex h3 hty
  · intro j b hb
    rw [List.getElem?_map] at hb
    obtain ⟨i, hi, rfl⟩ := Option.map_eq_some_iff.mp hb
    rw [List.getElem?_range (by
      by_contra hc
      rw [List.getElem?_eq_none (by simpa using hc)] at hi
      cases hi)] at hi
    injection hi with hi
    rw [hi]

/-- The schedule in the form the proofs below use. -/
theorem eff_built (hg : SyncTIEff g fs m L y) {nbs : List (List Nat)}
    (hne : ∀ nb ∈ nbs, nb ≠ [] ∧ ∀ q ∈ nb, q < nbs.length) {seq keep sim : Bool} {r start : Nat} {minF : Int}
    (hr : sim = true → r < nbs.length) (hstart : start < nbs.length)
    {ordOf : Nat → List Level} {treeOf : Nat → TreeObj n}
    {out : List (Instant ℚ)} {fsInf : List ℚ} {trees : List (TreeObj n)}
    (h : initEventsTI g.bc g.N g.Ns seq keep sim r start minF (syncNodes fs m nbs) ordOf treeOf =
      .ok (out, fsInf, trees)) :
    ∃ tr, trees = ((List.range tr.2.length).map fun j => treeOf ((start + j) % nbs.length)) ∧
      buildEvents (tiArgs
        (List.replicate nbs.length (everySep g.Ns fs ⌈(g.N : ℚ) / g.Ns⌉₊ ((m - 1) / g.Ns)))
        (List.replicate nbs.length (everySep g.Ns fs ⌈(g.N : ℚ) / g.Ns⌉₊ ((m - 1) / g.Ns))) seq start minF tr) =
        .ok out ∧
      TITimes nbs.length (tiArgs
        (List.replicate nbs.length (everySep g.Ns fs ⌈(g.N : ℚ) / g.Ns⌉₊ ((m - 1) / g.Ns)))
        (List.replicate nbs.length (everySep g.Ns fs ⌈(g.N : ℚ) / g.Ns⌉₊ ((m - 1) / g.Ns))) seq start minF tr)
        (everySep g.Ns fs ⌈(g.N : ℚ) / g.Ns⌉₊ ((m - 1) / g.Ns)) ∧
      tr.2 = (List.range tr.2.length).map fun j => ordOf ((start + j) % nbs.length) := by
  have hN : 0 < g.N := by have := hg.overlap; omega
  have hLNs := Nat.le_of_dvd hg.shift hg.divides
  have hti := tiInstants_eff hg.shift hN hg.pos hg.L_pos hLNs hg.L_lt hg.rate nbs hne
  rw [syncBcEff_dvd hg.divides] at hti
  obtain ⟨out', tr, h1, h2, h3, h4⟩ := initEventsTI_of (seq := seq) (keep := keep) (sim := sim) (r := r)
    hg.pos hg.clock nbs minF hr hstart hti (everySep_sorted hg.shift hg.rate _ _)
    (everySep_pos hg.shift hg.rate hg.frames_pos) (everySep_pos hg.shift hg.rate hg.frames_pos) hg.update
    (fun _ _ => hg.update) ordOf treeOf
  rw [hg.bc, h1] at h
  injection h with h
  injection h with e1 h
  injection h with e2 e3
  subst e1 e3
  exact ⟨tr, rfl, h2, h3, h4⟩

/-- C92 (b): if `L` divides `Ns`, a run with efficient broadcasts over any trees computes what nodes that
exchange their signals directly would, as without the option. -/
theorem C92_run (hg : SyncTIEff g fs m L y) {nbs : List (List Nat)} (hn : nbs.length = n)
    (hne : ∀ nb ∈ nbs, nb ≠ [] ∧ ∀ q ∈ nb, q < nbs.length)
    {seq keep sim : Bool} {r start : Nat} {minF : Int} (hr : sim = true → r < n) (hstart : start < n)
    {ordOf : Nat → List Level} {treeOf : Nat → TreeObj n} (hT : ∀ k < n, OrientedTree (treeOf k) (ordOf k))
    {out : List (Instant ℚ)} {fsInf : List ℚ} {trees : List (TreeObj n)}
    (h : initEventsTI g.bc g.N g.Ns seq keep sim r start minF (syncNodes fs m nbs) ordOf treeOf =
      .ok (out, fsInf, trees))
    (T : Nat) (ext : Fin n → List (List K)) (up0 : Fin n → List (Fin n)) :
    (∀ s, tiRun g U y trees (.init g.N g.refSensor T y ext up0) out = .ok s →
      DirectRun g U y (.init g.N g.refSensor T y ext) (worksOf out) s.view) ∧
    ∀ b, DirectRun g U y (.init g.N g.refSensor T y ext) (worksOf out) b →
      ∃ s, tiRun g U y trees (.init g.N g.refSensor T y ext up0) out = .ok s ∧ s.view = b := by
  subst hn
  obtain ⟨tr, rfl, h2, h3, h4⟩ := eff_built hg hne hr hstart h
  have htr := treesOriented hT hstart tr.2.length
  refine run_built h3 h2 ?_ hg.overlap T ext up0 (eff_enough hg h3 h2 ?_ T ext up0)
  · show List.Forall₂ _ _ tr.2
    rw [h4]
    simpa using htr
  · intro o ho
    have ho : o ∈ tr.2 := ho
    rw [h4] at ho
    exact orientedTrees_cover htr o ho

/-- C92 (c): nodes that send their reference sensors, `N = R Ns`. The list is the whole history of node `k`: one
entry for each update, none missing. At update `i` it has its own frames up to sample `i Ns`; of each other node
the last `N` samples of the stream that consists of the samples `0 .. Ns` and `N .. i Ns` of its reference
sensor: the samples `Ns .. N` are lost. -/
theorem C92_heard {R : Nat} (hg : SyncTIEff g fs m L y) (hR : g.N = R * g.Ns) {x : Fin n → List K}
    (hx : ∀ q, (y q)[g.refSensor]? = some (x q))
    (hkeep : ∀ q, (g.noFusion = true ∧ (y q).length = 1) ∨
      ∀ t ∈ everySep g.Ns fs R ((m - 1) / g.Ns), |t| < g.upTDEvery)
    {nbs : List (List Nat)} (hn : nbs.length = n) (hne : ∀ nb ∈ nbs, nb ≠ [] ∧ ∀ q ∈ nb, q < nbs.length)
    {seq keep sim : Bool} {r start : Nat} {minF : Int} (hr : sim = true → r < n) (hstart : start < n)
    {ordOf : Nat → List Level} {treeOf : Nat → TreeObj n} (hT : ∀ k < n, OrientedTree (treeOf k) (ordOf k))
    {out : List (Instant ℚ)} {fsInf : List ℚ} {trees : List (TreeObj n)}
    (h : initEventsTI g.bc g.N g.Ns seq keep sim r start minF (syncNodes fs m nbs) ordOf treeOf =
      .ok (out, fsInf, trees))
    {T : Nat} {ext : Fin n → List (List K)} {up0 : Fin n → List (Fin n)} {s : TISt n K}
    (hs : tiRun g U y trees (.init g.N g.refSensor T y ext up0) out = .ok s) (k : Fin n) :
    (s.node k).hist.map TIObs.seen = (List.range ((m - 1) / g.Ns - R)).map fun (j : Nat) =>
      observedEff g.N g.Ns fs y x k (R + j) := by
  have hd := (C92_run (U := U) hg hn hne hr hstart hT h T ext up0).1 s hs
  subst hn
  obtain ⟨tr, rfl, h2, h3, h4⟩ := eff_built hg hne hr hstart h
  have htr := treesOriented hT hstart tr.2.length
  have hcov : ∀ o ∈ tr.2, CoversNodes nbs.length o := by
    intro o ho
    rw [h4] at ho
    exact orientedTrees_cover htr o ho
  obtain ⟨w1, w2⟩ := built_sync_works h3 h2 hcov rfl (fun t ht => ht) (everySep_sorted hg.shift hg.rate _ _)
  have hRc : ⌈(g.N : ℚ) / g.Ns⌉₊ = R := by
    have h2 : (g.Ns : ℚ) ≠ 0 := by exact_mod_cast hg.shift.ne'
    rw [hR, Nat.cast_mul, mul_div_cancel_right₀ _ h2, Nat.ceil_natCast]
  rw [hRc] at w1 w2
  exact eff_history hg hR hx hkeep w1 w2 hd k

/-- C92 (d): from sample `2 N` on the frames of the others are those that end at the same sample as the own
frames: the observation is the one of C83 (a), of a run without efficient broadcasts. -/
theorem C92_aligned {N Ns i : Nat} (hi : 2 * N ≤ i * Ns) {x : Fin n → List K} (hx : ∀ q, i * Ns ≤ (x q).length)
    (k : Fin n) : observedEff N Ns fs y x k i = observedAt N Ns fs y x k i (i * Ns) (i * Ns) := by
  unfold observedEff observedAt
  congr 2
  have : (fun q => lastFrame N (effStream N Ns (x q) i)) = fun q => frameBefore N (x q) (i * Ns) :=
    funext fun q => effStream_aligned hi (hx q)
  rw [this]

end

/-! ## Concrete cases: the four nodes of `TISched` -/

section
local instance effStar : StarRing ℚ := starRingOfComm

/-- Single-sensor nodes that do not fuse, with efficient broadcasts. -/
def exEff : GivenCfg ℚ := { exTI (.few 1 true) with noFusion := true, stamps := fun _ => clockStamps 1 7 }

theorem exEff_sync : SyncTIEff exEff 1 7 1 exTISig :=
  ⟨by decide, by decide, rfl, by decide, by decide, by decide_cbv, fun _ => rfl, fun _ => rfl, by decide, by decide_cbv⟩

/-- The schedule in the star network around node 0. -/
def exEffOut : List (Instant ℚ) :=
  let ex := exTIEx [1, 2, 3, 0] [0, 1, 2, 3]
  [⟨0, exTIEvs .tr [0]⟩,
   ⟨2, ex ++ [⟨0, .up, false⟩, ⟨1, .up, true⟩, ⟨2, .up, true⟩, ⟨3, .up, true⟩]⟩,
   ⟨3, ex ++ [⟨0, .up, true⟩, ⟨1, .up, false⟩, ⟨2, .up, true⟩, ⟨3, .up, true⟩]⟩,
   ⟨4, ex ++ [⟨0, .up, true⟩, ⟨1, .up, true⟩, ⟨2, .up, false⟩, ⟨3, .up, true⟩]⟩,
   ⟨5, ex ++ [⟨0, .up, true⟩, ⟨1, .up, true⟩, ⟨2, .up, true⟩, ⟨3, .up, false⟩]⟩]

/-- `C92_schedule` applies. -/
example := C92_schedule (L := 1) (fs := 1) (m := 7) (N := 2) (Ns := 1) (by decide) (by decide) (by decide) (by decide)
  (by decide) (by norm_num) (by decide_cbv) [[1, 2, 3], [0], [0], [0]] (by decide) (by decide_cbv) (seq := true) (keep := true)
  (sim := false) (r := 0) (start := 0) 1 (by simp) (by decide) (fun r => (exTITree 0 r).2)
  (fun r _ => (exTITree_ok 0 r).covers) id

/-- `C92_run` and `C92_heard` apply. -/
example {out : List (Instant ℚ)} {f : List ℚ} {tr : List (TreeObj 4)}
    (h : initEventsTI (.few 1 true) 2 1 true false false 0 0 1 (syncNodes 1 7 [[1, 2, 3], [0], [0], [0]])
      (fun r => (exTITree 0 r).2) (fun r => (exTITree 0 r).1) = .ok (out, f, tr)) {s : TISt 4 ℚ}
    (hs : tiRun exEff exTIStrategy exTISig tr
      (.init 2 0 7 exTISig (fun _ => [[1, 1], [0, 0]]) (fun _ => [])) out = .ok s) (k : Fin 4) :=
  C92_heard (R := 2) exEff_sync rfl (x := fun q => (exTISig q).getD 0 []) (fun q => rfl) (fun q => .inl ⟨rfl, rfl⟩)
    rfl (by decide) (by simp) (by decide) (fun r _ => exTITree_ok 0 r) h hs k

/-- C92 (e): the option is meant to save broadcasts, not to change what the nodes observe; but it does. Without
it node 0 has, at its first update, the sums of the samples 0 and 1 of the others next to its own samples 0
and 1; with it, a zero and the sum of the samples 0. -/
theorem C92_misaligned_refuted :
    (initEventsTI (.few 1 true) 2 1 true true false 0 0 1 (syncNodes 1 7 [[1, 2, 3], [0], [0], [0]])
      (fun r => (exTITree 0 r).2) id).toOption = some (exEffOut, [1, 1, 1, 1], [0]) ∧
    ((tiRun exEff exTIStrategy exTISig [(exTITree 0 0).1]
      (.init 2 0 7 exTISig (fun _ => [[1, 1], [0, 0]]) (fun _ => [])) exEffOut).toOption.map fun s =>
      (s.node 0).hist.map TIObs.seen) =
      some [(2, [[3, 1]], [0, 4]), (3, [[1, 4]], [4, 3]), (4, [[4, 1]], [3, 20]), (5, [[1, 5]], [20, 4])] ∧
    observedAt 2 1 1 exTISig (fun q => (exTISig q).getD 0 []) 0 2 2 2 = (2, [[3, 1]], [4, 17]) ∧
    observedAt 2 1 1 exTISig (fun q => (exTISig q).getD 0 []) 0 3 3 3 = (3, [[1, 4]], [17, 3]) := by
  refine ⟨by decide_cbv, by decide +kernel, by decide +kernel, by decide +kernel⟩

/-- Frames of four samples, every three samples; chunks of two. -/
def exOdd : GivenCfg ℚ :=
  { exShort with Ns := 3, bc := .few 2 true, stamps := fun _ => clockStamps 1 13 }

/-- Thirteen samples for each node. -/
def exOddSig (k : Fin 4) : List (List ℚ) := [[1, 2, 3, 4, 5, 6, 7, 8, 9, 10, 11, 12, (k : Nat)]]

/-- The schedule in the star network around node 0. -/
def exOddOut : List (Instant ℚ) :=
  let ex := exTIEx [1, 2, 3, 0] [0, 1, 2, 3]
  [⟨0, exTIEvs .tr [0]⟩,
   ⟨6, ex ++ [⟨0, .up, false⟩, ⟨1, .up, true⟩, ⟨2, .up, true⟩, ⟨3, .up, true⟩]⟩, ⟨8, ex⟩,
   ⟨9, [⟨0, .up, true⟩, ⟨1, .up, false⟩, ⟨2, .up, true⟩, ⟨3, .up, true⟩]⟩]

set_option maxHeartbeats 4000000 in
/-- C92 (f): if `L` does not divide `Ns`, the number of samples between two exchanges varies; when there are
fewer than `Ns`, the frames of the in-network sum shrink and the next update raises `ValueError`. -/
theorem C92_undivided_refuted :
    (initEventsTI (.few 2 true) 4 3 true true false 0 0 1 (syncNodes 1 13 [[1, 2, 3], [0], [0], [0]])
      (fun r => (exTITree 0 r).2) id).toOption = some (exOddOut, [1, 1, 1, 1], [0]) ∧
    (match tiRun exOdd exTIStrategy exOddSig [(exTITree 0 0).1]
      (.init 4 0 13 exOddSig (fun _ => [[1, 1, 1], [0, 0, 0]]) (fun _ => [])) exOddOut with
    | .error e => some e
    | .ok _ => none) = some PyErr.valueError := by
  constructor
  · decide_cbv
  · decide +kernel

end
end Danse
