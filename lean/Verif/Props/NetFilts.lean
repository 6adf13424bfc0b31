import Verif.Proofs.NetFilts

/-!
# C106: network-wide filters
-/

namespace Danse

/-- **C106 (columns).** There is one column, with a label, for every sensor of the network, node by node;
the label of the column of sensor `m` of node `q` names that sensor. -/
theorem C106_columns (plot : FiltPlot) (nf nt K : Nat) (M : Nat → Nat) (ti : Bool)
    (w e : Nat → Nat → Nat → Nat → ℂ) (k : Nat) :
    (plottedNetwide plot nf nt K M ti w e k).1.length = ((List.range K).map M).sum ∧
      (plottedNetwide plot nf nt K M ti w e k).2.length = ((List.range K).map M).sum ∧
      ∀ q < K, ∀ m < M q, (plottedNetwide plot nf nt K M ti w e k).2[colOf M q m]? =
        some (if q = k then NwLabel.own m else NwLabel.other q m) := by
  unfold plottedNetwide
  rw [netwide_eq]
  refine ⟨?_, ?_, ?_⟩
  · rw [List.length_flatMap]; simp [nwBlock_length]
  · rw [List.length_flatMap]; simp [nwLabels_length]
  · intro q hq m hm
    unfold colOf
    rw [getElem?_flatMap_range M _ K (fun q _ => nwLabels_length M k q) q m hq hm]
    unfold nwLabels
    by_cases h : q = k
    · subst h; simp [hm]
    · simp [h, hm]

/-- **C106 (values).** Column of sensor `m` of node `q`: the mean over the bins of the magnitude of, for
`q = k`, the coefficient of that iteration; for another node, 0 in row 0 and in row `i + 1` the network-wide
filter made of the fusion vectors of iteration `i + 1` and of the filter of iteration `i`. -/
theorem C106_values (plot : FiltPlot) (nf nt K : Nat) (M : Nat → Nat) (ti : Bool)
    (w e : Nat → Nat → Nat → Nat → ℂ) (k q m : Nat) (hq : q < K) (hm : m < M q) :
    ∃ col, (plottedNetwide plot nf nt K M ti w e k).1[colOf M q m]? = some col ∧
      (q = k → col.length = nt ∧ ∀ i < nt, col[i]? = some (meanBins nf fun f => ‖w k f i m‖)) ∧
      (q ≠ k → col.length = nt - 1 + 1 ∧ col[0]? = some 0 ∧ ∀ i, i + 1 < nt → col[i + 1]? =
        some (meanBins nf fun f =>
          ‖netCoef K M ti (fun c => w k f i c) (fun q c => e q f (i + 1) c) k q m‖)) := by
  unfold plottedNetwide
  rw [netwide_eq]
  unfold colOf
  rw [getElem?_flatMap_range M _ K (fun q _ => nwBlock_length _ _ _ _ _ _ _ _ _) q m hq hm]
  unfold nwBlock
  by_cases h : q = k
  · subst h
    refine ⟨_, by simp [hm]; rfl, fun _ => ⟨by simp [ownCol], ?_⟩, fun h => absurd rfl h⟩
    intro i hi
    simp [ownCol, hi]
  · refine ⟨_, by simp [h, hm]; rfl, fun h' => absurd h' h, fun _ => ⟨by simp [fusedCol], by simp [fusedCol], ?_⟩⟩
    intro i hi
    have hi' : i < nt - 1 := by omega
    cases ti <;> simp [fusedCol, hi', netCoef, h]

/-- **C106 (network-wide filter, fully connected).** For any filters, fusion vectors and sensor signals, the
network-wide filter, applied to all sensors of the network, gives the estimate of the node. -/
theorem C106_fc (K : Nat) (M : Nat → Nat) (w : Nat → ℂ) (e y : Nat → Nat → ℂ) (k : Nat) (hk : k < K) :
    applyNet K M (netCoef K M false w e k) y = estimateFc K M w e y k := by
  unfold applyNet estimateFc
  rw [sum_range_split K k hk]
  congr 1
  · unfold herm; simp [netCoef]
  · have h : herm (othersOf K k).length (fun j => w (M k + j))
        (fun j => (othersOf K k).map (fun q => herm (M q) (e q) (y q)) |>.getD j 0) =
        ((List.range (othersOf K k).length).map fun j => (fun j q => star (w (M k + j)) *
          herm (M q) (e q) (y q)) j ((othersOf K k).getD j 0)).sum := by
      unfold herm
      congr 1
      apply List.map_congr_left
      intro j hj
      have hj' := List.mem_range.mp hj
      simp [List.getD_eq_getElem?_getD, hj']
    have hnd : (othersOf K k).Nodup := List.nodup_range.filter _
    rw [h, sum_idx _ hnd (fun j q => star (w (M k + j)) * herm (M q) (e q) (y q))]
    congr 1
    apply List.map_congr_left
    intro q hq
    have hqk : q ≠ k := by
      have := List.of_mem_filter hq
      simpa using this
    rw [herm_smul]
    unfold herm
    simp [netCoef, hqk]

/-- **C106 (network-wide filter, tree).** The same, with the fusion vectors `e q m / e q (M q)`. -/
theorem C106_ti (K : Nat) (M : Nat → Nat) (w : Nat → ℂ) (e y : Nat → Nat → ℂ) (k : Nat) (hk : k < K) :
    applyNet K M (netCoef K M true w e k) y =
      estimateTi K M w (fun q m => e q m / e q (M q)) y k := by
  unfold applyNet estimateTi
  rw [sum_range_split K k hk]
  congr 1
  · unfold herm; simp [netCoef]
  · rw [← List.sum_map_mul_left]
    congr 1
    apply List.map_congr_left
    intro q hq
    have hqk : q ≠ k := by
      have := List.of_mem_filter hq
      simpa using this
    rw [herm_smul]
    unfold herm
    simp [netCoef, hqk]

/-- **C106 (converged filters).** If the filters and the fusion vectors do not change, row `i` (not the
first) of the column of sensor `m` of node `q` is the mean magnitude of the network-wide filter. -/
theorem C106_converged (plot : FiltPlot) (nf nt K : Nat) (M : Nat → Nat) (ti : Bool)
    (w e : Nat → Nat → Nat → ℂ) (k q m i : Nat) (hq : q < K) (hm : m < M q) (hi : 0 < i) (hn : i < nt) :
    ∃ col, (plottedNetwide plot nf nt K M ti (fun q f _ c => w q f c) (fun q f _ c => e q f c) k).1[
        colOf M q m]? = some col ∧
      col[i]? = some (meanBins nf fun f => ‖netCoef K M ti (w k f) (fun q c => e q f c) k q m‖) := by
  obtain ⟨col, hc, h1, h2⟩ := C106_values plot nf nt K M ti (fun q f _ c => w q f c)
    (fun q f _ c => e q f c) k q m hq hm
  refine ⟨col, hc, ?_⟩
  by_cases h : q = k
  · rw [(h1 h).2 i hn]
    simp [netCoef, h]
  · obtain ⟨j, rfl⟩ : ∃ j, i = j + 1 := ⟨i - 1, by omega⟩
    exact (h2 h).2.2 j hn

/-- Two nodes with one sensor each: fusion vectors of node 1 that change with the iterations. -/
def exNwE : Nat → Nat → Nat → Nat → ℂ := fun _ _ i _ => i

-- Sensor 1 of node 2 of three nodes with 2, 1 and 3 sensors: column 4; for node 1 it gets the coefficient
-- of the second received signal.
example : colOf (fun q => [2, 1, 3].getD q 0) 2 1 = 4 ∧ 1 < (fun q => [2, 1, 3].getD q 0) 2 ∧
    (othersOf 3 1).idxOf 2 = 1 := by decide

example : ∃ q m, q < 2 ∧ m < (fun _ => 1 : Nat → Nat) q ∧ q ≠ 0 := ⟨1, 0, by norm_num, by norm_num, by norm_num⟩

/-- **C106, refuted (iterations).** In iteration `i` a node estimates with the filter `i + 1` from signals
fused with the vectors `i` (d_classes.py 1079, 1113, 1290-1330); row `i + 1` is not the network-wide filter
of that estimate. -/
theorem C106_refuted_timing : ¬ ∀ (plot : FiltPlot) (nf nt K : Nat) (M : Nat → Nat)
    (w e : Nat → Nat → Nat → Nat → ℂ) (k q m i : Nat), q < K → m < M q → i + 1 < nt →
    ∃ col, (plottedNetwide plot nf nt K M false w e k).1[colOf M q m]? = some col ∧
      col[i + 1]? = some (meanBins nf fun f =>
        ‖netCoef K M false (fun c => w k f (i + 1) c) (fun q c => e q f i c) k q m‖) := by
  intro h
  obtain ⟨col, hc, hv⟩ := h .norm 1 2 2 (fun _ => 1) (fun _ _ _ _ => 1) exNwE 0 1 0 0 (by norm_num)
    (by norm_num) (by norm_num)
  obtain ⟨col', hc', -, h2⟩ := C106_values .norm 1 2 2 (fun _ => 1) false (fun _ _ _ _ => 1) exNwE 0 1 0
    (by norm_num) (by norm_num)
  rw [hc] at hc'
  injection hc' with hc'
  subst hc'
  have := (h2 (by norm_num)).2.2 0 (by norm_num)
  rw [hv] at this
  injection this with this
  simp [meanBins, netCoef, exNwE] at this

/-- **C106, refuted (real and imaginary parts).** The figures of the real parts show the magnitudes. -/
theorem C106_refuted_parts : ¬ ∀ (nf nt K : Nat) (M : Nat → Nat) (w e : Nat → Nat → Nat → Nat → ℂ)
    (k m i : Nat), k < K → m < M k → i < nt →
    ∃ col, (plottedNetwide .real nf nt K M false w e k).1[colOf M k m]? = some col ∧
      col[i]? = some (meanBins nf fun f => (w k f i m).re) := by
  intro h
  obtain ⟨col, hc, hv⟩ := h 1 1 1 (fun _ => 1) (fun _ _ _ _ => -1) (fun _ _ _ _ => 1) 0 0 0 (by norm_num)
    (by norm_num) (by norm_num)
  obtain ⟨col', hc', h1, -⟩ := C106_values .real 1 1 1 (fun _ => 1) false (fun _ _ _ _ => -1)
    (fun _ _ _ _ => 1) 0 0 0 (by norm_num) (by norm_num)
  rw [hc] at hc'
  injection hc' with hc'
  subst hc'
  have := (h1 rfl).2 0 (by norm_num)
  rw [hv] at this
  injection this with this
  norm_num [meanBins] at this

end Danse
