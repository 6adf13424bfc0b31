import Verif.Proofs.ThirdOct

/-!
# C148: the one-third octave bands of STOI
-/

namespace Danse

open Finset

/-- The bins of the edges. -/
theorem octBins (fs : ℝ) (nfft : ℕ) (m : ℝ) (k : ℕ) :
    NearestBin fs nfft (bandEdge m k) (octNearest fs nfft (bandEdge m k)) := octNearest_spec _ _ _

/-- C148 (bands): row `k` of the matrix is 1 from the bin nearest to the `k`-th edge to the one before the bin nearest to the next edge, and 0
elsewhere. -/
theorem C148_bands {fs : ℝ} (hfs : 0 < fs) (nfft K : ℕ) (m : ℝ) {b : ℕ → ℕ} (hb : ∀ k, NearestBin fs nfft (bandEdge m k) (b k)) :
    (thirdoct fs nfft K m).1 = (List.range K).map fun k => (List.range (nfft / 2 + 1)).map fun j =>
      if b k ≤ j ∧ j < b (k + 1) then 1 else 0 := by
  have e : ∀ k, octNearest fs nfft (bandEdge m k) = b k := fun k => nearest_unique hfs (octBins fs nfft m k) (hb k)
  unfold thirdoct
  simp only [octLow_eq, octHigh_eq, e]

/-- C148 (partition): a bin belongs to at most one band; those from the lowest edge to before the highest one belong to exactly one, the others to
none. -/
theorem C148_partition {fs : ℝ} (hfs : 0 < fs) (nfft K : ℕ) {m : ℝ} (hm : 0 < m) {lo hi : ℕ}
    (hlo : NearestBin fs nfft (bandEdge m 0) lo) (hhi : NearestBin fs nfft (bandEdge m K) hi) {j : ℕ} (hj : j ≤ nfft / 2) :
    ((thirdoct fs nfft K m).1.map fun row => row.getD j 0).sum = if lo ≤ j ∧ j < hi then 1 else 0 := by
  rw [C148_bands hfs nfft K m (octBins fs nfft m), List.map_map]
  have h : ((fun row : List ℝ => row.getD j 0) ∘ fun k => (List.range (nfft / 2 + 1)).map fun j =>
      if octNearest fs nfft (bandEdge m k) ≤ j ∧ j < octNearest fs nfft (bandEdge m (k + 1)) then (1 : ℝ) else 0) =
      fun k => if octNearest fs nfft (bandEdge m k) ≤ j ∧ j < octNearest fs nfft (bandEdge m (k + 1)) then (1 : ℝ) else 0 := by
    funext k
    simp [List.getD_eq_getElem?_getD, List.getElem?_range (show j < nfft / 2 + 1 by omega)]
  rw [h, octList_sum, sum_indicator (b := fun k => octNearest fs nfft (bandEdge m k)) (fun k => nearest_mono hfs
      (bandEdge_mono hm (Nat.le_succ k)) (octBins ..) (octBins ..)),
    nearest_unique hfs hlo (octBins fs nfft m 0), nearest_unique hfs hhi (octBins fs nfft m K)]

/-- C148 (energy): the energies of the bands add up to the energy of the bins from the lowest edge to before the highest one: nothing is counted
twice or left out. -/
theorem C148_energy {fs : ℝ} (hfs : 0 < fs) (nfft K : ℕ) {m : ℝ} (hm : 0 < m) {lo hi : ℕ}
    (hlo : NearestBin fs nfft (bandEdge m 0) lo) (hhi : NearestBin fs nfft (bandEdge m K) hi) (p : List ℝ) (hp : p.length = nfft / 2 + 1) :
    (octEnergies (thirdoct fs nfft K m).1 p).length = K ∧
      (octEnergies (thirdoct fs nfft K m).1 p).sum = ∑ j ∈ Ico lo hi, p.getD j 0 := by
  have hmono := fun k => nearest_mono hfs (bandEdge_mono hm (Nat.le_succ k)) (octBins fs nfft m k) (octBins fs nfft m (k + 1))
  rw [C148_bands hfs nfft K m (octBins fs nfft m)]
  unfold octEnergies
  refine ⟨by simp, ?_⟩
  rw [List.map_map, Function.comp_def]
  simp only [octRow_sum _ _ p hp]
  rw [octList_sum, sum_comm]
  have hsw : ∀ j, ∑ k ∈ range K, (if octNearest fs nfft (bandEdge m k) ≤ j ∧ j < octNearest fs nfft (bandEdge m (k + 1)) then (1 : ℝ) else 0) *
      p.getD j 0 = if lo ≤ j ∧ j < hi then p.getD j 0 else 0 := by
    intro j
    rw [← sum_mul, sum_indicator (b := fun k => octNearest fs nfft (bandEdge m k)) hmono,
      nearest_unique hfs hlo (octBins fs nfft m 0), nearest_unique hfs hhi (octBins fs nfft m K)]
    split_ifs <;> simp
  rw [sum_congr rfl fun j _ => hsw j, ← sum_filter]
  apply sum_congr _ fun _ _ => rfl
  ext j
  have := hhi.le
  simp only [mem_filter, mem_range, mem_Ico]
  omega

theorem octCentre_eq (m : ℝ) (k : ℕ) : octCentre m k = m * (2 : ℝ) ^ ((k : ℝ) / 3) := by
  unfold octCentre
  rw [← Real.rpow_natCast, ← Real.rpow_mul (by norm_num), mul_comm]
  congr 2
  ring

/-- C148 (centre frequencies): the first one is `min_freq`, each is the geometric mean of the edges of its band, and three bands are an octave. -/
theorem C148_centres (fs : ℝ) (nfft K : ℕ) (m : ℝ) : (thirdoct fs nfft K m).2.length = K ∧
    ∀ (k : ℕ) c, (thirdoct fs nfft K m).2[k]? = some c → c ^ 2 = bandEdge m k * bandEdge m (k + 1) ∧ (k = 0 → c = m) ∧
      ∀ c', (thirdoct fs nfft K m).2[k + 3]? = some c' → c' = 2 * c := by
  unfold thirdoct
  refine ⟨by simp, fun k c hc => ?_⟩
  simp only [List.getElem?_map, Option.map_eq_some_iff] at hc
  obtain ⟨k', hk', rfl⟩ := hc
  have hkk : k' = k := by
    obtain ⟨hb, he⟩ := List.getElem?_eq_some_iff.1 hk'
    simpa using he.symm
  subst hkk
  refine ⟨?_, fun h => by simp [octCentre, h], fun c' hc' => ?_⟩
  · rw [octCentre_eq]
    unfold bandEdge
    have e : (m * (2 : ℝ) ^ (-(1 : ℝ) / 6) * (2 : ℝ) ^ ((k' : ℝ) / 3)) * (m * (2 : ℝ) ^ (-(1 : ℝ) / 6) * (2 : ℝ) ^ (((k' + 1 : ℕ) : ℝ) / 3)) =
        m ^ 2 * ((2 : ℝ) ^ (-(1 : ℝ) / 6) * (2 : ℝ) ^ ((k' : ℝ) / 3) * ((2 : ℝ) ^ (-(1 : ℝ) / 6) * (2 : ℝ) ^ (((k' + 1 : ℕ) : ℝ) / 3))) := by ring
    rw [e, ← Real.rpow_add (by norm_num), ← Real.rpow_add (by norm_num), ← Real.rpow_add (by norm_num), mul_pow,
      ← Real.rpow_natCast ((2 : ℝ) ^ _) 2, ← Real.rpow_mul (by norm_num)]
    congr 2
    push_cast
    ring
  · simp only [List.getElem?_map, Option.map_eq_some_iff] at hc'
    obtain ⟨k2, hk2, rfl⟩ := hc'
    have hkk : k2 = k' + 3 := by
      obtain ⟨hb, he⟩ := List.getElem?_eq_some_iff.1 hk2
      simpa using he.symm
    subst hkk
    unfold octCentre
    rw [pow_add, ← Real.rpow_natCast ((2 : ℝ) ^ ((1 : ℝ) / 3)) 3, ← Real.rpow_mul (by norm_num)]
    norm_num
    ring

/-- C148 (no empty band): a band that is a bin wide and begins half a bin below the last one, at least, has a bin. -/
theorem C148_nonempty {fs : ℝ} (hfs : 0 < fs) {nfft K k : ℕ} {m : ℝ} (hm : 0 < m) (hk : k < K)
    (hw : bandEdge m k + fs / nfft ≤ bandEdge m (k + 1)) (hl : bandEdge m k + fs / (2 * nfft) ≤ (nfft / 2 : ℕ) * fs / nfft) :
    ∃ row, (thirdoct fs nfft K m).1[k]? = some row ∧ ∃ j ≤ nfft / 2, row[j]? = some 1 := by
  rw [C148_bands hfs nfft K m (octBins fs nfft m)]
  have h := nearest_strict hfs (bandEdge_pos hm k) hw hl (octBins fs nfft m k) (octBins fs nfft m (k + 1))
  have hle := (octBins fs nfft m k).le
  refine ⟨_, by rw [List.getElem?_map, List.getElem?_range hk]; rfl, octNearest fs nfft (bandEdge m k), hle, ?_⟩
  rw [List.getElem?_map, List.getElem?_range (by omega)]
  simp [h]

/-- C148 (refuted: "every band has a bin"): a band that begins at the last bin or above is empty. -/
theorem C148_refuted_empty {fs : ℝ} (hfs : 0 < fs) {nfft K k : ℕ} (hn : nfft ≠ 0) {m : ℝ} (hm : 0 < m) (hk : k < K)
    (h : (nfft / 2 : ℕ) * fs / nfft ≤ bandEdge m k) :
    (thirdoct fs nfft K m).1[k]? = some (List.replicate (nfft / 2 + 1) 0) := by
  rw [C148_bands hfs nfft K m (octBins fs nfft m), List.getElem?_map, List.getElem?_range hk]
  have e1 := nearest_unique hfs (octBins fs nfft m k) (nearest_top hfs hn h)
  have e2 := nearest_unique hfs (octBins fs nfft m (k + 1)) (nearest_top hfs hn (h.trans (bandEdge_mono hm (Nat.le_succ k))))
  simp only [Option.map_some, e1, e2]
  congr 1
  apply List.ext_getElem
  · simp
  · intro i h1 h2
    simp only [List.getElem_map, List.getElem_range, List.getElem_replicate]
    rw [if_neg (by omega)]

/-- C148 (last bin): the bin of `fs / 2` belongs to no band, wherever the edges are. -/
theorem C148_last {fs : ℝ} (hfs : 0 < fs) (nfft K : ℕ) (m : ℝ) : ∀ row ∈ (thirdoct fs nfft K m).1, row[nfft / 2]? = some 0 := by
  rw [C148_bands hfs nfft K m (octBins fs nfft m)]
  intro row hrow
  rw [List.mem_map] at hrow
  obtain ⟨k, -, rfl⟩ := hrow
  have := (octBins fs nfft m (k + 1)).le
  rw [List.getElem?_map, List.getElem?_range (by omega)]
  simp only [Option.map_some]
  rw [if_neg (by omega)]

/-- C148 (STOI): with the values of `stoi.py` each of the 15 bands has a bin. -/
theorem C148_stoi {k : ℕ} (hk : k < 15) : ∃ row, stoiBands.1[k]? = some row ∧ ∃ j ≤ 256, row[j]? = some 1 := by
  have hx : ((2 : ℝ) ^ ((1 : ℝ) / 6)) ^ 6 = 2 := by
    rw [← Real.rpow_natCast, ← Real.rpow_mul (by norm_num)]
    norm_num
  have hxp : 0 < (2 : ℝ) ^ ((1 : ℝ) / 6) := by positivity
  have hinv : (2 : ℝ) ^ (-(1 : ℝ) / 6) * (2 : ℝ) ^ ((1 : ℝ) / 6) = 1 := by
    rw [← Real.rpow_add (by norm_num)]
    norm_num
  have hthird : (2 : ℝ) ^ ((1 : ℝ) / 3) = (2 : ℝ) ^ ((1 : ℝ) / 6) * (2 : ℝ) ^ ((1 : ℝ) / 6) := by
    rw [← Real.rpow_add (by norm_num)]
    norm_num
  have hip : 0 < (2 : ℝ) ^ (-(1 : ℝ) / 6) := by positivity
  generalize hX : (2 : ℝ) ^ ((1 : ℝ) / 6) = x at hx hxp hinv hthird
  generalize hY : (2 : ℝ) ^ (-(1 : ℝ) / 6) = y at hinv hip
  have hx1 : 11 / 10 < x := by
    by_contra h
    push Not at h
    have : x ^ 6 ≤ (11 / 10) ^ 6 := by gcongr
    rw [hx] at this
    norm_num at this
  have hy1 : y ≤ 10 / 11 := by
    by_contra h
    push Not at h
    nlinarith
  -- the width of a band
  have hstep : ∀ k, bandEdge 150 (k + 1) = bandEdge 150 k * (x * x) := by
    intro k
    unfold bandEdge
    rw [← hthird]
    push_cast
    rw [add_div, Real.rpow_add (by norm_num)]
    ring
  have h0 : bandEdge 150 0 = 150 * y := by
    unfold bandEdge
    rw [hY]
    simp
  have hlow : 100 ≤ bandEdge 150 k := by
    refine le_trans ?_ (bandEdge_mono (m := 150) (by norm_num) (Nat.zero_le k))
    rw [h0]
    have : x ≤ 3 / 2 := by
      by_contra h
      push Not at h
      have : (3 / 2 : ℝ) ^ 6 ≤ x ^ 6 := by gcongr
      rw [hx] at this
      norm_num at this
    nlinarith
  have hhigh : bandEdge 150 k ≤ 4800 := by
    refine (bandEdge_mono (m := 150) (by norm_num) (show k ≤ 15 by omega)).trans ?_
    unfold bandEdge
    rw [hY]
    have e : (2 : ℝ) ^ (((15 : ℕ) : ℝ) / 3) = 32 := by norm_num
    rw [e]
    nlinarith
  unfold stoiBands
  refine C148_nonempty (by norm_num) (by norm_num) hk ?_ ?_
  · rw [hstep]
    norm_num
    have : 121 / 100 ≤ x * x := by nlinarith
    nlinarith
  · norm_num
    linarith

/-- The hypotheses of `C148_partition` and `C148_energy` can be met: every edge has a nearest bin. -/
example (k : ℕ) : ∃ b, NearestBin 10000 512 (bandEdge 150 k) b := ⟨_, octBins _ _ _ _⟩

/-- The hypotheses of `C148_refuted_empty` are met: a lowest centre frequency above half the sampling rate. -/
example : (thirdoct 8 4 2 8).1[1]? = some [0, 0, 0] := by
  refine C148_refuted_empty (by norm_num) (by norm_num) (by norm_num) (by norm_num) ?_
  have h := bandEdge_mono (m := 8) (by norm_num) (Nat.zero_le 1)
  refine le_trans ?_ h
  unfold bandEdge
  have : (1 / 2 : ℝ) ≤ (2 : ℝ) ^ (-(1 : ℝ) / 6) := by
    have h2 : (2 : ℝ) ^ (-(1 : ℝ)) ≤ (2 : ℝ) ^ (-(1 : ℝ) / 6) := Real.rpow_le_rpow_of_exponent_le (by norm_num) (by norm_num)
    rw [Real.rpow_neg_one] at h2
    linarith
  norm_num
  linarith

end Danse
