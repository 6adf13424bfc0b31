import Verif.Props.Stoi
import Verif.Proofs.Stoi3

/-! # C94, continued: closed forms of the intelligibility scores -/

namespace Danse

section
variable {c : StoiCfg} {x y : List ℝ}

/-- C94 (j): the plain score. With `n ≥ 31` audible frames, the score is the mean, over the 15 bands and
all `n - 30` runs of 30 successive frames of the joined signals, of the correlation coefficients of
the levels of the clean signal with the scaled and clipped levels of the processed signal. -/
theorem C94_plain (he : 0 < c.eps) (hext : c.extended = false) (hxy : x.length = y.length)
    (h : 31 ≤ (audible c.eps (c.at10k x)).card) :
    stoiAnyFs c x y = .ok ((∑ s ∈ Finset.range ((audible c.eps (c.at10k x)).card - 30), ∑ j : Fin 15,
      corrCoef c.eps (c.levels x x s j) (clipped c.eps (c.levels x x s j) (c.levels x y s j))) /
        (((audible c.eps (c.at10k x)).card - 30 : Nat) * 15)) := by
  have hx : 256 < (c.at10k x).length := by
    obtain ⟨k, hk⟩ := Finset.card_pos.mp (by omega : 0 < (audible c.eps (c.at10k x)).card)
    have := (mem_audible.mp hk).1
    omega
  obtain ⟨st, hst, hnd, hmem⟩ := keptStarts_ok he hx
  have hc := kept_card hnd hmem
  rw [stoi_eq hxy hst]
  simp only
  rw [olaFrames_length, List.length_map, stft_count (by omega), if_neg (by omega), hext,
    segmentsOf_levels hst hnd hmem _ (by omega), segmentsOf_levels hst hnd hmem _ (by omega), hc]
  simp only [Bool.false_eq_true, if_false, List.length_map, List.length_range]
  congr 2
  rw [List.zip_map', List.map_map, list_sum_range_map]
  exact Finset.sum_congr rfl fun s _ => plainSegment_corr he _ _

/-- C94 (k): the extended score, where it is not NaN, is the mean over those runs of the products, summed
over the bands and averaged over the 30 frames, of the normalised segments. -/
theorem C94_extended (he : 0 < c.eps) (hext : c.extended = true) (hxy : x.length = y.length)
    (h : 31 ≤ (audible c.eps (c.at10k x)).card) {d : ℝ} (hd : stoiAnyFs c x y = .ok d) :
    d = (∑ s ∈ Finset.range ((audible c.eps (c.at10k x)).card - 30), ∑ j, ∑ m,
      normedSeg c.eps (c.noiseX s) (c.levels x x s) j m * normedSeg c.eps (c.noiseY s) (c.levels x y s) j m
        / 30) / ((audible c.eps (c.at10k x)).card - 30 : Nat) := by
  have hx : 256 < (c.at10k x).length := by
    obtain ⟨k, hk⟩ := Finset.card_pos.mp (by omega : 0 < (audible c.eps (c.at10k x)).card)
    have := (mem_audible.mp hk).1
    omega
  obtain ⟨st, hst, hnd, hmem⟩ := keptStarts_ok he hx
  have hc := kept_card hnd hmem
  rw [stoi_eq hxy hst] at hd
  simp only at hd
  rw [olaFrames_length, List.length_map, stft_count (by omega), if_neg (by omega), hext,
    segmentsOf_levels hst hnd hmem _ (by omega), segmentsOf_levels hst hnd hmem _ (by omega), hc,
    if_pos rfl] at hd
  obtain ⟨xn, h1, hd⟩ := bind_ok_inv hd
  obtain ⟨yn, h2, hd⟩ := bind_ok_inv hd
  injection hd with hd
  have e : ∀ (f : Nat → Seg 15 30) (g : Nat → Seg 15 30 × Seg 15 30) (n : Nat),
      (((List.range n).map f).zipIdx.map fun p => normedSeg c.eps (g p.2) p.1) =
      (List.range n).map fun s => normedSeg c.eps (g s) (f s) := by
    intro f g n
    apply List.ext_getElem
    · simp
    · intro i h1 h2
      simp
  have h1' := normSegments_normed h1
  have h2' := normSegments_normed h2
  rw [e] at h1' h2'
  rw [← hd, h1', h2', List.zip_map', List.map_map, list_sum_range_map, List.length_map, List.length_range]
  rfl

end

/-- (j): the plain score of a constant signal of 4097 samples with itself is given by the formula, with
`n = 31` audible frames at least. -/
example : 31 ≤ (audible (exStoi false).eps ((exStoi false).at10k (List.replicate 4097 1))).card ∧
    ∃ d, stoiAnyFs (exStoi false) (List.replicate 4097 1) (List.replicate 4097 1) = .ok d := by
  have h : 31 ≤ (audible (exStoi false).eps ((exStoi false).at10k (List.replicate 4097 1))).card :=
    audible_const (by norm_num [exStoi]) (le_refl _)
  exact ⟨h, _, C94_plain (by norm_num [exStoi]) rfl rfl h⟩

/-- (k): the hypotheses are met by the signal of (g). -/
example : ∃ (c : StoiCfg) (x : List ℝ), 0 < c.eps ∧ c.extended = true ∧
    31 ≤ (audible c.eps (c.at10k x)).card ∧ stoiAnyFs c x x = .ok 1 := by
  obtain ⟨x, h⟩ : ∃ x : List ℝ, 31 ≤ (audible (exStoi true).eps ((exStoi true).at10k x)).card :=
    ⟨List.replicate 4097 1, audible_const (by norm_num [exStoi]) (le_refl _)⟩
  obtain ⟨noise, h'⟩ := C94_identical_reached (c := exStoi true) (x := x)
    (by norm_num [exStoi]) rfl h
  exact ⟨{ exStoi true with noiseX := noise, noiseY := noise }, x, by norm_num [exStoi], rfl, h, h'⟩

end Danse
