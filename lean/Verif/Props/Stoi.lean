import Verif.Proofs.Stoi2

/-!
# C94: the short-time objective intelligibility score

The resampler and the bands are arbitrary; `eps` is the machine precision; the random dither of the
extended score is arbitrary.
-/

namespace Danse

section
variable {c : StoiCfg} {x y : List ℝ}

/-- C94 (a): whatever the signals, the resampler, the bands and the dither, a score that is returned, be
it extended or not, lies between -1 and 1. -/
theorem C94_bounded (he : 0 < c.eps) {d : ℝ} (h : stoiAnyFs c x y = .ok d) : |d| ≤ 1 := by
  by_cases hxy : x.length = y.length
  swap
  · unfold stoiAnyFs at h
    rw [if_pos hxy] at h
    cases h
  cases hst : keptStarts c.eps 40 256 128 (c.at10k x) with
  | error e =>
    unfold stoiAnyFs at h
    rw [if_neg (not_not.mpr hxy)] at h
    have h' : (removeSilent c.eps 40 256 128 (c.at10k x) (c.at10k y) >>= _) = _ := h
    unfold removeSilent at h'
    rw [hst] at h'
    cases h'
  | ok st =>
    rw [stoi_eq hxy hst] at h
    simp only at h
    split at h
    · injection h with h
      rw [← h]
      norm_num [abs_le]
    · split at h
      · obtain ⟨xn, hx, h⟩ := bind_ok_inv h
        obtain ⟨yn, hy, h⟩ := bind_ok_inv h
        injection h with h
        rw [← h]
        refine mean_le_one ?_ (by rw [List.length_map, List.length_zip]; exact Nat.min_le_left _ _)
        intro a ha
        obtain ⟨p, hp, rfl⟩ := List.mem_map.mp ha
        exact segScore_le ((normSegments_unit hx).2 _ (List.of_mem_zip hp).1)
          ((normSegments_unit hy).2 _ (List.of_mem_zip hp).2)
      · injection h with h
        rw [← h, mul_comm, ← div_div, sum_div_list]
        refine mean_le_one (k := List.length _) ?_
          (by rw [List.length_map, List.length_zip]; exact Nat.min_le_left _ _)
        intro a ha
        obtain ⟨p, hp, rfl⟩ := List.mem_map.mp ha
        exact plainSegment_le he

/-- C94 (b): with more than 256 samples (at 10 kHz) of which fewer than 31 frames are audible, the
fallback score 1e-5 is returned (with 31 the score is computed, see (g)). -/
theorem C94_too_short (he : 0 < c.eps) (hxy : x.length = y.length) (hx : 256 < (c.at10k x).length)
    (h : (audible c.eps (c.at10k x)).card < 31) : stoiAnyFs c x y = .ok 1e-5 := by
  obtain ⟨st, hst, hn, hmem⟩ := keptStarts_ok he hx
  have hc := kept_card hn hmem
  have hp := audible_ne he hx
  rw [stoi_eq hxy hst]
  simp only
  rw [olaFrames_length, List.length_map, stft_count (by omega), if_pos (by omega)]

/-- C94 (c): at most 4096 samples (at 10 kHz) never suffice. -/
theorem C94_min_duration (he : 0 < c.eps) (hxy : x.length = y.length) (hx : 256 < (c.at10k x).length)
    (h : (c.at10k x).length ≤ 4096) : stoiAnyFs c x y = .ok 1e-5 := by
  classical
  refine C94_too_short he hxy hx ?_
  have : audible c.eps (c.at10k x) ⊆ Finset.range 30 := by
    intro k hk
    have := (mem_audible.mp hk).1
    rw [Finset.mem_range]
    omega
  have := Finset.card_le_card this
  rw [Finset.card_range] at this
  omega

/-- C94 (d), refuted: that too short signals give 1e-5. With at most 256 samples (at 10 kHz) the call
fails with ValueError. -/
theorem C94_short_refuted (hxy : x.length = y.length) (hx : (c.at10k x).length ≤ 256) :
    stoiAnyFs c x y = .error .valueError := by
  unfold stoiAnyFs
  rw [if_neg (not_not.mpr hxy)]
  show (removeSilent c.eps 40 256 128 (c.at10k x) (c.at10k y) >>= _) = _
  unfold removeSilent
  rw [keptStarts_short hx]
  rfl

/-- C94 (e): signals of different lengths are rejected. -/
theorem C94_shape (hxy : x.length ≠ y.length) : stoiAnyFs c x y = .error .valueError := by
  unfold stoiAnyFs
  rw [if_pos hxy]

/-- C94 (f): which frames count is decided by the clean signal alone: the score only depends on the
samples of the processed signal that lie in audible frames of the clean signal. -/
theorem C94_mask (he : 0 < c.eps) {y' : List ℝ} (hy : x.length = y.length) (hy' : x.length = y'.length)
    (h : ∀ k, Audible c.eps (c.at10k x) k → ∀ t < 256,
      (c.at10k y).getD (128 * k + t) 0 = (c.at10k y').getD (128 * k + t) 0) :
    stoiAnyFs c x y = stoiAnyFs c x y' := by
  by_cases hx : 256 < (c.at10k x).length
  · obtain ⟨st, hst, hn, hmem⟩ := keptStarts_ok he hx
    rw [stoi_eq hy hst, stoi_eq hy' hst]
    have : st.map (hannFrame 256 (c.at10k y)) = st.map (hannFrame 256 (c.at10k y')) := by
      refine List.map_congr_left fun i hi => ?_
      obtain ⟨k, rfl, hk⟩ := (hmem i).mp hi
      exact hannFrame_congr (h k hk)
    simp only [this]
  · rw [C94_short_refuted hy (by omega), C94_short_refuted hy' (by omega)]

/-- C94 (g): a signal compared with itself, with the same dither, has the extended score 1, unless some
band of some segment is constant (NaN), as soon as 31 frames are audible. -/
theorem C94_identical (he : 0 < c.eps) (hext : c.extended = true) (hn : c.noiseX = c.noiseY)
    (h : 31 ≤ (audible c.eps (c.at10k x)).card) :
    stoiAnyFs c x x = .ok 1 ∨ stoiAnyFs c x x = .error .nan := by
  have hx : 256 < (c.at10k x).length := by
    obtain ⟨k, hk⟩ := Finset.card_pos.mp (by omega : 0 < (audible c.eps (c.at10k x)).card)
    have := (mem_audible.mp hk).1
    omega
  obtain ⟨st, hst, hnd, hmem⟩ := keptStarts_ok he hx
  have hc := kept_card hnd hmem
  rw [stoi_eq rfl hst]
  simp only
  rw [olaFrames_length, List.length_map, stft_count (by omega), if_neg (by omega), if_pos hext, hn]
  cases hs : normSegments c.eps c.noiseY
      (segmentsOf 30 512 256 128 c.bands (olaFrames 256 128 (st.map (hannFrame 256 (c.at10k x))))) with
  | error e =>
    right
    have := normSegments_err hs
    rw [this]
    rfl
  | ok xn =>
    left
    obtain ⟨hl, hu⟩ := normSegments_unit hs
    rw [segmentsOf_length, olaFrames_length, List.length_map, stft_count (by omega)] at hl
    show Except.ok _ = _
    congr 1
    have : ((xn.zip xn).map fun (p : Seg 15 30 × Seg 15 30) => ∑ j, ∑ m, p.1 j m * p.2 j m / 30) =
        List.replicate xn.length 1 := by
      rw [List.eq_replicate_iff]
      refine ⟨by simp, fun b hb => ?_⟩
      obtain ⟨p, hp, rfl⟩ := List.mem_map.mp hb
      obtain ⟨a, a'⟩ := p
      have heq : a = a' := zip_self _ _ hp
      subst heq
      exact segScore_self (hu _ (List.of_mem_zip hp).1)
    show (((xn.zip xn).map fun (p : Seg 15 30 × Seg 15 30) => ∑ j, ∑ m, p.1 j m * p.2 j m / 30).sum /
      (xn.length : ℝ)) = 1
    rw [this, List.sum_replicate, nsmul_eq_mul, mul_one, div_self]
    rw [Nat.cast_ne_zero]
    omega

/-- C94 (h): in (g) the score 1 is reached: for every signal with 31 audible frames there is a dither
with which it is not NaN. -/
theorem C94_identical_reached (he : 0 < c.eps) (hext : c.extended = true)
    (h : 31 ≤ (audible c.eps (c.at10k x)).card) :
    ∃ noise, stoiAnyFs { c with noiseX := noise, noiseY := noise } x x = .ok 1 := by
  have hx : 256 < (c.at10k x).length := by
    obtain ⟨k, hk⟩ := Finset.card_pos.mp (by omega : 0 < (audible c.eps (c.at10k x)).card)
    have := (mem_audible.mp hk).1
    omega
  obtain ⟨st, hst, hnd, hmem⟩ := keptStarts_ok he hx
  have hc := kept_card hnd hmem
  obtain ⟨noise, r, hr⟩ := normSegments_some he (by decide) (by decide)
    (segmentsOf 30 512 256 128 c.bands (olaFrames 256 128 (st.map (hannFrame 256 (c.at10k x)))))
  refine ⟨noise, ?_⟩
  rcases C94_identical (c := { c with noiseX := noise, noiseY := noise }) (x := x) he hext rfl h with h' | h'
  · exact h'
  · exfalso
    rw [stoi_eq (c := { c with noiseX := noise, noiseY := noise }) rfl hst] at h'
    have h2 : (frameStarts (olaFrames 256 128 (st.map (hannFrame 256 (c.at10k x)))).length 256 128).length
        = st.length - 1 := by
      rw [olaFrames_length, List.length_map, stft_count (by omega)]
    have h3 : ¬ (frameStarts (olaFrames 256 128 (st.map (hannFrame 256 (c.at10k x)))).length 256 128).length
        < 30 := by omega
    have h4 := h'
    have hat : StoiCfg.at10k { c with noiseX := noise, noiseY := noise } x = c.at10k x := rfl
    simp only [hat] at h4
    rw [if_neg h3, if_pos hext, hr] at h4
    cases h4

/-- C94 (i): the extended score does not depend on the level of the processed signal: multiplying it by a
positive gain is the same as dividing its dither by that gain (without dither, the score is the same). -/
theorem C94_gain {g : ℝ} (hg : 0 < g) (hext : c.extended = true) (hxy : x.length = y.length)
    (hr : c.at10k (y.map (g * ·)) = (c.at10k y).map (g * ·)) :
    stoiAnyFs { c with noiseY := fun i => (fun j m => g * (c.noiseY i).1 j m, (c.noiseY i).2) } x
      (y.map (g * ·)) = stoiAnyFs c x y := by
  by_cases hx : (c.at10k x).length ≤ 256
  · rw [C94_short_refuted hxy hx]
    exact C94_short_refuted
      (c := { c with noiseY := fun i => (fun j m => g * (c.noiseY i).1 j m, (c.noiseY i).2) })
      (by rw [List.length_map, hxy]) hx
  · cases hst : keptStarts c.eps 40 256 128 (c.at10k x) with
    | error e =>
      unfold stoiAnyFs
      rw [if_neg (not_not.mpr hxy), if_neg (not_not.mpr (by rw [List.length_map, hxy]))]
      show (removeSilent c.eps 40 256 128 (c.at10k x) (c.at10k (y.map (g * ·))) >>= _) =
        (removeSilent c.eps 40 256 128 (c.at10k x) (c.at10k y) >>= _)
      unfold removeSilent
      rw [hst]
      rfl
    | ok st =>
      rw [stoi_eq hxy hst, stoi_eq
        (c := { c with noiseY := fun i => (fun j m => g * (c.noiseY i).1 j m, (c.noiseY i).2) })
        (by rw [List.length_map, hxy]) hst]
      have h1 : st.map (hannFrame 256 (c.at10k (y.map (g * ·)))) =
          (st.map (hannFrame 256 (c.at10k y))).map fun f => f.map (g * ·) := by
        rw [hr, List.map_map]
        exact List.map_congr_left fun i _ => hannFrame_scale _ _ _ _
      have h2 : st.map (hannFrame 256 (StoiCfg.at10k { c with noiseY := fun i =>
          (fun j m => g * (c.noiseY i).1 j m, (c.noiseY i).2) } (y.map (g * ·)))) =
          (st.map (hannFrame 256 (c.at10k y))).map fun f => f.map (g * ·) := h1
      have hat : StoiCfg.at10k { c with noiseY := fun i =>
          (fun j m => g * (c.noiseY i).1 j m, (c.noiseY i).2) } x = c.at10k x := rfl
      simp only [hat, h2]
      simp only [olaFrames_scale, segmentsOf_scale hg, normSegments_scale hg, hext, if_true]

end

/-! ## The hypotheses can be met -/

/-- A constant signal: all frames are equally loud. -/
theorem audible_const {eps : ℝ} (he : 0 < eps) {L : Nat} (hL : 4097 ≤ L) :
    31 ≤ (audible eps (List.replicate L 1)).card := by
  have : Finset.range 31 ⊆ audible eps (List.replicate L 1) := by
    intro k hk
    rw [Finset.mem_range] at hk
    refine mem_audible.mpr ⟨by rw [List.length_replicate]; omega, fun k' hk' => ?_⟩
    rw [List.length_replicate] at hk'
    have h : ∀ q, 128 * q + 256 < L → frameEnergy (List.replicate L 1) (128 * q) =
        frameEnergy (List.replicate L 1) 0 := by
      intro q hq
      unfold frameEnergy
      congr 1
      refine Finset.sum_congr rfl fun t ht => ?_
      rw [Finset.mem_range] at ht
      congr 2
      rw [List.getD_eq_getElem?_getD, List.getD_eq_getElem?_getD,
        List.getElem?_replicate_of_lt (by omega), List.getElem?_replicate_of_lt (by omega)]
    rw [h k (by omega), h k' hk']
    have := frameEnergy_nonneg (List.replicate L 1) 0
    linarith
  have := Finset.card_le_card this
  rwa [Finset.card_range] at this

/-- The configuration of the examples. -/
noncomputable def exStoi (ext : Bool) : StoiCfg where
  eps := 1e-16
  sameRate := true
  resample := id
  bands := fun j => [7 + j.val]
  extended := ext
  noiseX := fun _ => (fun _ _ => 0, fun _ _ => 0)
  noiseY := fun _ => (fun _ _ => 0, fun _ _ => 0)

/-- (a), (g) and (h): a score of 1 is reached for a signal of 4097 samples. -/
example : ∃ c : StoiCfg, 0 < c.eps ∧ c.extended = true ∧ ∃ x : List ℝ, x.length = 4097 ∧
    stoiAnyFs c x x = .ok 1 := by
  obtain ⟨noise, h⟩ := C94_identical_reached (c := exStoi true) (x := List.replicate 4097 1)
    (by norm_num [exStoi]) rfl (audible_const (by norm_num [exStoi]) (le_refl _))
  exact ⟨_, by norm_num [exStoi], rfl, _, List.length_replicate, h⟩

/-- (b), (c): 4096 samples do not suffice, with or without extension. -/
example (ext : Bool) (a b : ℝ) : stoiAnyFs (exStoi ext) (List.replicate 4096 a) (List.replicate 4096 b) =
    .ok 1e-5 :=
  C94_min_duration (by norm_num [exStoi]) (by rw [List.length_replicate, List.length_replicate])
    (by show 256 < (List.replicate 4096 a).length; rw [List.length_replicate]; omega)
    (by show (List.replicate 4096 a).length ≤ 4096; rw [List.length_replicate])

/-- (d): 256 samples make it fail. -/
example (ext : Bool) (a b : ℝ) : stoiAnyFs (exStoi ext) (List.replicate 256 a) (List.replicate 256 b) =
    .error .valueError :=
  C94_short_refuted (by rw [List.length_replicate, List.length_replicate])
    (by show (List.replicate 256 a).length ≤ 256; rw [List.length_replicate])

/-- (f): the last sample never counts. -/
example (a b : ℝ) (x y : List ℝ) (h : x.length = y.length + 1) :
    stoiAnyFs (exStoi true) x (y ++ [a]) = stoiAnyFs (exStoi true) x (y ++ [b]) := by
  refine C94_mask (by norm_num [exStoi]) (by simp [h]) (by simp [h]) fun k hk t ht => ?_
  have h1 : 128 * k + 256 < x.length := hk.1
  show (y ++ [a]).getD _ 0 = (y ++ [b]).getD _ 0
  rw [List.getD_eq_getElem?_getD, List.getD_eq_getElem?_getD, List.getElem?_append_left (by omega),
    List.getElem?_append_left (by omega)]

/-- (i): without dither the level does not matter. -/
example (x y : List ℝ) (h : x.length = y.length) :
    stoiAnyFs (exStoi true) x (y.map (3 * ·)) = stoiAnyFs (exStoi true) x y := by
  have := C94_gain (c := exStoi true) (x := x) (y := y) (g := 3) (by norm_num) rfl h rfl
  simpa [exStoi] using this

end Danse
