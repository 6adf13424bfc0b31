import Verif.Proofs.Stoi2
import Verif.Proofs.BatchSig
import Verif.Proofs.Py
import Mathlib.Data.List.Sort

/-! # Closed forms of the intelligibility score -/

namespace Danse

theorem frameStarts_getD {l : Nat} {i : Nat} (h : i < (frameStarts l 256 128).length) :
    (frameStarts l 256 128).getD i 0 = 128 * i := by
  rw [frameStarts_length] at h
  unfold frameStarts
  rw [List.getD_eq_getElem?_getD, List.getElem?_map, List.getElem?_range h]
  simp [Nat.mul_comm]

/-- The kept frames are the audible ones, in order. -/
theorem keptStarts_nth {eps : ℝ} {x : List ℝ} {st : List Nat}
    (hk : keptStarts eps 40 256 128 x = .ok st)
    (hst : ∀ i, i ∈ st ↔ ∃ k, i = 128 * k ∧ Audible eps x k) {r : Nat} (hr : r < st.length) :
    st.getD r 0 = 128 * Nat.nth (Audible eps x) r := by
  classical
  have hfs : (frameStarts x.length 256 128).Pairwise (· < ·) := by
    unfold frameStarts
    rw [List.pairwise_map]
    exact List.pairwise_lt_range.imp fun h => by omega
  have hs : st.Pairwise (· < ·) := hfs.sublist (keptStarts_sublist hk)
  have hfin : (Set.ofPred (Audible eps x)).Finite := by
    refine (audible eps x).finite_toSet.subset fun k hk => ?_
    exact mem_audible.mpr hk
  have hto : hfin.toFinset = audible eps x := by
    ext k
    rw [Set.Finite.mem_toFinset, mem_audible]
    rfl
  have key : st = ((audible eps x).sort (· ≤ ·)).map (128 * ·) := by
    refine List.Perm.eq_of_pairwise' (r := (· < ·)) hs ?_ ?_
    · rw [List.pairwise_map]
      exact (Finset.sortedLT_sort _).pairwise.imp fun h => by omega
    · rw [List.perm_ext_iff_of_nodup hs.nodup]
      · intro i
        rw [hst, List.mem_map]
        constructor
        · rintro ⟨k, rfl, h⟩; exact ⟨k, (Finset.mem_sort _).mpr (mem_audible.mpr h), rfl⟩
        · rintro ⟨k, h, rfl⟩; exact ⟨k, rfl, mem_audible.mp ((Finset.mem_sort _).mp h)⟩
      · exact (Finset.sort_nodup _ _).map fun a b h => by simpa using h
  rw [Nat.nth_eq_getD_sort hfin, hto]
  rw [key, List.length_map] at hr
  rw [key, List.getD_eq_getElem?_getD, List.getD_eq_getElem?_getD, List.getElem?_map,
    List.getElem?_eq_getElem hr]
  rfl

theorem olaFrames_joined {eps : ℝ} {x : List ℝ} {st : List Nat}
    (hk : keptStarts eps 40 256 128 x = .ok st)
    (hn : st.Nodup) (hst : ∀ i, i ∈ st ↔ ∃ k, i = 128 * k ∧ Audible eps x k) (z : List ℝ) {n : Nat}
    (h : n < (st.length - 1) * 128 + 256) :
    (olaFrames 256 128 (st.map (hannFrame 256 z))).getD n 0 = joined eps x z n := by
  unfold olaFrames joined
  rw [List.getD_eq_getElem?_getD, List.getElem?_map, List.length_map, List.getElem?_range h,
    ← kept_card hn hst]
  simp only [Option.map_some, Option.getD_some]
  have e : (List.map (hannFrame 256 z) st).zipIdx = (List.range st.length).map fun r =>
      (hannFrame 256 z (st.getD r 0), r) := by
    apply List.ext_getElem
    · simp
    · intro i h1 h2
      simp only [List.length_map, List.length_range] at h2
      rw [List.getElem_zipIdx, List.getElem_map, List.getElem_map, List.getElem_range, getD_lt h2]
      simp
  rw [e, List.map_map, list_sum_range_map]
  refine Finset.sum_congr rfl fun r hr => ?_
  rw [Finset.mem_range] at hr
  simp only [Function.comp]
  rw [Nat.mul_comm r 128]
  split
  · rename_i hc
    rw [keptStarts_nth hk hst hr]
    unfold hannFrame hann256 hannAt
    rw [List.getD_eq_getElem?_getD, List.getElem?_map, List.getElem?_range (by omega)]
    simp only [Option.map_some, Option.getD_some]
    congr 1
    norm_num
  · rfl

theorem bandAmp_level {bins : List Nat} {l : List ℝ} {z : Nat → ℝ} {m : Nat}
    (h : ∀ t < 256, l.getD (128 * m + t) 0 = z (128 * m + t)) :
    bandAmp 512 256 bins l (128 * m) = bandLevel bins z m := by
  unfold bandAmp bandLevel
  congr 2
  refine List.map_congr_left fun f _ => ?_
  congr 2
  unfold rfftBin
  have hl : (hannFrame 256 l (128 * m)).length = 256 := by unfold hannFrame; simp
  rw [hl, list_sum_range_map]
  refine Finset.sum_congr rfl fun t ht => ?_
  rw [Finset.mem_range] at ht
  congr 1
  · congr 1
    unfold hannFrame hann256 hannAt
    rw [List.getD_eq_getElem?_getD, List.getElem?_map, List.getElem?_range ht]
    simp only [Option.map_some, Option.getD_some]
    rw [h t ht]
    congr 1
    norm_num

theorem segmentsOf_levels {c : StoiCfg} {x : List ℝ} {st : List Nat}
    (hk : keptStarts c.eps 40 256 128 (c.at10k x) = .ok st)
    (hn : st.Nodup) (hst : ∀ i, i ∈ st ↔ ∃ k, i = 128 * k ∧ Audible c.eps (c.at10k x) k) (z : List ℝ)
    (h0 : 0 < st.length) :
    segmentsOf 30 512 256 128 c.bands (olaFrames 256 128 (st.map (hannFrame 256 (c.at10k z)))) =
      (List.range (st.length - 30)).map (c.levels x z) := by
  unfold segmentsOf
  simp only
  rw [olaFrames_length, List.length_map]
  have hc := stft_count h0
  rw [hc, show st.length - 1 + 1 - 30 = st.length - 30 by omega]
  refine List.map_congr_left fun s hs => ?_
  rw [List.mem_range] at hs
  funext j m
  have := m.2
  rw [frameStarts_getD (by rw [hc]; omega)]
  unfold StoiCfg.levels
  refine bandAmp_level fun t ht => ?_
  exact olaFrames_joined hk hn hst _ (by omega)

theorem plainSegment_corr {eps : ℝ} (he : 0 < eps) (u v : Seg 15 30) :
    plainSegment eps (10 ^ ((15 : ℝ) / 20)) u v = ∑ j, corrCoef eps (u j) (clipped eps (u j) (v j)) := by
  unfold plainSegment corrCoef
  refine Finset.sum_congr rfl fun j _ => ?_
  rw [Finset.sum_div Finset.univ (fun m => dev (u j) m * dev (clipped eps (u j) (v j)) m)]
  simp only
  refine Finset.sum_congr (M := ℝ) rfl fun m _ => ?_
  rw [show ((15 : ℝ) / 20) = 3 / 4 by norm_num]
  unfold dev vnorm clipped vnorm
  simp only
  rw [div_mul_div_comm, mul_comm (_ - _) (_ - _), mul_comm (Real.sqrt _ + eps) (Real.sqrt _ + eps)]

theorem rowNormalize_standard {J N : Nat} {eps : ℝ} {r x a : Seg J N} (h : rowNormalize eps r x = .ok a) :
    a = fun j => standard fun m => x j m + eps * r j m := by
  unfold rowNormalize at h
  simp only at h
  split at h
  · cases h
  · injection h with h
    rw [← h]
    funext j m
    unfold standard dev vnorm
    rw [one_div, mul_comm, ← div_eq_mul_inv]

theorem rowColNormalize_normed {eps : ℝ} {r : Seg 15 30 × Seg 15 30} {x a : Seg 15 30}
    (h : rowColNormalize eps r.1 r.2 x = .ok a) : a = normedSeg eps r x := by
  unfold rowColNormalize at h
  obtain ⟨b, hb, h⟩ := bind_ok_inv h
  obtain ⟨d, hd, h⟩ := bind_ok_inv h
  injection h with h
  rw [← h, rowNormalize_standard hd, rowNormalize_standard hb]
  rfl

theorem normSegments_normed {eps : ℝ} {noise : Nat → Seg 15 30 × Seg 15 30} {l r : List (Seg 15 30)}
    (h : normSegments eps noise l = .ok r) :
    r = l.zipIdx.map fun p => normedSeg eps (noise p.2) p.1 := by
  unfold normSegments at h
  have := mapM_ok_forall₂ h
  clear h
  generalize l.zipIdx = q at this
  induction this with
  | nil => rfl
  | cons h _ ih =>
    rw [List.map_cons, ← ih]
    congr 1
    exact rowColNormalize_normed h

end Danse
