import Verif.Proofs.Total2
import Verif.Props.Sched

/-! # Helper lemmas: an online run with few-sample broadcasts goes through (3) -/

namespace Danse

theorem evUps_length (evs : List (ℚ × Nat × EvType)) (k : Nat) : (upTimes evs k).length = evUps evs k := by
  unfold upTimes evUps
  rw [List.length_filterMap_eq_countP]
  congr 1
  funext ev
  by_cases h : ev.2.1 = k ∧ ev.2.2 = .up
  · rw [if_pos h]; simpa using h
  · rw [if_neg h]; simpa using h

theorem evBcs_length (evs : List (ℚ × Nat × EvType)) (k : Nat) : (bcTimes evs k).length = evBcs evs k := by
  unfold bcTimes evBcs
  rw [List.length_filterMap_eq_countP]
  congr 1
  funext ev
  by_cases h : ev.2.1 = k ∧ ev.2.2 = .bc
  · rw [if_pos h]; simpa using h
  · rw [if_neg h]; simpa using h

theorem upTimes_append (a b : List (ℚ × Nat × EvType)) (k : Nat) :
    upTimes (a ++ b) k = upTimes a k ++ upTimes b k := by
  unfold upTimes; rw [List.filterMap_append]

theorem bcTimes_append (a b : List (ℚ × Nat × EvType)) (k : Nat) :
    bcTimes (a ++ b) k = bcTimes a k ++ bcTimes b k := by
  unfold bcTimes; rw [List.filterMap_append]

/-- A schedule in which node `q` updates at least once is split at its last update. -/
theorem evSince_split (q : Nat) (evs : List (ℚ × Nat × EvType)) (h : 0 < evUps evs q) :
    ∃ a t, evs = a ++ (t, q, .up) :: evSince q evs ∧ evUps (evSince q evs) q = 0 := by
  induction evs using List.reverseRecOn with
  | nil => simp [evUps] at h
  | append_singleton evs ev ih =>
    have hs : evSince q (evs ++ [ev]) = if ev.2.1 = q ∧ ev.2.2 = .up then [] else evSince q evs ++ [ev] := by
      unfold evSince; rw [List.foldl_append]; rfl
    rw [hs]
    by_cases hc : ev.2.1 = q ∧ ev.2.2 = .up
    · rw [if_pos hc]
      obtain ⟨t, q', ty⟩ := ev
      obtain ⟨rfl, rfl⟩ := hc
      exact ⟨evs, t, rfl, rfl⟩
    · rw [if_neg hc]
      have h1 : evUps (evs ++ [ev]) q = evUps evs q := by
        unfold evUps; rw [List.countP_append, List.countP_singleton, if_neg (by simpa using hc)]; omega
      rw [h1] at h
      obtain ⟨a, t, e, e2⟩ := ih h
      refine ⟨a, t, ?_, ?_⟩
      · conv_lhs => rw [e]
        simp
      · unfold evUps at e2 ⊢
        rw [List.countP_append, e2, List.countP_singleton, if_neg (by simpa using hc)]

/-- Which update of the node it is determines its time. -/
theorem sync_index {evs pre post : List (ℚ × Nat × EvType)} {t fs : ℚ} {q Ns a b : Nat}
    (hu : upTimes evs q = everySep Ns fs a b) (hs : evs = pre ++ (t, q, .up) :: post) :
    a + evUps pre q < b ∧ t = ((a + evUps pre q : Nat) : ℚ) * Ns / fs := by
  subst hs
  rw [upTimes_append] at hu
  have e : upTimes ((t, q, EvType.up) :: post) q = t :: upTimes post q := by simp [upTimes]
  rw [e] at hu
  have h1 : (upTimes pre q ++ t :: upTimes post q)[evUps pre q]? = some t := by
    rw [← evUps_length, List.getElem?_append_right le_rfl]
    simp
  rw [hu] at h1
  unfold everySep at h1
  rw [List.getElem?_map] at h1
  by_cases hlt : evUps pre q < b - a
  · rw [List.getElem?_range hlt] at h1
    simp only [Option.map_some, Option.some.injEq] at h1
    exact ⟨by omega, h1.symm⟩
  · rw [List.getElem?_eq_none (by simp; omega)] at h1
    cases h1

theorem everySep_length (sep : Nat) (fs : ℚ) (a b : Nat) : (everySep sep fs a b).length = b - a := by
  simp [everySep]

/-- The number of broadcasts before the update at sample `i Ns`. -/
theorem sync_bcs {evs pre post : List (ℚ × Nat × EvType)} {t fs : ℚ} {q k Ns n L i : Nat} (hL0 : 0 < L)
    (hLNs : L ≤ Ns) (hfs : 0 < fs) (ho : evs.Pairwise EvBefore) (hev : evs = pre ++ (t, q, .up) :: post)
    (hb : bcTimes evs k = everySep L fs 1 ((n - 1) / L)) (hi : i < (n - 1) / Ns)
    (hit : t = (i : ℚ) * Ns / fs) : evBcs pre k = i * Ns / L := by
  have hNs : 0 < Ns := by omega
  have h3 : (i + 1) * Ns ≤ n - 1 := (Nat.le_div_iff_mul_le hNs).mp hi
  rw [Nat.add_mul, Nat.one_mul] at h3
  rw [← evBcs_length, bcTimes_before ho hev k, hb, hit]
  have e : (i : ℚ) * Ns / fs = ((i * Ns : Nat) : ℚ) / fs := by push_cast; ring
  rw [e, everySep_filter hL0 hfs, Nat.min_eq_right, everySep_length]
  · exact Nat.add_sub_cancel _ _
  · have h4 : i * Ns / L + 1 ≤ (i * Ns + L) / L := by rw [Nat.add_div_right _ hL0]
    exact h4.trans (Nat.div_le_div_right (by omega))

/-- Between two updates in a row of a node, a synchronous neighbour sends at most `Ns + L - 1` samples, and
exactly `Ns` when `L` divides `Ns`. -/
theorem sync_between {evs pre post : List (ℚ × Nat × EvType)} {t fs : ℚ} {q k Ns n L a : Nat} (hL0 : 0 < L)
    (hLNs : L ≤ Ns) (hfs : 0 < fs) (ho : evs.Pairwise EvBefore) (hev : evs = pre ++ (t, q, .up) :: post)
    (hu : upTimes evs q = everySep Ns fs a ((n - 1) / Ns))
    (hb : bcTimes evs k = everySep L fs 1 ((n - 1) / L)) (h0 : 0 < evUps pre q) :
    evBcs (evSince q pre) k * L < Ns + L ∧ (L ∣ Ns → evBcs (evSince q pre) k * L = Ns) := by
  obtain ⟨p1, t1, e1, e2⟩ := evSince_split q pre h0
  obtain ⟨i1, i2⟩ := sync_index hu hev
  have hev1 : evs = p1 ++ (t1, q, .up) :: (evSince q pre ++ (t, q, .up) :: post) := by
    rw [hev]; conv_lhs => rw [e1]
    simp
  obtain ⟨j1, j2⟩ := sync_index hu hev1
  have c1 := sync_bcs (k := k) hL0 hLNs hfs ho hev hb i1 i2
  have c2 := sync_bcs (k := k) hL0 hLNs hfs ho hev1 hb j1 j2
  have hups : evUps pre q = evUps p1 q + 1 := by
    have : evUps pre q = evUps p1 q + (1 + evUps (evSince q pre) q) := by
      conv_lhs => rw [e1]
      unfold evUps
      rw [List.countP_append, List.countP_cons_of_pos (by simp)]
      omega
    omega
  have hbc : evBcs pre k = evBcs p1 k + evBcs (evSince q pre) k := by
    conv_lhs => rw [e1]
    unfold evBcs
    rw [List.countP_append, List.countP_cons_of_neg (by simp)]
  rw [hups] at c1
  have e3 : (a + (evUps p1 q + 1)) * Ns = (a + evUps p1 q) * Ns + Ns := by ring
  rw [e3] at c1
  generalize (a + evUps p1 q) * Ns = A at c1 c2
  generalize evBcs (evSince q pre) k = B at hbc ⊢
  have hB : (A + Ns) / L = A / L + B := by omega
  constructor
  · have h1 : (A + Ns) / L * L ≤ A + Ns := Nat.div_mul_le_self _ _
    have h2 : A < A / L * L + L := Nat.lt_div_mul_add hL0
    rw [hB, Nat.add_mul] at h1
    omega
  · rintro ⟨m, rfl⟩
    rw [Nat.add_mul_div_left _ _ hL0] at hB
    have : B = m := by omega
    rw [this, Nat.mul_comm]

end Danse
