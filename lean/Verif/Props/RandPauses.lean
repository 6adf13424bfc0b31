import Verif.Model.RandPauses
import Verif.Spec.RandPauses
import Verif.Props.SigTools

/-!
# C135: random pauses of a source
-/

namespace Danse

theorem pyInt_floor {x : ℚ} (h : 0 ≤ x) : pyInt x = ⌊x⌋ := by
  unfold pyInt; rw [if_pos h]

theorem nRandPauses_ok {n : Nat} {dmin dmax fs : ℚ} (hmin : 0 ≤ dmin) (hmm : dmin ≤ dmax) (hmax : 0 < dmax)
    (hfs : 0 < fs) :
    nRandPauses n dmin dmax fs = .ok ⌊(n : ℚ) / ((dmin + dmax) * fs) / 2⌋ := by
  unfold nRandPauses
  have h : 0 < (dmin + dmax) * fs := by positivity
  rw [if_neg h.ne', pyInt_floor (by positivity)]

theorem zeroSlice_length (y : List ℚ) (a b : Int) : (zeroSlice y a b).length = y.length := by
  unfold zeroSlice; simp

theorem pauseLen_bounds {dmin dmax fs u : ℚ} (hmin : 0 ≤ dmin) (hmm : dmin ≤ dmax) (hfs : 0 < fs)
    (hu : 0 ≤ u ∧ u < 1) : 0 ≤ pauseLen dmin dmax fs u ∧ pauseLen dmin dmax fs u ≤ dmax * fs := by
  unfold pauseLen
  have h1 : 0 ≤ (dmax - dmin) * u := mul_nonneg (by linarith) hu.1
  have h2 : (dmax - dmin) * u ≤ (dmax - dmin) * 1 := mul_le_mul_of_nonneg_left hu.2.le (by linarith)
  exact ⟨mul_nonneg (by linarith) hfs.le, mul_le_mul_of_nonneg_right (by linarith) hfs.le⟩

/-- What a pause does, if it fits. -/
theorem addRandPause_get {n : Nat} {dmin dmax fs : ℚ} (y : List ℚ) (d : ℚ × ℚ)
    (hl : 0 ≤ pauseLen dmin dmax fs d.1) (hs : 0 ≤ pauseStart n dmin dmax fs d) (j : Nat) :
    (InPause (pauseStart n dmin dmax fs d) (pauseLen dmin dmax fs d.1) j →
      (addRandPause n dmin dmax fs y d)[j]? = y[j]?.map fun _ => 0) ∧
    (¬ InPause (pauseStart n dmin dmax fs d) (pauseLen dmin dmax fs d.1) j →
      (addRandPause n dmin dmax fs y d)[j]? = y[j]?) := by
  have e1 : npUniform 0 ((n : ℚ) - npUniform dmin dmax d.1 * fs) d.2 = pauseStart n dmin dmax fs d := by
    unfold npUniform pauseStart pauseLen; ring
  have e2 : npUniform dmin dmax d.1 * fs = pauseLen dmin dmax fs d.1 := rfl
  have h : addRandPause n dmin dmax fs y d = zeroSlice y ⌊pauseStart n dmin dmax fs d⌋
      ⌊pauseStart n dmin dmax fs d + pauseLen dmin dmax fs d.1⌋ := by
    unfold addRandPause
    simp only
    rw [e1, e2, pyInt_floor hs, pyInt_floor (by linarith)]
  rw [h, zeroSlice_get _ (Int.floor_nonneg.mpr hs) (Int.floor_nonneg.mpr (by linarith))]
  unfold InPause
  exact ⟨fun h => if_pos h, fun h => if_neg h⟩

/-- C135: with random pauses, the number of pauses is `⌊n / ((min + max) fs) / 2⌋`, every pause lies
inside the signal whatever the draws, a sample in a pause is zero and every other sample is untouched. -/
theorem C135_pauses {y : List ℚ} {dmin dmax fs : ℚ} {draws : Nat → ℚ × ℚ}
    (hmin : 0 ≤ dmin) (hmm : dmin ≤ dmax) (hmax : 0 < dmax) (hfs : 0 < fs)
    (hd : ∀ i, (0 ≤ (draws i).1 ∧ (draws i).1 < 1) ∧ 0 ≤ (draws i).2 ∧ (draws i).2 < 1) :
    ∃ (r : List ℚ) (m : Nat), addRandPauses y dmin dmax fs draws = .ok r ∧
      (m : Int) = ⌊(y.length : ℚ) / ((dmin + dmax) * fs) / 2⌋ ∧
      (∀ i < m, 0 ≤ pauseStart y.length dmin dmax fs (draws i) ∧
        pauseStart y.length dmin dmax fs (draws i) + pauseLen dmin dmax fs (draws i).1 ≤ y.length) ∧
      r.length = y.length ∧
      ∀ j : Nat,
        ((∃ i < m, InPause (pauseStart y.length dmin dmax fs (draws i))
            (pauseLen dmin dmax fs (draws i).1) j) → smp r j = 0) ∧
        ((¬ ∃ i < m, InPause (pauseStart y.length dmin dmax fs (draws i))
            (pauseLen dmin dmax fs (draws i).1) j) → r[j]? = y[j]?) := by
  have hD : 0 < (dmin + dmax) * fs := by positivity
  have hm0 : 0 ≤ ⌊(y.length : ℚ) / ((dmin + dmax) * fs) / 2⌋ := Int.floor_nonneg.mpr (by positivity)
  obtain ⟨m, hm⟩ := Int.eq_ofNat_of_zero_le hm0
  have hfit : ∀ i < m, 0 ≤ pauseStart y.length dmin dmax fs (draws i) ∧
      pauseStart y.length dmin dmax fs (draws i) + pauseLen dmin dmax fs (draws i).1 ≤ y.length := by
    intro i hi
    obtain ⟨hu, hv0, hv1⟩ := hd i
    obtain ⟨hl0, hl1⟩ := pauseLen_bounds hmin hmm hfs hu
    have h1 : (1 : ℚ) ≤ (y.length : ℚ) / ((dmin + dmax) * fs) / 2 := by
      have : (1 : Int) ≤ ⌊(y.length : ℚ) / ((dmin + dmax) * fs) / 2⌋ := by rw [hm]; omega
      simpa using Int.le_floor.mp this
    have h2 : (dmin + dmax) * fs * 2 ≤ y.length := by
      rw [div_div, le_div_iff₀ (by positivity)] at h1
      linarith
    have h3 : dmax * fs ≤ (dmin + dmax) * fs := mul_le_mul_of_nonneg_right (by linarith) hfs.le
    have h4 : 0 ≤ (y.length : ℚ) - pauseLen dmin dmax fs (draws i).1 := by linarith
    unfold pauseStart
    refine ⟨mul_nonneg h4 hv0, ?_⟩
    have := mul_le_mul_of_nonneg_left hv1.le h4
    linarith
  have hrun : addRandPauses y dmin dmax fs draws =
      .ok (((List.range m).map draws).foldl (addRandPause y.length dmin dmax fs) y) := by
    unfold addRandPauses
    rw [nRandPauses_ok hmin hmm hmax hfs, hm]
    rfl
  refine ⟨_, m, hrun, hm.symm, hfit, ?_⟩
  have key : ∀ M ≤ m,
      (((List.range M).map draws).foldl (addRandPause y.length dmin dmax fs) y).length = y.length ∧
      ∀ j : Nat,
        ((∃ i < M, InPause (pauseStart y.length dmin dmax fs (draws i))
            (pauseLen dmin dmax fs (draws i).1) j) →
          (((List.range M).map draws).foldl (addRandPause y.length dmin dmax fs) y)[j]? =
            y[j]?.map fun _ => 0) ∧
        ((¬ ∃ i < M, InPause (pauseStart y.length dmin dmax fs (draws i))
            (pauseLen dmin dmax fs (draws i).1) j) →
          (((List.range M).map draws).foldl (addRandPause y.length dmin dmax fs) y)[j]? = y[j]?) := by
    intro M
    induction M with
    | zero => intro _; simp
    | succ M ih =>
      intro hM
      obtain ⟨ihl, ihj⟩ := ih (by omega)
      rw [List.range_succ, List.map_append, List.foldl_append]
      simp only [List.map_cons, List.map_nil, List.foldl_cons, List.foldl_nil]
      set z := ((List.range M).map draws).foldl (addRandPause y.length dmin dmax fs) y with hz
      refine ⟨by unfold addRandPause; simp only; rw [zeroSlice_length, ihl], fun j => ?_⟩
      have hg := addRandPause_get (n := y.length) (dmin := dmin) (dmax := dmax) (fs := fs) z (draws M)
        (pauseLen_bounds hmin hmm hfs (hd M).1).1 (hfit M (by omega)).1 j
      by_cases hin : InPause (pauseStart y.length dmin dmax fs (draws M))
          (pauseLen dmin dmax fs (draws M).1) j
      · refine ⟨fun _ => ?_, fun hno => absurd ⟨M, by omega, hin⟩ hno⟩
        rw [hg.1 hin]
        by_cases hex : ∃ i < M, InPause (pauseStart y.length dmin dmax fs (draws i))
            (pauseLen dmin dmax fs (draws i).1) j
        · rw [(ihj j).1 hex, Option.map_map]; rfl
        · rw [(ihj j).2 hex]
      · rw [hg.2 hin]
        refine ⟨fun ⟨i, hi, hp⟩ => (ihj j).1 ⟨i, ?_, hp⟩, fun hno => (ihj j).2 fun ⟨i, hi, hp⟩ =>
          hno ⟨i, by omega, hp⟩⟩
        rcases Nat.lt_succ_iff_lt_or_eq.mp hi with h | h
        · exact h
        · subst h; exact absurd hp hin
  obtain ⟨hl, hj⟩ := key m le_rfl
  refine ⟨hl, fun j => ⟨fun h => ?_, (hj j).2⟩⟩
  unfold smp
  rw [List.getD_eq_getElem?_getD, (hj j).1 h]
  cases y[j]? <;> rfl

/-- C135: at most half of the source, plus one sample per pause, is silenced. -/
theorem C135_half_kept {y r : List ℚ} {dmin dmax fs : ℚ} {draws : Nat → ℚ × ℚ}
    (hmin : 0 ≤ dmin) (hmm : dmin ≤ dmax) (hmax : 0 < dmax) (hfs : 0 < fs)
    (hd : ∀ i, (0 ≤ (draws i).1 ∧ (draws i).1 < 1) ∧ 0 ≤ (draws i).2 ∧ (draws i).2 < 1)
    (h : addRandPauses y dmin dmax fs draws = .ok r) :
    (((Finset.range y.length).filter fun j => r[j]? ≠ y[j]?).card : ℚ) ≤
      y.length / 2 + y.length / ((dmin + dmax) * fs) / 2 := by
  obtain ⟨r', m, hr, hm, hfit, hlen, hj⟩ := C135_pauses (y := y) hmin hmm hmax hfs hd
  have : r = r' := Except.ok.inj (h.symm.trans hr)
  subst this
  have hD : 0 < (dmin + dmax) * fs := by positivity
  -- every changed sample lies in one of the pauses
  have hsub : ((Finset.range y.length).filter fun j => r[j]? ≠ y[j]?) ⊆
      (Finset.range m).biUnion fun i =>
        (Finset.Ico ⌊pauseStart y.length dmin dmax fs (draws i)⌋.toNat
          ⌊pauseStart y.length dmin dmax fs (draws i) + pauseLen dmin dmax fs (draws i).1⌋.toNat) := by
    intro j hjm
    rw [Finset.mem_filter] at hjm
    rw [Finset.mem_biUnion]
    by_contra hno
    refine hjm.2 ((hj j).2 ?_)
    rintro ⟨i, hi, h1, h2⟩
    refine hno ⟨i, Finset.mem_range.mpr hi, ?_⟩
    rw [Finset.mem_Ico]
    have := Int.floor_nonneg.mpr (hfit i hi).1
    omega
  have hcard : (((Finset.range y.length).filter fun j => r[j]? ≠ y[j]?).card : ℚ) ≤
      m * (dmax * fs + 1) := by
    have h1 := (Finset.card_le_card hsub).trans Finset.card_biUnion_le
    have h2 : ∀ i ∈ Finset.range m,
        (((Finset.Ico ⌊pauseStart y.length dmin dmax fs (draws i)⌋.toNat
          ⌊pauseStart y.length dmin dmax fs (draws i) + pauseLen dmin dmax fs (draws i).1⌋.toNat).card : ℕ) : ℚ) ≤
          dmax * fs + 1 := by
      intro i hi
      have hi := Finset.mem_range.mp hi
      rw [Nat.card_Ico]
      obtain ⟨hl0, hl1⟩ := pauseLen_bounds hmin hmm hfs (hd i).1
      set s := pauseStart y.length dmin dmax fs (draws i)
      set l := pauseLen dmin dmax fs (draws i).1
      have hs0 : 0 ≤ ⌊s⌋ := Int.floor_nonneg.mpr (hfit i hi).1
      have hle : ⌊s⌋ ≤ ⌊s + l⌋ := Int.floor_le_floor (by linarith)
      have hc : (((⌊s + l⌋.toNat - ⌊s⌋.toNat : ℕ) : ℤ) : ℚ) = (⌊s + l⌋ : ℚ) - ⌊s⌋ := by
        rw [← Int.cast_sub]; congr 1; omega
      rw [← Int.cast_natCast, hc]
      have a1 := Int.floor_le (s + l)
      have a2 := Int.lt_floor_add_one s
      linarith
    calc (((Finset.range y.length).filter fun j => r[j]? ≠ y[j]?).card : ℚ)
        ≤ ((∑ i ∈ Finset.range m, (Finset.Ico ⌊pauseStart y.length dmin dmax fs (draws i)⌋.toNat
          ⌊pauseStart y.length dmin dmax fs (draws i) + pauseLen dmin dmax fs (draws i).1⌋.toNat).card : ℕ) : ℚ) := by
            exact_mod_cast h1
      _ = ∑ i ∈ Finset.range m, ((Finset.Ico ⌊pauseStart y.length dmin dmax fs (draws i)⌋.toNat
          ⌊pauseStart y.length dmin dmax fs (draws i) + pauseLen dmin dmax fs (draws i).1⌋.toNat).card : ℚ) := by
            push_cast; rfl
      _ ≤ ∑ _i ∈ Finset.range m, (dmax * fs + 1) := Finset.sum_le_sum h2
      _ = m * (dmax * fs + 1) := by rw [Finset.sum_const, Finset.card_range, nsmul_eq_mul]
  have hmle : (m : ℚ) ≤ (y.length : ℚ) / ((dmin + dmax) * fs) / 2 := by
    have := Int.floor_le ((y.length : ℚ) / ((dmin + dmax) * fs) / 2)
    rw [← hm] at this
    exact_mod_cast this
  have h3 : (m : ℚ) * (dmax * fs) ≤ y.length / 2 := by
    have h4 : (m : ℚ) * (dmax * fs) ≤ (y.length : ℚ) / ((dmin + dmax) * fs) / 2 * ((dmin + dmax) * fs) :=
      mul_le_mul hmle (mul_le_mul_of_nonneg_right (by linarith) hfs.le) (by positivity) (by positivity)
    have h5 : (y.length : ℚ) / ((dmin + dmax) * fs) / 2 * ((dmin + dmax) * fs) = y.length / 2 := by
      field_simp
    linarith
  nlinarith [hcard, hmle, h3]

/-- C135: a source shorter than twice the sum of the two pause lengths gets no pause at all, whatever the
draws: its voice activity never goes down. -/
theorem C135_short {y : List ℚ} {dmin dmax fs : ℚ} (draws : Nat → ℚ × ℚ)
    (hmin : 0 ≤ dmin) (hmm : dmin ≤ dmax) (hmax : 0 < dmax) (hfs : 0 < fs)
    (hn : (y.length : ℚ) < 2 * (dmin + dmax) * fs) :
    addRandPauses y dmin dmax fs draws = .ok y := by
  have hD : 0 < (dmin + dmax) * fs := by positivity
  unfold addRandPauses
  rw [nRandPauses_ok hmin hmm hmax hfs]
  have : ⌊(y.length : ℚ) / ((dmin + dmax) * fs) / 2⌋ = 0 := by
    rw [Int.floor_eq_zero_iff]
    refine ⟨by positivity, ?_⟩
    rw [div_div, div_lt_one (by positivity)]
    linarith
  rw [this]
  rfl

/-- A source of ten samples with pauses of one or two samples: one pause, at sample 4. -/
example : addRandPauses [1, 1, 1, 1, 1, 1, 1, 1, 1, 1] 1 2 1 (fun _ => (0, 1 / 2)) =
    .ok [1, 1, 1, 1, 0, 1, 1, 1, 1, 1] := by decide_cbv

end Danse
