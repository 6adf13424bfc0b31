import Verif.Model.OracleAcs
import Mathlib.Tactic.Linarith
import Mathlib.Tactic.NormNum
import Mathlib.Order.Basic

/-! # C105: the oracle acoustic coherence state -/

namespace Danse

theorem acsActive_iff (scenes : List (ℚ × ℚ)) (t : ℚ) :
    acsActive scenes t = true ↔ ∃ s ∈ scenes, s.1 < t ∧ t < s.2 := by
  unfold acsActive
  simp [List.any_eq_true]

theorem mem_acsChanges (scenes : List (ℚ × ℚ)) (c : ℚ) :
    c ∈ acsChanges scenes ↔ ∃ s ∈ scenes, c = s.1 ∨ c = s.2 := by
  unfold acsChanges
  rw [List.mem_insertionSort, List.mem_flatMap]
  simp

theorem acsChanges_sorted (scenes : List (ℚ × ℚ)) : (acsChanges scenes).Pairwise (· ≤ ·) :=
  List.pairwise_insertionSort _ _

theorem acsStationary_iff {changes : List ℚ} (hs : changes.Pairwise (· ≤ ·)) {delay last t a b : ℚ} (hd : 0 < delay)
    (ha : a ∈ changes) (hb : b ∈ changes) (hat : a < t) (htb : t < b) :
    acsStationary changes delay last t = true ↔ ∀ c ∈ changes, ¬ (t - delay < c ∧ c ≤ t) := by
  have mono : ∀ i j (hi : i < changes.length) (hj : j < changes.length), i ≤ j → changes[i] ≤ changes[j] := by
    intro i j hi hj hij
    rcases Nat.eq_or_lt_of_le hij with rfl | h
    · exact le_rfl
    · exact List.pairwise_iff_getElem.mp hs i j hi hj h
  obtain ⟨ib, hib, rfl⟩ := List.getElem_of_mem hb
  unfold acsStationary
  rw [List.any_eq_true]
  constructor
  · rintro ⟨⟨c0, i⟩, hm, h⟩
    obtain ⟨hi, he⟩ := List.getElem?_eq_some_iff.mp (List.mem_zipIdx_iff_getElem?.mp hm)
    simp only at he hi
    subst he
    simp only [Bool.and_eq_true, decide_eq_true_eq] at h
    obtain ⟨h1, h2⟩ := h
    intro c hc ⟨h3, h4⟩
    obtain ⟨j, hj, rfl⟩ := List.getElem_of_mem hc
    rcases Nat.lt_or_ge i j with hij | hij
    · have hi' : i < changes.length - 1 := by omega
      rw [if_pos hi', List.getD_eq_getElem?_getD, List.getElem?_eq_getElem (by omega), Option.getD_some] at h2
      have := mono (i + 1) j (by omega) hj (by omega)
      linarith
    · have := mono j i hj hi hij
      linarith
  · intro h
    -- the last change at or before `t - delay`
    have ha' : a ≤ t - delay := by
      by_contra hc
      exact h a ha ⟨not_le.mp hc, hat.le⟩
    obtain ⟨ia, hia, rfl⟩ := List.getElem_of_mem ha
    have key : ∀ n i, ib - i = n → (hi : i < changes.length) → changes[i] ≤ t - delay →
        ∃ m, ∃ hm : m + 1 < changes.length, changes[m] ≤ t - delay ∧ t - delay < changes[m + 1] := by
      intro n
      induction n with
      | zero =>
        intro i hn hi hle
        have := mono ib i hib hi (by omega)
        linarith
      | succ n ih =>
        intro i hn hi hle
        have hi1 : i + 1 < changes.length := by omega
        by_cases hc : changes[i + 1] ≤ t - delay
        · exact ih (i + 1) (by omega) hi1 hc
        · exact ⟨i, hi1, hle, not_le.mp hc⟩
    obtain ⟨m, hm, h1, h2⟩ := key _ ia rfl hia ha'
    refine ⟨(changes[m], m), ?_, ?_⟩
    · rw [List.mem_zipIdx_iff_getElem?]
      exact List.getElem?_eq_getElem (by omega)
    · simp only [Bool.and_eq_true, decide_eq_true_eq]
      refine ⟨by linarith, ?_⟩
      rw [if_pos (by omega), List.getD_eq_getElem?_getD, List.getElem?_eq_getElem hm, Option.getD_some]
      by_contra hc
      exact h _ (List.getElem_mem hm) ⟨h2, not_lt.mp hc⟩

/-- C105 (a): the oracle is 1 at the times at which some source is active and the scene has not changed for
12.8 s (no source has started or stopped), and 0 at all others. -/
theorem C105_value (scenes : List (ℚ × ℚ)) (sigLen delay : ℚ) (n : Nat) (hn : 0 < n) :
    ∃ r, oracleAcs scenes sigLen n delay = .ok r ∧ r.length = n ∧
      ∀ i < n, ∀ t, (if n = 1 then t = 0 else t = (i : ℚ) * sigLen / ((n : ℚ) - 1)) →
        r.getD i 2 = open Classical in
          if (∃ s ∈ scenes, s.1 < t ∧ t < s.2) ∧
            ∀ s ∈ scenes, ¬ (t - 12.8 < s.1 ∧ s.1 ≤ t) ∧ ¬ (t - 12.8 < s.2 ∧ s.2 ≤ t) then 1 else 0 := by
  classical
  have hax : acsAxis sigLen n ≠ [] := by
    intro h
    have := congrArg List.length h
    simp only [acsAxis, List.length_map, List.length_range, List.length_nil] at this
    omega
  unfold oracleAcs
  simp only
  rw [if_neg (fun h => hax h.1)]
  refine ⟨_, rfl, by simp [acsAxis], ?_⟩
  intro i hi t ht
  have hti : (acsAxis sigLen n)[i]? = some t := by
    unfold acsAxis
    rw [List.getElem?_map, List.getElem?_range hi, Option.map_some]
    congr 1
    split at ht <;> rename_i h
    · rw [if_pos h, ht]
    · rw [if_neg h, ht]
  rw [List.getD_eq_getElem?_getD, List.getElem?_map, hti, Option.map_some, Option.getD_some]
  have key : (acsActive scenes t && acsStationary (acsChanges scenes) (128 / 10)
      ((acsAxis sigLen n).foldl max ((acsAxis sigLen n).headD 0)) t) = true ↔
      ((∃ s ∈ scenes, s.1 < t ∧ t < s.2) ∧
        ∀ s ∈ scenes, ¬ (t - 12.8 < s.1 ∧ s.1 ≤ t) ∧ ¬ (t - 12.8 < s.2 ∧ s.2 ≤ t)) := by
    rw [Bool.and_eq_true, acsActive_iff]
    refine and_congr_right ?_
    rintro ⟨s, hs, h1, h2⟩
    rw [acsStationary_iff (acsChanges_sorted scenes) (by norm_num) ((mem_acsChanges _ _).mpr ⟨s, hs, .inl rfl⟩)
      ((mem_acsChanges _ _).mpr ⟨s, hs, .inr rfl⟩) h1 h2]
    have e : (128 / 10 : ℚ) = 12.8 := by norm_num
    rw [e]
    constructor
    · intro h s' hs'
      exact ⟨h _ ((mem_acsChanges _ _).mpr ⟨s', hs', .inl rfl⟩), h _ ((mem_acsChanges _ _).mpr ⟨s', hs', .inr rfl⟩)⟩
    · intro h c hc
      obtain ⟨s', hs', hc | hc⟩ := (mem_acsChanges _ _).mp hc
      · rw [hc]; exact (h s' hs').1
      · rw [hc]; exact (h s' hs').2
  by_cases hk : (acsActive scenes t && acsStationary (acsChanges scenes) (128 / 10)
      ((acsAxis sigLen n).foldl max ((acsAxis sigLen n).headD 0)) t) = true
  · rw [if_pos hk, if_pos (key.mp hk)]
  · rw [if_neg hk, if_neg (fun h => hk (key.mpr h))]

/-- A source that is active from 10 s to 40 s, and 61 values for one minute: at 20 s the oracle is still 0, at
30 s it is 1, at 50 s it is 0 again. -/
example : ∃ r, oracleAcs [(10, 40)] 60 61 0 = .ok r ∧ r.getD 20 2 = 0 ∧ r.getD 30 2 = 1 ∧ r.getD 50 2 = 0 := by
  obtain ⟨r, h1, _, h3⟩ := C105_value [(10, 40)] 60 0 61 (by norm_num)
  refine ⟨r, h1, ?_, ?_, ?_⟩
  · rw [h3 20 (by norm_num) 20 (by norm_num), if_neg]
    rintro ⟨_, h⟩
    exact (h (10, 40) (by simp)).1 (by norm_num)
  · rw [h3 30 (by norm_num) 30 (by norm_num), if_pos]
    refine ⟨⟨(10, 40), by simp, by norm_num⟩, ?_⟩
    intro s hs
    rw [List.mem_singleton] at hs
    subst hs
    norm_num
  · rw [h3 50 (by norm_num) 50 (by norm_num), if_neg]
    rintro ⟨⟨s, hs, h⟩, _⟩
    rw [List.mem_singleton] at hs
    subst hs
    norm_num at h

/-- C105 (b), refuted: that the argument `delay` sets the time after which the scene counts as stationary. It is
ignored. -/
theorem C105_refuted_delay (scenes : List (ℚ × ℚ)) (sigLen d d' : ℚ) (n : Nat) :
    oracleAcs scenes sigLen n d = oracleAcs scenes sigLen n d' := rfl

end Danse
