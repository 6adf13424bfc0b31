import Verif.Proofs.Sro3
import Verif.Props.Buffers

/-! # Channels that receive the drift flags -/

namespace Danse

theorem flagRange_lt {n : List Nat} {k q : Nat} (hk : k < n.length) (hq : q < k)
    (hp : 1 ≤ n.getD q 0) : flagRange n k q = nodeRange n q := by
  unfold flagRange nodeRange
  simp only
  rw [erase_take_le n hq.le, erase_take_le n (by omega), take_succ_sum n (by omega)]
  rw [if_neg (by omega)]

theorem flagRange_gt {n : List Nat} {k q : Nat} (hk : k < n.length) (hq : k < q) (hq2 : q < n.length) :
    (flagRange n k q).1 + n.getD k 0 = (nodeRange n q).2 ∧
    (flagRange n k q).2 + n.getD k 0 = (nodeRange n q).2 +
      (if n.getD (q + 1) 0 = 0 then 1 else n.getD (q + 1) 0) := by
  unfold flagRange nodeRange
  have h1 := erase_take_gt n hq.le hk
  have h2 := erase_take_gt n (show k ≤ q + 1 by omega) hk
  refine ⟨h1, ?_⟩
  simp only
  have h3 : (n.take (q + 1 + 1)).sum = (n.take (q + 1)).sum + n.getD (q + 1) 0 := by
    by_cases h : q + 1 < n.length
    · exact take_succ_sum n h
    · rw [List.take_of_length_le (by omega), List.take_of_length_le (by omega),
        List.getD_eq_getElem?_getD, List.getElem?_eq_none (by omega)]
      simp
  by_cases h0 : n.getD (q + 1) 0 = 0
  · rw [if_pos (by omega), if_pos h0]; omega
  · rw [if_neg (by omega), if_neg h0]; omega

theorem flagRange_iff {n : List Nat} {k : Nat} (hk : k < n.length) (hp : ∀ q < n.length, 1 ≤ n.getD q 0) :
    (∀ q < n.length, q ≠ k → flagRange n k q = nodeRange n q) ↔
      (k + 1 = n.length ∨ ∀ j, k ≤ j → j < n.length → n.getD j 0 = 1) := by
  have key : ∀ q, k < q → q < n.length → (flagRange n k q = nodeRange n q ↔
      n.getD q 0 = n.getD k 0 ∧ (if n.getD (q + 1) 0 = 0 then 1 else n.getD (q + 1) 0) = n.getD k 0) := by
    intro q h1 h2
    obtain ⟨e1, e2⟩ := flagRange_gt hk h1 h2
    have e3 : (nodeRange n q).2 = (nodeRange n q).1 + n.getD q 0 := take_succ_sum n h2
    rw [Prod.ext_iff]
    omega
  constructor
  · intro h
    by_cases hl : k + 1 = n.length
    · exact .inl hl
    right
    have h1 : n.getD k 0 = 1 := by
      have := (key (n.length - 1) (by omega) (by omega)).mp (h _ (by omega) (by omega))
      rw [show n.length - 1 + 1 = n.length by omega, List.getD_eq_getElem?_getD (i := n.length),
        List.getElem?_eq_none le_rfl] at this
      simp at this
      rw [List.getD_eq_getElem?_getD]; exact this.2.symm
    intro j hj hj2
    by_cases hjk : j = k
    · rw [hjk, h1]
    · have := (key j (by omega) hj2).mp (h j hj2 hjk)
      omega
  · intro h q hq hqk
    rcases Nat.lt_or_ge q k with hlt | hge
    · exact flagRange_lt hk hlt (hp q hq)
    · rcases h with h | h
      · omega
      · refine (key q (by omega) hq).mpr ⟨?_, ?_⟩
        · rw [h q hge hq, h k le_rfl hk]
        · rw [h k le_rfl hk]
          by_cases hl : q + 1 < n.length
          · rw [h (q + 1) (by omega) hl]; simp
          · rw [List.getD_eq_getElem?_getD, List.getElem?_eq_none (by omega)]; simp

/-- In the configurations where the ranges are right, the flags add up channel by channel. -/
theorem extraSumC_right {c : SroCfg}
    (h : ∀ q < c.nSensors.length, q ≠ c.k → flagRange c.nSensors c.k q = nodeRange c.nSensors q)
    {xs : List SroIn} (hl : ∀ x ∈ xs, x.flagsC.length = c.nSensors.length) {q j : Nat}
    (hj : channelOf c.nSensors q j) :
    extraSumC c xs j = if q = c.k then 0 else flagTotalC xs q := by
  obtain ⟨hq, hjs⟩ := channelOf_lt hj
  have h1 : ∀ x ∈ xs, (extraShiftsC c.nSensors c.k x.flagsC).1.getD j 0 =
      if q = c.k then 0 else flagAt x.flagsC q := by
    intro x hx
    apply extraShiftsC_get _ hjs
    · intro hne; rw [h q hq hne]; exact hj
    · intro q' hq' hne hne2 hcon
      rw [h q' (by rw [← hl x hx]; exact hq') hne] at hcon
      exact hne2 (channelOf_unique hcon hj)
  unfold extraSumC flagTotalC
  rw [List.map_congr_left h1]
  split
  · simp
  · rfl

theorem sroSum_const {c : SroCfg} {q : Nat} {v : ℚ} {xs : List SroIn}
    (h : ∀ i x, sroAt c i x q = v) : sroSum c xs q = xs.length * v := by
  induction xs using List.reverseRecOn with
  | nil => simp [sroSum]
  | append_singleton l a ih =>
    rw [sroSum_snoc, ih, h]; simp only [List.length_append, List.length_singleton]; push_cast; ring

theorem sroSumC_const {c : SroCfg} {q : Nat} {v : ℚ} {xs : List SroIn}
    (h : ∀ i x, sroAtC c i x q = v) : sroSumC c xs q = xs.length * v := by
  induction xs using List.reverseRecOn with
  | nil => simp [sroSumC]
  | append_singleton l a ih =>
    rw [sroSumC_snoc, ih, h]; simp only [List.length_append, List.length_singleton]; push_cast; ring

theorem flagAt_map_some (l : List Int) (q : Nat) :
    flagAt (l.map fun (v : Int) => some (Int.cast v : ℚ)) q = ((l.getD q 0 : Int) : ℚ) := by
  unfold flagAt
  simp only [List.getD_eq_getElem?_getD, List.getElem?_map]
  cases l[q]? <;> simp

end Danse
