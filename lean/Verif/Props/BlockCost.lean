import Verif.Spec.BlockCost
import Mathlib.Algebra.Order.BigOperators.Group.Finset
import Mathlib.Algebra.BigOperators.Field
import Mathlib.Data.List.GetD
import Mathlib.Tactic.Linarith
import Mathlib.Tactic.FieldSimp
import Mathlib.Tactic.Ring
import Mathlib.Tactic.Positivity
import Mathlib.Tactic.NormNum

/-!
# C149: block-wise costs
-/

namespace Danse

open Finset

theorem memRows_length (cols : List (List ℚ)) (r : ℕ) : (memRows cols r).length = r * cols.length := by
  unfold memRows
  induction r with
  | zero => simp
  | succ r ih => rw [List.range_succ, List.flatMap_append, List.length_append, ih]; simp [Nat.succ_mul]

theorem memRows_getD (cols : List (List ℚ)) {r t k : ℕ} (ht : t < r) (hk : k < cols.length) :
    (memRows cols r).getD (t * cols.length + k) 0 = (cols.getD k []).getD t 0 := by
  induction r with
  | zero => omega
  | succ r ih =>
    have hl := memRows_length cols r
    have e : memRows cols (r + 1) = memRows cols r ++ cols.map fun c => c.getD r 0 := by
      unfold memRows
      rw [List.range_succ, List.flatMap_append]
      simp
    rw [e]
    rcases Nat.lt_or_ge t r with h | h
    · rw [List.getD_append _ _ _ _ (by
        rw [hl]
        calc t * cols.length + k < t * cols.length + cols.length := by omega
          _ = (t + 1) * cols.length := by ring
          _ ≤ r * cols.length := Nat.mul_le_mul_right _ h)]
      exact ih h
    · have : t = r := by omega
      subst this
      rw [List.getD_append_right _ _ _ _ (by rw [hl]; omega), hl]
      simp [List.getD_eq_getElem?_getD, List.getElem?_eq_getElem hk]

theorem bcSum (n : ℕ) (g : ℕ → ℚ) : ((List.range n).map g).sum = ∑ k ∈ range n, g k := by
  induction n with
  | zero => simp
  | succ n ih => rw [List.range_succ, List.map_append, List.sum_append, ih, sum_range_succ]; simp

/-- The columns, for signals of the same length. -/
theorem sqErrCols_ok (T : ℕ) (nodes : List (List ℚ × List ℚ)) (h : ∀ nd ∈ nodes, nd.1.length = T ∧ nd.2.length = T) :
    sqErrCols T nodes = .ok (nodes.map fun nd => (List.zipWith (· - ·) nd.1 nd.2).map fun x => x ^ 2) := by
  unfold sqErrCols
  induction nodes with
  | nil => rfl
  | cons nd nodes ih =>
    obtain ⟨h1, h2⟩ := h nd List.mem_cons_self
    rw [List.mapM_cons, ih fun x hx => h x (List.mem_cons_of_mem _ hx)]
    have e1 : npDiffB nd.1 nd.2 = .ok (List.zipWith (· - ·) nd.1 nd.2) := by unfold npDiffB; rw [if_pos (h1.trans h2.symm)]
    have e2 : colWrite T ((List.zipWith (· - ·) nd.1 nd.2).map fun x => x ^ 2) =
        .ok ((List.zipWith (· - ·) nd.1 nd.2).map fun x => x ^ 2) := by
      unfold colWrite
      rw [if_pos (by simp [h1, h2])]
    rw [e1]
    change (colWrite T ((List.zipWith (· - ·) nd.1 nd.2).map fun x => x ^ 2) >>= _ : Except PyErr (List (List ℚ))) = _
    rw [e2]
    rfl

theorem sqErr_getD {d w : List ℚ} {T t : ℕ} (hd : d.length = T) (hw : w.length = T) (ht : t < T) :
    ((List.zipWith (· - ·) d w).map fun x => x ^ 2).getD t 0 = (d.getD t 0 - w.getD t 0) ^ 2 := by
  have h1 : t < d.length := by omega
  have h2 : t < w.length := by omega
  have e : ((List.zipWith (· - ·) d w).map fun x => x ^ 2)[t]? = some ((d[t] - w[t]) ^ 2) := by
    rw [List.getElem?_eq_getElem (by simp; omega)]
    simp
  simp only [List.getD_eq_getElem?_getD, e, List.getElem?_eq_getElem h1, List.getElem?_eq_getElem h2, Option.getD_some]

/-- C149: for signals of `T` samples, block `b` of the cost of node `k` is the mean squared error of that node over the block of half a
second. -/
theorem C149_blocks {fs : ℚ} (hfs : 2 ≤ fs) {T : ℕ} {nodes : List (List ℚ × List ℚ)} (hne : nodes ≠ [])
    (h : ∀ nd ∈ nodes, nd.1.length = T ∧ nd.2.length = T) :
    ∃ (bl nB : ℕ) (out : List (List ℚ)), (bl : ℤ) = ⌊fs / 2⌋ ∧ nB * bl ≤ T ∧ T < (nB + 1) * bl ∧ computeMmse fs nodes = .ok out ∧
      out.length = nB ∧ ∀ b < nB, ∃ row, out[b]? = some row ∧ row.length = nodes.length ∧
        ∀ (k : ℕ) nd, nodes[k]? = some nd → row[k]? = some (meanSqErr nd.1 nd.2 (b * bl) bl) := by
  obtain ⟨n0, ns, rfl⟩ := List.exists_cons_of_ne_nil hne
  have hT : n0.1.length = T := (h n0 List.mem_cons_self).1
  have hbl : 1 ≤ ⌊1 / 2 * fs⌋ := by
    rw [Int.le_floor]
    push_cast
    linarith
  obtain ⟨bl, hbe⟩ : ∃ bl : ℕ, ⌊1 / 2 * fs⌋.toNat = bl := ⟨_, rfl⟩
  have hbp : 0 < bl := by omega
  have hcast : (bl : ℤ) = ⌊fs / 2⌋ := by
    rw [← hbe, Int.toNat_of_nonneg (by omega)]
    congr 1
    ring
  have hlen : ((n0 :: ns).map fun nd => (List.zipWith (· - ·) nd.1 nd.2).map fun x => x ^ 2).length = (n0 :: ns).length := by simp
  refine ⟨bl, T / bl, meanBlocks (memRows ((n0 :: ns).map fun nd => (List.zipWith (· - ·) nd.1 nd.2).map fun x => x ^ 2) (T / bl * bl))
    (T / bl) bl (n0 :: ns).length, hcast, Nat.div_mul_le_self _ _, ?_, ?_, ?_, ?_⟩
  · rw [Nat.add_mul, one_mul]
    exact Nat.lt_div_mul_add hbp
  · unfold computeMmse
    simp only [hT, sqErrCols_ok T _ h, hbe]
    change (if bl = 0 then _ else _) = _
    rw [if_neg (by omega)]
  · simp [meanBlocks]
  · intro b hb
    unfold meanBlocks
    rw [List.getElem?_map, List.getElem?_range hb]
    refine ⟨_, rfl, by simp, ?_⟩
    intro k nd hk
    have hkl : k < (n0 :: ns).length := (List.getElem?_eq_some_iff.1 hk).1
    rw [List.getElem?_map, List.getElem?_range hkl]
    simp only [Option.map_some, Option.some.injEq]
    rw [bcSum]
    unfold meanSqErr
    congr 1
    apply sum_congr rfl
    intro i hi
    rw [mem_range] at hi
    have ht : b * bl + i < T / bl * bl := by
      calc b * bl + i < b * bl + bl := by omega
        _ = (b + 1) * bl := by ring
        _ ≤ T / bl * bl := Nat.mul_le_mul_right _ hb
    have ht' : b * bl + i < T := lt_of_lt_of_le ht (Nat.div_mul_le_self _ _)
    obtain ⟨hd, hw⟩ := h nd (List.mem_of_getElem? hk)
    have := memRows_getD ((n0 :: ns).map fun nd => (List.zipWith (· - ·) nd.1 nd.2).map fun x => x ^ 2) ht (hlen ▸ hkl)
    rw [hlen] at this
    have e2 : ((n0 :: ns).map fun nd => (List.zipWith (· - ·) nd.1 nd.2).map fun x => x ^ 2).getD k [] =
        (List.zipWith (· - ·) nd.1 nd.2).map fun x => x ^ 2 := by
      rw [List.getD_eq_getElem?_getD, List.getElem?_map, hk]
      rfl
    rw [this, e2]
    exact sqErr_getD hd hw ht'

/-- C149 (zero): a block costs nothing if and only if the estimate is the clean signal in the block. -/
theorem C149_zero (d w : List ℚ) (a : ℕ) {bl : ℕ} (hbl : 0 < bl) :
    0 ≤ meanSqErr d w a bl ∧ (meanSqErr d w a bl = 0 ↔ ∀ i < bl, d.getD (a + i) 0 = w.getD (a + i) 0) := by
  have hb : (0 : ℚ) < bl := by exact_mod_cast hbl
  unfold meanSqErr
  refine ⟨div_nonneg (sum_nonneg fun _ _ => sq_nonneg _) hb.le, ?_⟩
  rw [div_eq_zero_iff, or_iff_left hb.ne', sum_eq_zero_iff_of_nonneg fun _ _ => sq_nonneg _]
  simp only [mem_range]
  constructor
  · intro h i hi
    have := h i hi
    rw [sq_eq_zero_iff] at this
    linarith
  · intro h i hi
    rw [h i hi]
    simp

/-- C149 (mean): the mean of the costs of the blocks is the mean squared error over all of them. -/
theorem C149_mean (d w : List ℚ) {bl nB : ℕ} : (∑ b ∈ range nB, meanSqErr d w (b * bl) bl) / nB = meanSqErr d w 0 (nB * bl) := by
  unfold meanSqErr
  rw [← Finset.sum_div, div_div]
  push_cast
  rw [mul_comm (nB : ℚ)]
  congr 1
  simp only [zero_add]
  induction nB with
  | zero => simp
  | succ n ih => rw [sum_range_succ, ih, Nat.succ_mul, Finset.sum_range_add]

/-- C149 (refuted: "the cost is that of the recording"): what happens after the last full block is not seen, whatever the error there. -/
theorem C149_refuted_tail {fs : ℚ} {T bl : ℕ} (hbl : (bl : ℤ) = ⌊fs / 2⌋) {d w w' : List ℚ} (hd : d.length = T) (hw : w.length = T)
    (hw' : w'.length = T) (hsame : ∀ t < T / bl * bl, w.getD t 0 = w'.getD t 0) : computeMmse fs [(d, w)] = computeMmse fs [(d, w')] := by
  have hb : ⌊1 / 2 * fs⌋.toNat = bl := by
    have : (1 : ℚ) / 2 * fs = fs / 2 := by ring
    rw [this, ← hbl]
    simp
  unfold computeMmse
  simp only [hd, sqErrCols_ok T [(d, w)] (by simp [hd, hw]), sqErrCols_ok T [(d, w')] (by simp [hd, hw']), hb]
  change (if bl = 0 then _ else _ : Except PyErr (List (List ℚ))) = (if bl = 0 then _ else _)
  by_cases h0 : bl = 0
  · rw [if_pos h0, if_pos h0]
  · rw [if_neg h0, if_neg h0]
    have e : memRows ([(d, w)].map fun nd => (List.zipWith (· - ·) nd.1 nd.2).map fun x => x ^ 2) (T / bl * bl) =
        memRows ([(d, w')].map fun nd => (List.zipWith (· - ·) nd.1 nd.2).map fun x => x ^ 2) (T / bl * bl) := by
      unfold memRows
      apply List.flatMap_congr
      intro t ht
      rw [List.mem_range] at ht
      have hT : t < T := lt_of_lt_of_le ht (Nat.div_mul_le_self _ _)
      simp only [List.map_cons, List.map_nil, sqErr_getD hd hw hT, sqErr_getD hd hw' hT, hsame t ht]
    exact congrArg (fun x => Except.ok (meanBlocks x (T / bl) bl 1)) e

/-- C149 (exceptions): a sampling rate below 2 Hz raises `ZeroDivisionError`; an estimate that is neither as long as the clean signal nor a
single sample, `ValueError`. -/
theorem C149_errors {fs : ℚ} {T : ℕ} {nodes : List (List ℚ × List ℚ)} (hne : nodes ≠ []) (h : ∀ nd ∈ nodes, nd.1.length = T) (hT : T ≠ 1) :
    ((∀ nd ∈ nodes, nd.2.length = T) → fs < 2 → computeMmse fs nodes = .error .zeroDivisionError) ∧
      ((∃ nd ∈ nodes, nd.2.length ≠ T ∧ nd.2.length ≠ 1) → computeMmse fs nodes = .error .valueError) := by
  obtain ⟨n0, ns, rfl⟩ := List.exists_cons_of_ne_nil hne
  have hT0 : n0.1.length = T := h n0 List.mem_cons_self
  constructor
  · intro h2 hfs
    have hb : ⌊1 / 2 * fs⌋.toNat = 0 := by
      rw [Int.toNat_eq_zero, ← Int.lt_add_one_iff, Int.floor_lt]
      push_cast
      linarith
    unfold computeMmse
    simp only [hT0, sqErrCols_ok T (n0 :: ns) fun nd hnd => ⟨h nd hnd, h2 nd hnd⟩, hb]
    rfl
  · intro hex
    have key : ∀ nodes : List (List ℚ × List ℚ), (∀ nd ∈ nodes, nd.1.length = T) → (∃ nd ∈ nodes, nd.2.length ≠ T ∧ nd.2.length ≠ 1) →
        sqErrCols T nodes = .error .valueError := by
      intro nodes
      unfold sqErrCols
      induction nodes with
      | nil => intro _ h; simp at h
      | cons nd nodes ih =>
        intro h1 h2
        rw [List.mapM_cons]
        have hd := h1 nd List.mem_cons_self
        by_cases hbad : nd.2.length ≠ T ∧ nd.2.length ≠ 1
        · have e : npDiffB nd.1 nd.2 = .error .valueError := by
            unfold npDiffB
            rw [if_neg (by omega), if_neg (by omega), if_neg hbad.2]
          rw [e]
          rfl
        · have hrest : ∃ nd ∈ nodes, nd.2.length ≠ T ∧ nd.2.length ≠ 1 := by
            obtain ⟨x, hx, hx'⟩ := h2
            rcases List.mem_cons.1 hx with rfl | hx
            · exact absurd hx' hbad
            · exact ⟨x, hx, hx'⟩
          rw [ih (fun x hx => h1 x (List.mem_cons_of_mem _ hx)) hrest]
          have hd2 : ∃ e, npDiffB nd.1 nd.2 = .ok e ∧ e.length = T := by
            unfold npDiffB
            by_cases h3 : nd.1.length = nd.2.length
            · rw [if_pos h3]
              exact ⟨_, rfl, by simp; omega⟩
            · rw [if_neg h3, if_neg (by omega), if_pos (by by_contra h4; exact hbad ⟨by omega, h4⟩)]
              exact ⟨_, rfl, by simp [hd]⟩
          obtain ⟨e, he, hel⟩ := hd2
          have hc : colWrite T (e.map fun x => x ^ 2) = .ok (e.map fun x => x ^ 2) := by
            unfold colWrite
            rw [if_pos (by simp [hel])]
          rw [he]
          change (colWrite T (e.map fun x => x ^ 2) >>= _ : Except PyErr (List (List ℚ))) = _
          rw [hc]
          rfl
    unfold computeMmse
    simp only [hT0, key _ h hex]
    rfl

/-- Two nodes, blocks of two samples: the fifth sample is not seen. -/
example : computeMmse 4 [([1, 2, 3, 4, 5], [1, 1, 1, 4, 0]), ([0, 0, 0, 0, 0], [2, 0, 0, 4, 7])] = .ok [[1 / 2, 2], [2, 8]] := by
  decide +kernel

/-- A second node with a longer recording: `ValueError`; with a recording of one sample, it is repeated. -/
example : computeMmse 4 [([1, 2], [1, 2]), ([1, 2, 3], [1, 2, 3])] = .error .valueError ∧
    computeMmse 4 [([1, 2], [1, 2]), ([3], [1])] = .ok [[0, 4]] := by
  decide +kernel

/-- An estimate that is too long: `ValueError`; a recording at 1 Hz: `ZeroDivisionError`. -/
example : computeMmse 4 [([1, 2, 3], [1, 1, 1, 4])] = .error .valueError ∧ computeMmse 1 [([1, 2], [1, 1])] = .error .zeroDivisionError := by
  decide +kernel

end Danse
