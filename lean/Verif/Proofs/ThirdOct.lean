import Verif.Spec.ThirdOct
import Mathlib.Tactic.Linarith
import Mathlib.Tactic.Ring
import Mathlib.Tactic.NormNum
import Mathlib.Tactic.Positivity
import Mathlib.Tactic.FieldSimp

/-!
# Helper lemmas for C148
-/

namespace Danse

theorem argminUpTo_spec (g : ℕ → ℝ) (n : ℕ) : argminUpTo g n ≤ n ∧ (∀ j ≤ n, g (argminUpTo g n) ≤ g j) ∧
    ∀ j < argminUpTo g n, g (argminUpTo g n) < g j := by
  induction n with
  | zero => exact ⟨le_refl _, fun j hj => by rw [Nat.le_zero.1 hj]; exact le_refl _, fun j hj => by simp [argminUpTo] at hj⟩
  | succ n ih =>
    obtain ⟨h1, h2, h3⟩ := ih
    rw [argminUpTo]
    by_cases h : g (n + 1) < g (argminUpTo g n)
    · rw [if_pos h]
      refine ⟨le_refl _, fun j hj => ?_, fun j hj => lt_of_lt_of_le h (h2 j (by omega))⟩
      rcases Nat.lt_or_ge j (n + 1) with hj' | hj'
      · exact (lt_of_lt_of_le h (h2 j (by omega))).le
      · rw [le_antisymm hj hj']
    · rw [if_neg h]
      refine ⟨by omega, fun j hj => ?_, h3⟩
      rcases Nat.lt_or_ge j (n + 1) with hj' | hj'
      · exact h2 j (by omega)
      · rw [le_antisymm hj hj']
        exact not_lt.1 h

theorem octNearest_spec (fs : ℝ) (nfft : ℕ) (e : ℝ) : NearestBin fs nfft e (octNearest fs nfft e) := by
  obtain ⟨h1, h2, h3⟩ := argminUpTo_spec (fun j => (octBin fs nfft j - e) ^ 2) (nfft / 2)
  exact ⟨h1, fun j hj => sq_le_sq.1 (h2 j hj), fun j hj => sq_lt_sq.1 (h3 j hj)⟩

theorem octLow_eq (m : ℝ) (k : ℕ) : octLow m k = bandEdge m k := by
  unfold octLow bandEdge
  rw [mul_assoc, ← Real.rpow_add (by norm_num)]
  congr 2
  ring

theorem octHigh_eq (m : ℝ) (k : ℕ) : octHigh m k = bandEdge m (k + 1) := by
  unfold octHigh bandEdge
  rw [mul_assoc, ← Real.rpow_add (by norm_num)]
  congr 2
  push_cast
  ring

theorem bandEdge_pos {m : ℝ} (hm : 0 < m) (k : ℕ) : 0 < bandEdge m k := by
  unfold bandEdge
  positivity

theorem bandEdge_mono {m : ℝ} (hm : 0 < m) {k l : ℕ} (h : k ≤ l) : bandEdge m k ≤ bandEdge m l := by
  unfold bandEdge
  refine mul_le_mul_of_nonneg_left ?_ (by positivity)
  apply Real.rpow_le_rpow_of_exponent_le (by norm_num)
  have : (k : ℝ) ≤ l := by exact_mod_cast h
  linarith

theorem nearest_mono {fs : ℝ} (hfs : 0 < fs) {nfft : ℕ} {e e' : ℝ} (h : e ≤ e') {b b' : ℕ} (hb : NearestBin fs nfft e b)
    (hb' : NearestBin fs nfft e' b') : b ≤ b' := by
  by_contra hlt
  push Not at hlt
  have h1 := sq_lt_sq.2 (hb.first b' hlt)
  have h2 := sq_le_sq.2 (hb'.near b hb.le)
  have hn : nfft ≠ 0 := by
    rintro rfl
    have := hb.le
    omega
  have hf : (b' : ℝ) * fs / nfft < b * fs / nfft := by
    have : (b' : ℝ) < b := by exact_mod_cast hlt
    have hn' : (0 : ℝ) < nfft := by exact_mod_cast Nat.pos_of_ne_zero hn
    gcongr
  nlinarith

theorem nearest_unique {fs : ℝ} (hfs : 0 < fs) {nfft : ℕ} {e : ℝ} {b b' : ℕ} (hb : NearestBin fs nfft e b)
    (hb' : NearestBin fs nfft e b') : b = b' :=
  le_antisymm (nearest_mono hfs (le_refl e) hb hb') (nearest_mono hfs (le_refl e) hb' hb)

/-- Edges that are a bin apart, the first one below the last bin, have different bins. -/
theorem nearest_strict {fs : ℝ} (hfs : 0 < fs) {nfft : ℕ} {e e' : ℝ} (he : 0 < e) (h : e + fs / nfft ≤ e')
    (hl : e + fs / (2 * nfft) ≤ (nfft / 2 : ℕ) * fs / nfft) {b b' : ℕ} (hb : NearestBin fs nfft e b)
    (hb' : NearestBin fs nfft e' b') : b < b' := by
  have hn : nfft ≠ 0 := by
    rintro rfl
    simp at hl
    linarith
  have hn' : (0 : ℝ) < nfft := by exact_mod_cast Nat.pos_of_ne_zero hn
  generalize hD : fs / nfft = D at h
  have hDp : 0 < D := by rw [← hD]; positivity
  have f (j : ℝ) : j * fs / nfft = j * D := by rw [← hD]; ring
  have hh : fs / (2 * nfft) = D / 2 := by rw [← hD]; ring
  rw [hh, f] at hl
  by_contra hge
  push Not at hge
  have heq : b' = b := le_antisymm hge (nearest_mono hfs (by linarith) hb hb')
  subst heq
  have hblt : b' < nfft / 2 := by
    rcases Nat.lt_or_ge b' (nfft / 2) with h' | h'
    · exact h'
    · exfalso
      have hbe : b' = nfft / 2 := le_antisymm hb.le h'
      rcases Nat.eq_zero_or_pos b' with h0 | h0
      · rw [← hbe, h0] at hl
        push_cast at hl
        linarith
      · have h1 := sq_lt_sq.2 (hb.first (b' - 1) (by omega))
        rw [f, f] at h1
        rw [← hbe] at hl
        push_cast [Nat.cast_sub h0] at h1
        nlinarith
  have h2 := sq_le_sq.2 (hb'.near (b' + 1) (by omega))
  rw [f, f] at h2
  push_cast at h2
  have h3 : e' ≤ b' * D + D / 2 := by nlinarith
  rcases Nat.eq_zero_or_pos b' with h0 | h0
  · rw [h0] at h3
    push_cast at h3
    linarith
  · have h1 := sq_lt_sq.2 (hb.first (b' - 1) (by omega))
    rw [f, f] at h1
    push_cast [Nat.cast_sub h0] at h1
    have h4 : (b' : ℝ) * D < e + D / 2 := by nlinarith
    linarith

/-- Beyond the last bin: the last bin. -/
theorem nearest_top {fs : ℝ} (hfs : 0 < fs) {nfft : ℕ} (hn : nfft ≠ 0) {e : ℝ} (h : (nfft / 2 : ℕ) * fs / nfft ≤ e) :
    NearestBin fs nfft e (nfft / 2) := by
  have hn' : (0 : ℝ) < nfft := by exact_mod_cast Nat.pos_of_ne_zero hn
  have hm : ∀ j ≤ nfft / 2, (j : ℝ) * fs / nfft ≤ (nfft / 2 : ℕ) * fs / nfft := by
    intro j hj
    have : (j : ℝ) ≤ (nfft / 2 : ℕ) := by exact_mod_cast hj
    gcongr
  have hs : ∀ j < nfft / 2, (j : ℝ) * fs / nfft < (nfft / 2 : ℕ) * fs / nfft := by
    intro j hj
    have : (j : ℝ) < (nfft / 2 : ℕ) := by exact_mod_cast hj
    gcongr
  refine ⟨le_refl _, fun j hj => ?_, fun j hj => ?_⟩
  · rw [abs_of_nonpos (by linarith), abs_of_nonpos (by linarith [hm j hj])]
    linarith [hm j hj]
  · rw [abs_of_nonpos (by linarith), abs_of_nonpos (by linarith [hm j hj.le])]
    linarith [hs j hj]

theorem sum_indicator {b : ℕ → ℕ} (hb : ∀ k, b k ≤ b (k + 1)) (K j : ℕ) :
    ∑ k ∈ Finset.range K, (if b k ≤ j ∧ j < b (k + 1) then (1 : ℝ) else 0) = if b 0 ≤ j ∧ j < b K then 1 else 0 := by
  induction K with
  | zero =>
    rw [Finset.range_zero, Finset.sum_empty, if_neg]
    omega
  | succ K ih =>
    rw [Finset.sum_range_succ, ih]
    have h0 : b 0 ≤ b K := by
      clear ih
      induction K with
      | zero => exact le_refl _
      | succ K ih => exact ih.trans (hb K)
    have := hb K
    by_cases h1 : b 0 ≤ j ∧ j < b K
    · rw [if_pos h1, if_neg (by omega), if_pos (by omega), add_zero]
    · rw [if_neg h1, zero_add]
      by_cases h2 : b K ≤ j ∧ j < b (K + 1)
      · rw [if_pos h2, if_pos (by omega)]
      · rw [if_neg h2, if_neg (by omega)]

theorem octList_sum (n : ℕ) (g : ℕ → ℝ) : ((List.range n).map g).sum = ∑ k ∈ Finset.range n, g k := by
  induction n with
  | zero => simp
  | succ n ih => rw [List.range_succ, List.map_append, List.sum_append, ih, Finset.sum_range_succ]; simp

theorem octRow_sum (n : ℕ) (g : ℕ → ℝ) (p : List ℝ) (hp : p.length = n) :
    (List.zipWith (· * ·) ((List.range n).map g) p).sum = ∑ j ∈ Finset.range n, g j * p.getD j 0 := by
  have : List.zipWith (· * ·) ((List.range n).map g) p = (List.range n).map fun j => g j * p.getD j 0 := by
    apply List.ext_getElem
    · simp [hp]
    · intro i h1 h2
      simp at h1
      simp [List.getD_eq_getElem?_getD, List.getElem?_eq_getElem (show i < p.length by omega)]
  rw [this, octList_sum]

end Danse
