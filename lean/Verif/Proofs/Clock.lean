import Mathlib.Tactic.Linarith
import Mathlib.Tactic.NormNum
import Mathlib.Tactic.Positivity
import Mathlib.Tactic.FieldSimp
import Verif.Spec.Clock
import Verif.Proofs.Dxcp
import Verif.Proofs.Events2

/-! # Helper lemmas on inferred sampling frequencies -/

namespace Danse

theorem npDiff_clock (fs : ℚ) (n : Nat) : npDiff (clockStamps fs n) = List.replicate (n - 1) (1 / fs) := by
  unfold npDiff clockStamps
  apply List.ext_getElem
  · simp
  · intro i h1 h2
    simp only [List.length_map, List.length_zip, List.length_range, List.length_tail] at h1
    simp only [List.getElem_map, List.getElem_zip, List.getElem_tail, List.getElem_range,
      List.getElem_replicate]
    push_cast
    ring

theorem npRoundDec_err (x : ℚ) (p : Nat) : |npRoundDec x p - x| ≤ 1 / 2 / 10 ^ p := by
  unfold npRoundDec
  have hp : (0 : ℚ) < 10 ^ p := by positivity
  obtain ⟨h1, h2⟩ := roundHE_bounds (x * 10 ^ p)
  have e : (roundHE (x * 10 ^ p) : ℚ) / 10 ^ p - x = ((roundHE (x * 10 ^ p) : ℚ) - x * 10 ^ p) / 10 ^ p := by
    field_simp
  rw [e, abs_div, abs_of_pos hp]
  apply div_le_div_of_nonneg_right _ hp.le
  rw [abs_le]
  constructor <;> linarith

theorem npRoundDec_exact {x : ℚ} {p : Nat} {z : Int} (h : x * 10 ^ p = z) : npRoundDec x p = x := by
  unfold npRoundDec
  rw [h, roundHE_int, ← h]
  field_simp

theorem npUnique_replicate {x : ℚ} {n : Nat} (hn : 0 < n) : npUnique (List.replicate n x) = [x] := by
  unfold npUnique
  have : (List.replicate n x).dedup = [x] := by
    obtain ⟨m, rfl⟩ : ∃ m, n = m + 1 := ⟨n - 1, by omega⟩
    clear hn
    induction m with
    | zero => simp
    | succ m ih => rw [List.replicate_succ, List.dedup_cons_of_mem (by simp)]; exact ih
  rw [this]
  simp

/-- The number of decimals: the least one for which a unit of the last decimal is at most `1e-4` of the
mean interval. -/
theorem clockPrecision_spec {m : ℚ} (h0 : 0 < m) (h1 : m ≤ 10000) {p : Nat} :
    clockPrecision m = .ok p ↔ (1 / 10 ^ p ≤ m / 10000 ∧ ∀ q < p, m / 10000 < 1 / 10 ^ q) := by
  have hx : 0 < m / 10000 := by positivity
  have hx1 : m / 10000 ≤ 1 := by rw [div_le_one (by norm_num)]; exact h1
  unfold clockPrecision
  simp only
  rw [if_neg (by linarith), if_pos hx1, Except.ok.injEq]
  have key : ∀ q : Nat, ⌈(m / 10000)⁻¹⌉₊ ≤ 10 ^ q ↔ 1 / 10 ^ q ≤ m / 10000 := by
    intro q
    rw [Nat.ceil_le]
    push_cast
    rw [one_div]
    exact inv_le_comm₀ hx (by positivity)
  constructor
  · rintro rfl
    refine ⟨(key _).mp (Nat.le_pow_clog (by norm_num) _), fun q hq => ?_⟩
    rw [← not_le, ← key]
    intro h
    have := (Nat.clog_le_iff_le_pow (by norm_num : 1 < 10)).mpr h
    omega
  · rintro ⟨h2, h3⟩
    apply le_antisymm
    · exact (Nat.clog_le_iff_le_pow (by norm_num)).mpr ((key p).mpr h2)
    · by_contra hlt
      have := h3 _ (not_le.mp hlt)
      rw [← not_le, ← key] at this
      exact this (Nat.le_pow_clog (by norm_num) _)

theorem inferFs_clock {fs : ℚ} (hfs : 1 / 10000 ≤ fs) {n : Nat} (hn : 2 ≤ n) {p : Nat}
    (hp : clockPrecision (1 / fs) = .ok p) :
    inferFs (clockStamps fs n) = .ok (npRoundDec (1 / npRoundDec (1 / fs) p) 3) := by
  unfold inferFs
  simp only
  rw [npDiff_clock, if_neg (by simp; omega)]
  have e : (List.replicate (n - 1) (1 / fs)).sum / ((List.replicate (n - 1) (1 / fs)).length : ℚ) = 1 / fs := by
    rw [List.sum_replicate, List.length_replicate, nsmul_eq_mul]
    have : ((n - 1 : Nat) : ℚ) ≠ 0 := by
      have : 0 < n - 1 := by omega
      positivity
    field_simp
  rw [e, hp]
  simp only [bind, Except.bind]
  rw [List.map_replicate, npUnique_replicate (by omega)]

theorem mapM_inferFs {stamps : List (List ℚ)} {l : List ℚ} (hl : stamps.mapM inferFs = .ok l) :
    List.Forall₂ (fun s f => inferFs s = .ok f) stamps l := by
  induction stamps generalizing l with
  | nil => injection hl with hl; subst hl; exact .nil
  | cons s stamps ih =>
    rw [List.mapM_cons] at hl
    obtain ⟨a, h1, hl⟩ := Except.bind_ok hl
    obtain ⟨b, h2, hl⟩ := Except.bind_ok hl
    injection hl with hl
    subst hl
    exact .cons h1 (ih h2)

theorem clockPrecision_total {m : ℚ} (h0 : 0 < m) : ∃ p, clockPrecision m = .ok p := by
  unfold clockPrecision
  simp only
  rw [if_neg (by simp; linarith)]
  split <;> exact ⟨_, rfl⟩

end Danse
