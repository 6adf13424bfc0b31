import Verif.Props.Sro
import Mathlib.Tactic.Positivity
import Mathlib.Algebra.BigOperators.Intervals
import Mathlib.Algebra.Order.BigOperators.Group.Finset

/-! # Lemmas for C115: sums of corrections -/

namespace Danse

/-- The correction made at update `j` of a history. -/
def corr (xs : List SroIn) (f : Nat → SroIn → ℚ) (j : Nat) : ℚ := (xs[j]?).elim 0 (f j)

theorem sum_take_zipIdx (xs : List SroIn) (f : Nat → SroIn → ℚ) : ∀ i, i ≤ xs.length →
    ((xs.take i).zipIdx.map fun p => f p.2 p.1).sum = ∑ j ∈ Finset.range i, corr xs f j
  | 0, _ => by simp
  | i + 1, h => by
    rw [List.take_succ_eq_append_getElem (by omega), List.zipIdx_append, List.map_append, List.sum_append,
      Finset.sum_range_succ, sum_take_zipIdx xs f i (by omega)]
    congr 1
    simp [corr, List.getElem?_eq_getElem (show i < xs.length by omega), Nat.min_eq_left (show i ≤ xs.length by omega)]

theorem delayLeft_eq {c : SroCfg} {xs : List SroIn} {s : SroSt} {os : List SroOut} (hc : c.compensate = true)
    (hf : c.includeFSD = true) {al : ℚ} (hm : c.method = .closed al ∨ (c.method = .open ∧ al = 1))
    (h : (SroSt.init c).run c xs = .ok (s, os)) {q : Nat} (hq : q < c.neighbors.length) (ε : ℚ) {i : Nat}
    (hi : i < xs.length) :
    delayLeft ε c.Ns xs os q (c.nLocal + q) i = c.Ns * (ε * i - ∑ j ∈ Finset.range i, corr xs (fun j x =>
      if c.scheduled j then x.coh q / (1 + x.coh q) * al else 0) j) := by
  obtain ⟨-, h2⟩ := C70_coherence hc hm h
  have hl : os.length = xs.length := (sroRun_inv hc xs (sroInv_init c) h).2.1
  obtain ⟨a, ha, -, hb⟩ := h2 i _ (List.getElem?_eq_getElem (hl ▸ hi))
  have e : shiftAt os i (c.nLocal + q) = flagTotal (xs.take (i + 1)) q -
      (∑ j ∈ Finset.range i, corr xs (fun j x =>
        if c.scheduled j then x.coh q / (1 + x.coh q) * al else 0) j) * c.Ns := by
    unfold shiftAt
    rw [List.getElem?_eq_getElem (hl ▸ hi), Option.bind_some, ha, Option.bind_some, hb q hq, Option.getD_some,
      hf, if_pos rfl, ← sum_take_zipIdx xs _ i hi.le]
  unfold delayLeft
  rw [e]
  ring

/-- Corrections of exact closed-loop estimates stay below the fraction `al` of the offset. -/
theorem corr_bound {u : Nat → ℚ} {ε al : ℚ} (hε : 0 ≤ ε) (ha : 0 ≤ al) (ha1 : al ≤ 1) {n ld : Nat}
    (hld : 0 < ld)
    (hu : ∀ i < n, u i = 0 ∨ (ld ≤ i ∧ ∃ r, u i = r / (1 + r) * al ∧
      r * ld = ε * ld - ∑ j ∈ Finset.Ico (i - ld) i, u j)) :
    ∀ i < n, 0 ≤ u i ∧ u i ≤ al * ε := by
  intro i
  induction i using Nat.strongRecOn with
  | _ i ih =>
    intro hi
    rcases hu i hi with h | ⟨h1, r, h2, h3⟩
    · rw [h]; exact ⟨le_rfl, mul_nonneg ha hε⟩
    have hl : (0 : ℚ) < ld := by exact_mod_cast hld
    have s0 : 0 ≤ ∑ j ∈ Finset.Ico (i - ld) i, u j :=
      Finset.sum_nonneg fun j hj => (ih j (Finset.mem_Ico.mp hj).2 ((Finset.mem_Ico.mp hj).2.trans hi)).1
    have s1 : ∑ j ∈ Finset.Ico (i - ld) i, u j ≤ ld * ε := by
      have := Finset.sum_le_card_nsmul (Finset.Ico (i - ld) i) u (al * ε) fun j hj =>
        (ih j (Finset.mem_Ico.mp hj).2 ((Finset.mem_Ico.mp hj).2.trans hi)).2
      rw [Nat.card_Ico, nsmul_eq_mul, show i - (i - ld) = ld by omega] at this
      have h4 : al * ε ≤ ε := by nlinarith
      exact this.trans (mul_le_mul_of_nonneg_left h4 hl.le)
    have r0 : 0 ≤ r := by
      by_contra hr
      push Not at hr
      have : r * ld < 0 := mul_neg_of_neg_of_pos hr hl
      linarith
    have r1 : r ≤ ε := by
      by_contra hr
      push Not at hr
      have : ε * ld < r * ld := mul_lt_mul_of_pos_right hr hl
      linarith
    have r2 : r / (1 + r) ≤ r := by
      rw [div_le_iff₀ (by linarith)]
      nlinarith
    have r3 : 0 ≤ r / (1 + r) := div_nonneg r0 (by linarith)
    rw [h2]
    exact ⟨mul_nonneg r3 ha, by nlinarith⟩

end Danse
