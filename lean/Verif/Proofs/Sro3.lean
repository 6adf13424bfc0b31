import Mathlib.Data.Int.ModEq
import Verif.Proofs.Dxcp2
import Verif.Proofs.Sro2

/-! # Shift theorem of the discrete Fourier transform -/

namespace Danse
section
variable {K : Type} [Field K] [StarRing K] {ζ : K} {n : Nat}

theorem zpow_congr_mod (r : DftRoot ζ n) {a b : Int} (h : (n : Int) ∣ a - b) : ζ ^ a = ζ ^ b := by
  have h1 : ζ ^ (a - b) = 1 := (r.prim.zpow_eq_one_iff_dvd _).mpr h
  rw [show a = (a - b) + b by ring, zpow_add₀ r.ne, h1, one_mul]

theorem inv_pow_zpow (ζ : K) (m : Nat) : (ζ⁻¹) ^ m = ζ ^ (-(m : Int)) := by
  rw [inv_pow, zpow_neg, zpow_natCast]

theorem circDelay_length (d : Int) (x : List K) : (circDelay n d x).length = n := by simp [circDelay]

theorem at0_circDelay {d : Int} {x : List K} {t : Nat} (ht : t < n) :
    at0 (circDelay n d x) t = at0 x (((t : Int) - d) % n).toNat := by
  unfold circDelay
  rw [at0_range_map ht]; rfl

theorem dft_shift (r : DftRoot ζ n) (d : Int) (x : List K) :
    dft ζ n (circDelay n d x) = (dft ζ n x).zipIdx.map fun p => p.1 * ζ ^ (-((p.2 : Int) * d)) := by
  unfold dft
  rw [zipIdx_map_range]
  apply List.map_congr_left
  intro k _
  simp only
  rw [Finset.sum_mul]
  have hn : (0 : Int) < n := by exact_mod_cast r.pos
  have hn0 : (n : Int) ≠ 0 := hn.ne'
  refine Finset.sum_nbij' (fun t => (((t : Int) - d) % n).toNat) (fun u => (((u : Int) + d) % n).toNat)
    ?_ ?_ ?_ ?_ ?_
  · intro t _
    have h1 := Int.emod_nonneg ((t : Int) - d) hn0
    have h2 := Int.emod_lt_of_pos ((t : Int) - d) hn
    simp only [Finset.mem_range]; omega
  · intro t _
    have h1 := Int.emod_nonneg ((t : Int) + d) hn0
    have h2 := Int.emod_lt_of_pos ((t : Int) + d) hn
    simp only [Finset.mem_range]; omega
  · intro t ht
    have ht := Finset.mem_range.mp ht
    have h1 := Int.emod_nonneg ((t : Int) - d) hn0
    rw [Int.toNat_of_nonneg h1, Int.emod_add_emod, sub_add_cancel,
      Int.emod_eq_of_lt (by omega) (by omega)]
    simp
  · intro t ht
    have ht := Finset.mem_range.mp ht
    have h1 := Int.emod_nonneg ((t : Int) + d) hn0
    rw [Int.toNat_of_nonneg h1, Int.emod_sub_emod, add_sub_cancel_right,
      Int.emod_eq_of_lt (by omega) (by omega)]
    simp
  · intro t ht
    have ht := Finset.mem_range.mp ht
    rw [at0_circDelay ht, mul_assoc, inv_pow_zpow, inv_pow_zpow, ← zpow_add₀ r.ne]
    congr 1
    apply zpow_congr_mod r
    have h1 := Int.emod_nonneg ((t : Int) - d) hn0
    push_cast
    rw [Int.toNat_of_nonneg h1]
    have h2 := Int.mul_ediv_add_emod ((t : Int) - d) n
    refine ⟨-(k * (((t : Int) - d) / n)), ?_⟩
    have h3 : ((t : Int) - d) % n = t - d - n * (((t : Int) - d) / n) := by omega
    rw [h3]; ring

end

theorem phaseFactor_zpow {N : Nat} (κ : Nat) (d : Int) :
    phaseFactor N κ (d : ℝ) =
      (Complex.exp (2 * Real.pi * Complex.I / N)) ^ (-((κ : Int) * d)) := by
  unfold phaseFactor
  rw [← Complex.exp_int_mul]
  congr 1
  push_cast
  ring

theorem applyShift_dft {N : Nat} (hN : 0 < N) (d : Int) (x : List ℂ) (m : Nat) :
    applyShift N (d : ℝ) ((dft (Complex.exp (2 * Real.pi * Complex.I / N)) N x).take m) =
      (dft (Complex.exp (2 * Real.pi * Complex.I / N)) N (circDelay N d x)).take m := by
  rw [dft_shift (dft_root N hN)]
  unfold applyShift
  apply List.ext_getElem?
  intro j
  simp only [List.getElem?_map, List.getElem?_zipIdx, List.getElem?_take]
  by_cases hj : j < m
  · simp only [hj, if_true]
    cases h : (dft (Complex.exp (2 * Real.pi * Complex.I / N)) N x)[j]? with
    | none => simp
    | some v => simp [phaseFactor_zpow]
  · simp [hj]

theorem phaseFactor_norm (N κ : Nat) (s : ℝ) : ‖phaseFactor N κ s‖ = 1 := by
  unfold phaseFactor
  have : (-1 * Complex.I * 2 * Real.pi / N * (κ * s) : ℂ) =
      ((-(2 * Real.pi / N * (κ * s)) : ℝ) : ℂ) * Complex.I := by push_cast; ring
  rw [this, Complex.norm_exp_ofReal_mul_I]

/-- When the pipeline goes through. -/
theorem sroStep_ok {c : SroCfg} {s : SroSt} (hi : s.i < c.nIter) (hm : c.method ≠ .dxcp)
    (hn : c.networkWide = true → c.neighbors.length = 1) (hs : c.ssbc = true → c.compensate = false)
    (hk : c.compensate = true → c.k = 0 → c.neighbors ≠ []) (x : SroIn) :
    ∃ s' o, s.step c x = .ok (s', o) ∧ s'.i = s.i + 1 := by
  unfold SroSt.step
  rw [if_neg (by omega)]
  unfold SroSt.compensate
  have e1 : ¬ (c.compensate = true ∧ c.k = 0 ∧ c.neighbors = []) := fun h => hk h.1 h.2.1 h.2.2
  have e2 : ¬ (c.ssbc = true ∧ c.compensate = true) := fun h => by
    have := hs h.1; rw [h.2] at this; cases this
  have e3 : ¬ (c.networkWide = true ∧ c.neighbors.length ≠ 1) := fun h => h.2 (hn h.1)
  simp only [if_neg e1, if_neg e2]
  simp only [bind, Except.bind]
  unfold SroSt.estimate
  rw [if_neg hm, if_neg e3]
  by_cases hc : c.compensate = true
  · rw [if_neg (by simp [hc])]
    simp only
    split
    · rename_i a b heq
      split at heq
      · cases heq
      · cases heq
    · rename_i a s2 heq
      refine ⟨_, _, rfl, ?_⟩
      simp only [Nat.add_right_cancel_iff]
      split at heq
      · injection heq with h
        rw [← h]
        exact (estFold c x _ c.neighbors.length).1
      · injection heq with h
        rw [← h]
        exact (estFoldC c x _ c.nSensors.length).1.trans (estFold c x _ c.neighbors.length).1
  · rw [if_pos hc]
    exact ⟨_, _, rfl, rfl⟩

theorem sroRun_ok {c : SroCfg} (hm : c.method ≠ .dxcp)
    (hn : c.networkWide = true → c.neighbors.length = 1) (hs : c.ssbc = true → c.compensate = false)
    (hk : c.compensate = true → c.k = 0 → c.neighbors ≠ []) (xs : List SroIn) :
    ∀ s : SroSt, s.i + xs.length ≤ c.nIter → ∃ s' os, s.run c xs = .ok (s', os) := by
  induction xs with
  | nil => intro s _; exact ⟨s, [], rfl⟩
  | cons x r ih =>
    intro s h
    simp only [List.length_cons] at h
    obtain ⟨s1, o, h1, h2⟩ := sroStep_ok (s := s) (by omega) hm hn hs hk x
    obtain ⟨s2, os, h3⟩ := ih s1 (by omega)
    refine ⟨s2, o :: os, ?_⟩
    unfold SroSt.run
    rw [h1]
    simp only [bind, Except.bind]
    rw [h3]

end Danse
