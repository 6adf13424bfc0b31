import Mathlib.Tactic.Linarith
import Mathlib.Tactic.Ring
import Mathlib.Tactic.FieldSimp
import Mathlib.Tactic.Positivity
import Mathlib.Tactic.NormNum
import Mathlib.Analysis.SpecialFunctions.Trigonometric.Basic
import Mathlib.RingTheory.RootsOfUnity.Complex
import Verif.Model.Dxcp
import Verif.Proofs.Dft
import Verif.Proofs.Metrics

/-!
# Lemmas about the online SRO estimator package
-/

namespace Danse

/-! ## Delay buffer -/

theorem delay_inv {α : Type} (zero : α) {L : Nat} (hL : 0 < L) (ws : List α) :
    let b := ws.foldl DelayBuf.write (DelayBuf.init zero L)
    b.data.length = L ∧ b.pointer = ws.length % L ∧
      ∀ j < L, b.data[(ws.length + j) % L]? = (List.replicate L zero ++ ws)[ws.length + j]? := by
  induction ws using List.reverseRecOn with
  | nil =>
    simp only [List.foldl_nil, DelayBuf.init, List.length_replicate, List.length_nil, Nat.zero_mod,
      Nat.zero_add, List.append_nil, true_and]
    intro j hj
    rw [Nat.mod_eq_of_lt hj]
  | append_singleton ws x ih =>
    obtain ⟨h1, h2, h3⟩ := ih
    simp only [List.foldl_append, List.foldl_cons, List.foldl_nil]
    set b := ws.foldl DelayBuf.write (DelayBuf.init zero L) with hb
    refine ⟨by simp [DelayBuf.write, h1], ?_, ?_⟩
    · simp only [DelayBuf.write, h1, h2, List.length_append, List.length_singleton]
      rw [Nat.mod_add_mod]
    · intro j hj
      simp only [DelayBuf.write, h2, List.length_append, List.length_singleton]
      rw [List.getElem?_set]
      by_cases hjl : j = L - 1
      · have e : ws.length + 1 + j = ws.length + L := by omega
        rw [e, Nat.add_mod_right, if_pos rfl]
        rw [List.getElem?_append_right (by simp), List.length_replicate,
          Nat.add_sub_cancel, List.getElem?_append_right (by omega), Nat.sub_self]
        have : ws.length % L < b.data.length := by rw [h1]; exact Nat.mod_lt _ hL
        simp [this]
      · have hne : ws.length % L ≠ (ws.length + 1 + j) % L := by
          intro h
          have h' : (ws.length + (1 + j)) % L = (ws.length + 0) % L := by
            rw [← Nat.add_assoc]; exact h.symm
          have := Nat.ModEq.add_left_cancel' ws.length (show ws.length + (1+j) ≡ ws.length + 0 [MOD L] from h')
          have h4 : (1 + j) % L = 0 % L := this
          rw [Nat.mod_eq_of_lt (by omega : 1 + j < L), Nat.zero_mod] at h4
          omega
        rw [if_neg hne]
        have := h3 (j + 1) (by omega)
        rw [show ws.length + 1 + j = ws.length + (j + 1) by omega, this, ← List.append_assoc]
        symm
        apply List.getElem?_append_left
        simp only [List.length_append, List.length_replicate]
        omega

/-! ## Rounding and window selection -/

theorem roundHE_bounds (x : ℚ) : (roundHE x : ℚ) - 1 / 2 ≤ x ∧ x ≤ (roundHE x : ℚ) + 1 / 2 := by
  unfold roundHE
  have h1 := Int.floor_le x
  have h2 := Int.lt_floor_add_one x
  simp only
  split_ifs <;> push_cast <;> constructor <;> linarith

theorem roundHE_int (z : Int) : roundHE (z : ℚ) = z := by
  unfold roundHE
  simp

theorem selectWin_window (B : Nat) (shift : ℚ) (w : Warned) (sro sto : ℚ) :
    0 ≤ (selectWin B shift w sro sto).start ∧
    (selectWin B shift w sro sto).stop = (selectWin B shift w sro sto).start + 2 * B ∧
    (selectWin B shift w sro sto).stop ≤ 4 * B := by
  unfold selectWin
  simp only
  split_ifs with h1 h2
  · refine ⟨le_rfl, by ring, ?_⟩; simp only; linarith [(Int.natCast_nonneg B)]
  · refine ⟨?_, by simp only; ring, le_rfl⟩; simp only; linarith [(Int.natCast_nonneg B)]
  · push Not at h1 h2
    refine ⟨h1, by simp only; ring, le_of_lt h2⟩

theorem selectWin_zero (B : Nat) (w : Warned) (d : Int) (h1 : -(B : Int) ≤ d) (h2 : d < B) :
    selectWin B 0 w 0 d = ⟨B + d, 3 * B + d, 0, 0, .none, false⟩ := by
  unfold selectWin
  have e : (0 : ℚ) + 0 * (1 / 1000000) * B + (d : ℚ) = (d : ℚ) := by ring
  simp only [e, roundHE_int]
  rw [if_neg (by omega : ¬ ((B : Int) + d < 0)), if_neg (by omega : ¬ ((B : Int) + 2 * B + d ≥ 4 * B))]
  have e2 : (B : Int) + 2 * B + d = 3 * B + d := by ring
  rw [e2]
  simp

/-! ## Hann window and the fractional delay -/

theorem hann_cola {B : Nat} (hB : 0 < B) (i : Nat) : hannP B i + hannP B (B + i) = 1 := by
  unfold hannP
  have hb : (B : ℝ) ≠ 0 := by exact_mod_cast hB.ne'
  have : 2 * Real.pi * ((B + i : ℕ) : ℝ) / ((2 * B : ℕ) : ℝ) =
      2 * Real.pi * (i : ℝ) / ((2 * B : ℕ) : ℝ) + Real.pi := by
    push_cast
    field_simp
    ring
  rw [this, Real.cos_add_pi]
  ring

theorem dft_root (n : Nat) (hn : 0 < n) :
    DftRoot (Complex.exp (2 * Real.pi * Complex.I / n)) n := by
  refine ⟨hn, Complex.isPrimitiveRoot_exp n hn.ne', ?_⟩
  rw [← Complex.exp_neg]
  change (starRingEnd ℂ) _ = _
  rw [← Complex.exp_conj]
  congr 1
  simp only [map_div₀, map_mul, Complex.conj_ofReal, Complex.conj_I, Complex.conj_natCast, map_ofNat]
  ring

theorem dft_congr {K : Type} [Field K] [StarRing K] (ζ : K) (n : Nat) {x y : List K}
    (h : ∀ t < n, at0 x t = at0 y t) : dft ζ n x = dft ζ n y := by
  unfold dft
  apply List.map_congr_left
  intro k _
  apply Finset.sum_congr rfl
  intro t ht
  rw [h t (Finset.mem_range.1 ht)]

theorem fracDelay_length (F : Nat) (r : ℝ) (x : List ℝ) : (fracDelay F r x).length = F := by
  unfold fracDelay
  simp [idft_length]

theorem fracDelay_zero {F : Nat} (hF : 0 < F) {x : List ℝ} (hx : x.length ≤ F) :
    fracDelay F 0 x = x ++ List.replicate (F - x.length) 0 := by
  unfold fracDelay
  simp only
  set ζ : ℂ := Complex.exp (2 * Real.pi * Complex.I / F) with hζ
  have hr : DftRoot ζ F := dft_root F hF
  have e1 : ∀ X : List ℂ, (X.zipIdx.map fun (v, j) =>
      v * Complex.exp (-Complex.I * 2 * Real.pi * (fftK F j : ℂ) / F * ((0 : ℝ) : ℂ))) = X := by
    intro X
    have : (fun (p : ℂ × ℕ) => p.1 * Complex.exp (-Complex.I * 2 * Real.pi * (fftK F p.2 : ℂ) / F *
        ((0 : ℝ) : ℂ))) = Prod.fst := by
      funext p; simp
    change X.zipIdx.map (fun (p : ℂ × ℕ) => p.1 * Complex.exp (-Complex.I * 2 * Real.pi *
      (fftK F p.2 : ℂ) / F * ((0 : ℝ) : ℂ))) = X
    rw [this]
    exact List.zipIdx_map_fst 0 X
  rw [e1]
  have e2 : dft ζ F (x.map Complex.ofReal) =
      dft ζ F ((x ++ List.replicate (F - x.length) 0).map Complex.ofReal) := by
    apply dft_congr
    intro t ht
    rw [List.map_append, at0_append]
    by_cases h : t < (x.map Complex.ofReal).length
    · rw [if_pos h]
    · rw [if_neg h, at0_of_ge (by omega)]
      unfold at0
      simp [List.getD_eq_getElem?_getD, List.getElem?_replicate]
      split_ifs <;> simp
  rw [e2, idft_dft hr (by simp; omega)]
  simp only [List.map_map]
  conv_rhs => rw [← List.map_id (x ++ List.replicate (F - x.length) 0)]
  apply List.map_congr_left
  intro v _
  simp

end Danse
