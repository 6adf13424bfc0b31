import Verif.Spec.Cost
import Verif.Proofs.Danse3
import Verif.Proofs.Mwf

/-! # Auxiliary: the estimated error as a quadratic function -/

namespace Danse
open Matrix
open scoped ComplexOrder

section
variable {n : Type} [Fintype n]

/-- Quadratic form. -/
noncomputable def qf (A : Matrix n n ℂ) (w : n → ℂ) : ℝ := (star w ⬝ᵥ A *ᵥ w).re

theorem qf_add (A B : Matrix n n ℂ) (w : n → ℂ) : qf (A + B) w = qf A w + qf B w := by
  simp [qf, add_mulVec, dotProduct_add]

theorem qf_sub (A B : Matrix n n ℂ) (w : n → ℂ) : qf (A - B) w = qf A w - qf B w := by
  simp [qf, sub_mulVec, dotProduct_sub]

theorem qf_smul (r : ℝ) (A : Matrix n n ℂ) (w : n → ℂ) : qf ((r : ℂ) • A) w = r * qf A w := by
  simp [qf, smul_mulVec, dotProduct_smul]

theorem qf_vec (y w : n → ℂ) : qf (vecMulVec y (star y)) w = ‖star w ⬝ᵥ y‖ ^ 2 := by
  unfold qf
  have e : vecMulVec y (star y) *ᵥ w = (star y ⬝ᵥ w) • y := by
    ext i
    simp [vecMulVec, mulVec, dotProduct, Finset.sum_mul, mul_comm, mul_left_comm, Finset.mul_sum]
  rw [e, dotProduct_smul, star_dotProduct, smul_eq_mul, mul_comm]
  change ((star w ⬝ᵥ y) * (starRingEnd ℂ) (star w ⬝ᵥ y)).re = _
  rw [Complex.mul_conj, Complex.ofReal_re, Complex.normSq_eq_norm_sq]

theorem herm_swap {C : Matrix n n ℂ} (hC : C.IsHermitian) (a b : n → ℂ) :
    star a ⬝ᵥ C *ᵥ b = star (C *ᵥ a) ⬝ᵥ b := by
  rw [dotProduct_mulVec, star_mulVec, hC.eq]

/-- Completion of the square. -/
theorem qf_square {A B : Matrix n n ℂ} (hA : A.IsHermitian) (hB : B.IsHermitian) {e w : n → ℂ}
    (h : A *ᵥ w = (A - B) *ᵥ e) (v : n → ℂ) :
    qf (A - B) (e - v) + qf B v = qf (A - B) (e - w) + qf B w + qf A (v - w) := by
  have hw : ∀ u : n → ℂ, qf (A - B) (e - u) + qf B u =
      (star e ⬝ᵥ (A - B) *ᵥ e - star u ⬝ᵥ A *ᵥ w - star w ⬝ᵥ A *ᵥ u + star u ⬝ᵥ A *ᵥ u).re := by
    intro u
    have h1 : star e ⬝ᵥ (A - B) *ᵥ u = star w ⬝ᵥ A *ᵥ u := by
      rw [herm_swap (hA.sub hB), ← h, herm_swap hA]
    have h2 : star u ⬝ᵥ (A - B) *ᵥ e = star u ⬝ᵥ A *ᵥ w := by rw [h]
    unfold qf
    rw [mulVec_sub, star_sub, sub_dotProduct, dotProduct_sub, dotProduct_sub, h1, h2, ← Complex.add_re]
    congr 1
    have h3 : star u ⬝ᵥ (A - B) *ᵥ u = star u ⬝ᵥ A *ᵥ u - star u ⬝ᵥ B *ᵥ u := by rw [sub_mulVec, dotProduct_sub]
    rw [h3]
    ring
  rw [hw v, hw w]
  unfold qf
  rw [mulVec_sub, star_sub, sub_dotProduct, dotProduct_sub, dotProduct_sub, ← Complex.add_re]
  congr 1
  ring

end

section
variable {B m : Nat}

theorem avgFrom_snoc (b : ℝ) (κ : Fin B) (w : Fin m → ℂ) (p : ℝ) (l : List (Frame (Fin B) (Fin m) ℂ)) (y) :
    avgFrom b κ w p (l ++ [y]) = b * avgFrom b κ w p l + (1 - b) * ‖star w ⬝ᵥ y κ‖ ^ 2 := by
  simp [avgFrom]

theorem qf_rankOne (y : Frame (Fin B) (Fin m) ℂ) (κ : Fin B) (w : Fin m → ℂ) :
    (m : ℝ) * qf (rankOne y κ) w = ‖star w ⬝ᵥ y κ‖ ^ 2 := by
  rcases Nat.eq_zero_or_pos m with rfl | hm
  · simp [dotProduct]
  · have e : rankOne y κ = (((m : ℝ)⁻¹ : ℝ) : ℂ) • vecMulVec (y κ) (star (y κ)) := by
      simp [rankOne]
    have : (m : ℝ) ≠ 0 := by positivity
    rw [e, qf_smul, qf_vec]
    field_simp

variable {D : DanseCfg ℂ} {k : Nat}

/-- The average power is the quadratic form of the covariance matrix, times the number of channels. -/
theorem power_eq {r : ℝ} (hr : D.beta k = (r : ℂ)) (b : Bool) (l : List (UpEv (Fin D.nb) (Fin m) ℂ ℚ)) (κ : Fin D.nb)
    (w : Fin m → ℂ) : D.power k b l κ w = m * qf (D.scm k b l κ) w := by
  have key : ∀ (R : Fin D.nb → Matrix (Fin m) (Fin m) ℂ) (fr : List (Frame (Fin D.nb) (Fin m) ℂ)),
      avgFrom r κ w (m * qf (R κ) w) fr = m * qf (expWeighted (r : ℂ) R fr κ) w := by
    intro R fr
    induction fr using List.reverseRecOn with
    | nil => rw [expWeighted_nil]; rfl
    | append_singleton l y ih =>
      rw [avgFrom_snoc, ih, expWeighted_snoc, qf_add, mul_add, qf_smul]
      have : (1 - (r : ℂ)) = ((1 - r : ℝ) : ℂ) := by push_cast; rfl
      rw [this, qf_smul, ← qf_rankOne]
      ring
  unfold DanseCfg.power DanseCfg.scm
  rw [hr, Complex.ofReal_re]
  cases D.use1st with
  | false => cases framesWith b l with
    | nil => rfl
    | cons y fr => exact key _ _
  | true => cases framesWith b l with
    | nil => rfl
    | cons y fr =>
      change avgFrom r κ w (‖star w ⬝ᵥ y κ‖ ^ 2) fr = _
      rw [← qf_rankOne]
      exact key _ _

/-- The solution of the normal equations has the least estimated error. -/
theorem wiener_best {r : ℝ} (h0 : 0 < r) (h1 : r ≤ 1) (hr : D.beta k = (r : ℂ))
    (hv : ∀ Rnn Ryy, D.valid m Rnn Ryy = true → ∀ κ, (Rnn κ).det ≠ 0 ∧ (Ryy κ).det ≠ 0)
    (hR : D.use1st = true ∨ ∀ κ, (D.R0 k m κ).PosSemidef) {l : List (UpEv (Fin D.nb) (Fin m) ℂ ℚ)}
    (hs : D.Started k l) (href : D.g.refSensor < m) {κ : Fin D.nb} {w : Fin m → ℂ}
    (hw : D.scm k true l κ *ᵥ w = (D.scm k true l κ - D.scm k false l κ) *ᵥ Pi.single ⟨D.g.refSensor, href⟩ 1)
    (v : Fin m → ℂ) :
    D.estErr k l κ w ≤ D.estErr k l κ v ∧ (D.estErr k l κ v = D.estErr k l κ w → v = w) := by
  have hp : ∀ b, (D.scm k b l κ).PosDef := by
    intro b
    unfold DanseCfg.scm
    unfold DanseCfg.Started at hs
    rw [hr] at hs ⊢
    exact started_posDef h0 h1 κ (fun Rnn Ryy h => hv Rnn Ryy h κ) (hR.imp_right fun h => h κ) l hs b
  have hm : (0 : ℝ) < m := by exact_mod_cast (by omega : 0 < m)
  have e : (fun c : Fin m => if c.val = D.g.refSensor then (1 : ℂ) else 0) = Pi.single ⟨D.g.refSensor, href⟩ 1 := by
    ext c
    simp [Pi.single_apply, Fin.ext_iff]
  have key : ∀ u, D.estErr k l κ u = m * (qf (D.scm k true l κ - D.scm k false l κ) (Pi.single ⟨D.g.refSensor, href⟩ 1 - u) +
      qf (D.scm k false l κ) u) := by
    intro u
    unfold DanseCfg.estErr
    simp only [e]
    rw [power_eq hr, power_eq hr, power_eq hr, qf_sub]
    ring
  have hsq := qf_square (hp true).1 (hp false).1 hw v
  have hq : 0 ≤ qf (D.scm k true l κ) (v - w) := (Complex.le_def.mp ((hp true).posSemidef.dotProduct_mulVec_nonneg (v - w))).1
  rw [key, key, hsq]
  constructor
  · exact mul_le_mul_of_nonneg_left (by linarith) hm.le
  · intro heq
    have hz : qf (D.scm k true l κ) (v - w) = 0 := by
      have := mul_left_cancel₀ hm.ne' heq
      linarith
    by_contra hne
    have := (Complex.lt_def.mp ((hp true).dotProduct_mulVec_pos (sub_ne_zero.mpr hne))).1
    unfold qf at hz
    rw [hz] at this
    simp at this

/-- With `use1stFrameAsBasis`, a filter that uses only the first channels has the error that it has on these channels. -/
theorem estErr_padded (hu : D.use1st = true) {M d : Nat} {l : List (UpEv (Fin D.nb) (Fin (M + d)) ℂ ℚ)}
    {l' : List (UpEv (Fin D.nb) (Fin M) ℂ ℚ)} (href : D.g.refSensor < M)
    (h : l' = l.map fun e => ⟨fun κ c => e.y κ (Fin.castAdd d c), e.vad, e.t, e.bypass⟩)
    (hne : ∀ b, framesWith b l ≠ []) (κ : Fin D.nb)
    (v : Fin M → ℂ) : D.estErr k l κ (padded v) = D.estErr k l' κ v := by
  have hdot : ∀ (u : Fin M → ℂ) (y : Fin (M + d) → ℂ), star (padded u : Fin (M + d) → ℂ) ⬝ᵥ y = star u ⬝ᵥ fun c => y (Fin.castAdd d c) := by
    intro u y
    simp [dotProduct, Fin.sum_univ_add, padded]
  have hf : ∀ b, framesWith b l' = (framesWith b l).map fun y κ c => y κ (Fin.castAdd d c) := by
    intro b
    subst h
    unfold framesWith
    rw [List.filter_map, List.map_map, List.map_map]
    rfl
  have havg : ∀ (b : ℝ) (u : Fin M → ℂ) (fr : List (Frame (Fin D.nb) (Fin (M + d)) ℂ)) (p : ℝ),
      avgFrom b κ (padded u : Fin (M + d) → ℂ) p fr = avgFrom b κ u p (fr.map fun y κ c => y κ (Fin.castAdd d c)) := by
    intro b u fr
    induction fr with
    | nil => intro p; rfl
    | cons y fr ih =>
      intro p
      change avgFrom b κ _ (b * p + (1 - b) * ‖star (padded u : Fin (M + d) → ℂ) ⬝ᵥ y κ‖ ^ 2) fr = _
      rw [ih, hdot]
      rfl
  have hpow : ∀ b (u : Fin M → ℂ), D.power k b l κ (padded u) = D.power k b l' κ u := by
    intro b u
    unfold DanseCfg.power
    rw [hf b, hu]
    cases hfr : framesWith b l with
    | nil => exact absurd hfr (hne b)
    | cons y fr =>
      simp only [List.map_cons]
      rw [havg, hdot]
  unfold DanseCfg.estErr
  have e : (fun c : Fin (M + d) => if c.val = D.g.refSensor then (1 : ℂ) else 0) - padded v =
      padded ((fun c : Fin M => if c.val = D.g.refSensor then (1 : ℂ) else 0) - v) := by
    ext c
    refine Fin.addCases (fun i => ?_) (fun j => ?_) c
    · simp [padded]
    · simp [padded]
      omega
  simp only [e, hpow]

/-- The error of the reference sensor itself is its noise. -/
theorem estErr_ref (k : Nat) (l : List (UpEv (Fin D.nb) (Fin m) ℂ ℚ)) (κ : Fin D.nb) :
    D.estErr k l κ (fun c => if c.val = D.g.refSensor then 1 else 0) =
      D.power k false l κ (fun c => if c.val = D.g.refSensor then 1 else 0) := by
  have hz : ∀ b (fr : List (Frame (Fin D.nb) (Fin m) ℂ)), avgFrom b κ (0 : Fin m → ℂ) 0 fr = 0 := by
    intro b fr
    induction fr with
    | nil => rfl
    | cons y fr ih =>
      unfold avgFrom at ih ⊢
      rw [List.foldl_cons]
      simpa using ih
  have hp : ∀ b, D.power k b l κ 0 = 0 := by
    intro b
    unfold DanseCfg.power
    cases D.use1st with
    | false => simp [hz]
    | true => cases framesWith b l <;> simp [hz]
  unfold DanseCfg.estErr
  simp only [sub_self, hp, zero_add]

end
end Danse
