import Verif.Proofs.Gain3
import Verif.Props.ScaleTI
import Verif.Props.Dead

/-!
# Property C125: microphone gains

`danseRun D y T evs` is the main loop of `danse` on the recording `y` over the schedule `evs`; `gained (γ k) (y k)`
is the recording of node `k` with sensor `c` multiplied by `γ k c` (Spec/Gain.lean); `D.g.refSensor` is the
reference sensor, the same index at all nodes.
-/

namespace Danse
section
variable {K : Type} [Field K] [StarRing K] [DecidableEq K] {D : DanseCfg K} {γ : Nat → Nat → K} {y : Nat → List (List K)}
  {T : Nat} {evs : List (ℚ × Nat × EvType)}

/-- C125 (gains): let the first frames be the basis of the covariance matrices and let the initial filters select the
reference sensors. Multiply every sensor of every node by a real gain other than zero. Then the run ends normally
when it did without gains, and

* the DANSE output and the local output of node `k` are those without gains times the gain of its own reference
  sensor, whatever the other gains, in its own array or at other nodes;
* the filters make up for the gains: the one for sensor `c` is multiplied by `γ k ref / γ k c`, the one for the
  signal of neighbour `q` by `γ k ref / γ q ref`. -/
theorem C125_gains (hγ : ∀ k, RealGains (γ k)) (hf : D.GainFree) (hu : D.use1st = true) (hsel : D.SelectsRef)
    (hy : ∀ ev ∈ evs, (y ev.2.1).length = D.M ev.2.1 ∧ D.g.refSensor < D.M ev.2.1)
    {s : DanseSt D} (h : danseRun D y T evs = .ok s) :
    ∃ s', danseRun D (fun k => gained (γ k) (y k)) T evs = .ok s' ∧
      (∀ k, s'.run.st.d k = (s.run.st.d k).map (γ k D.g.refSensor * ·) ∧
        s'.run.st.dLoc k = (s.run.st.dLoc k).map (γ k D.g.refSensor * ·)) ∧
      ∀ k i κ,
        (∀ c < D.M k,
          γ k c * coef (s'.run.cfg.wInt k i) κ c = γ k D.g.refSensor * coef (s.run.cfg.wInt k i) κ c ∧
          γ k c * coef (s'.run.cfg.wExt k i) κ c = γ k D.g.refSensor * coef (s.run.cfg.wExt k i) κ c ∧
          γ k c * coef (s'.run.cfg.wLoc k i) κ c = γ k D.g.refSensor * coef (s.run.cfg.wLoc k i) κ c) ∧
        (D.g.refSensor < D.M k → ∀ j q, (D.g.nb k)[j]? = some q →
          γ q D.g.refSensor * coef (s'.run.cfg.wInt k i) κ (D.M k + j) =
            γ k D.g.refSensor * coef (s.run.cfg.wInt k i) κ (D.M k + j)) := by
  have hH : (Mics.mk γ D.g.refSensor D.M D.g.nb).Real := fun k c => hγ k c
  have := danseRun_gain hH rfl rfl rfl hf hu hsel T hy
  rw [h] at this
  change RelE _ _ (danseRun D (fun k => gained (γ k) (y k)) T evs) at this
  revert this
  cases danseRun D (fun k => gained (γ k) (y k)) T evs with
  | error e => exact fun h => h.elim
  | ok s' =>
    intro h1
    have h1 : s'.run = s.run.gained (Mics.mk γ D.g.refSensor D.M D.g.nb) := h1
    refine ⟨s', rfl, fun k => ⟨by rw [h1]; rfl, by rw [h1]; rfl⟩, fun k i κ => ⟨fun c hc => ⟨?_, ?_, ?_⟩, fun hr j q hq => ?_⟩⟩
    · have e : s'.run.cfg.wInt k i = gained (Mics.fInt (Mics.mk γ D.g.refSensor D.M D.g.nb) k) (s.run.cfg.wInt k i) := by
        rw [h1]; rfl
      have e2 : (Mics.mk γ D.g.refSensor D.M D.g.nb).all k c = γ k c := if_pos (.inl hc)
      rw [e, coef_gained, ← mul_assoc, mul_comm (γ k c), ← e2, hH.mulInt]
      rfl
    · have e : s'.run.cfg.wExt k i = gained (Mics.fLoc (Mics.mk γ D.g.refSensor D.M D.g.nb) k) (s.run.cfg.wExt k i) := by
        rw [h1]; rfl
      have e2 := hH.mulLoc k c
      rw [e, coef_gained, ← mul_assoc, mul_comm (γ k c)]
      exact congrArg (· * _) e2
    · have e : s'.run.cfg.wLoc k i = gained (Mics.fLoc (Mics.mk γ D.g.refSensor D.M D.g.nb) k) (s.run.cfg.wLoc k i) := by
        rw [h1]; rfl
      have e2 := hH.mulLoc k c
      rw [e, coef_gained, ← mul_assoc, mul_comm (γ k c)]
      exact congrArg (· * _) e2
    · have e : s'.run.cfg.wInt k i = gained (Mics.fInt (Mics.mk γ D.g.refSensor D.M D.g.nb) k) (s.run.cfg.wInt k i) := by
        rw [h1]; rfl
      have e2 : (Mics.mk γ D.g.refSensor D.M D.g.nb).all k (D.M k + j) = γ q D.g.refSensor := by
        unfold Mics.all Mics.z
        rw [if_neg (by simp only; omega)]
        simp only [Nat.add_sub_cancel_left, List.getD_eq_getElem?_getD, List.getElem?_map, hq]
        rfl
      rw [e, coef_gained, ← mul_assoc, mul_comm (γ q _), ← e2, hH.mulInt]
      rfl

/-- C125 (outputs): so the outputs do not change at all if the reference sensors keep their levels. -/
theorem C125_same_output (hγ : ∀ k, RealGains (γ k)) (h1 : ∀ k, γ k D.g.refSensor = 1) (hf : D.GainFree)
    (hu : D.use1st = true) (hsel : D.SelectsRef)
    (hy : ∀ ev ∈ evs, (y ev.2.1).length = D.M ev.2.1 ∧ D.g.refSensor < D.M ev.2.1)
    {s : DanseSt D} (h : danseRun D y T evs = .ok s) :
    ∃ s', danseRun D (fun k => gained (γ k) (y k)) T evs = .ok s' ∧
      ∀ k, s'.run.st.d k = s.run.st.d k ∧ s'.run.st.dLoc k = s.run.st.dLoc k := by
  obtain ⟨s', hs, hd, -⟩ := C125_gains hγ hf hu hsel hy h
  refine ⟨s', hs, fun k => ?_⟩
  have := hd k
  simp only [h1, one_mul, List.map_id'] at this
  exact this

/-- C125 (exceptions): and the run ends with the same exception otherwise. -/
theorem C125_exception (hγ : ∀ k, RealGains (γ k)) (hf : D.GainFree) (hu : D.use1st = true) (hsel : D.SelectsRef)
    (hy : ∀ ev ∈ evs, (y ev.2.1).length = D.M ev.2.1 ∧ D.g.refSensor < D.M ev.2.1)
    {e : PyErr} (h : danseRun D y T evs = .error e) :
    danseRun D (fun k => gained (γ k) (y k)) T evs = .error e := by
  have := danseRun_gain (H := Mics.mk γ D.g.refSensor D.M D.g.nb) (fun k c => hγ k c) rfl rfl rfl hf hu hsel T hy
  rw [h] at this
  change RelE _ _ (danseRun D (fun k => gained (γ k) (y k)) T evs) at this
  revert this
  cases danseRun D (fun k => gained (γ k) (y k)) T evs with
  | error e' => exact fun h => congrArg _ h.symm
  | ok s' => exact fun h => h.elim

theorem gainedCov_eq {m : Nat} (g : Nat → K) (A : Matrix (Fin m) (Fin m) K) :
    gainedCov g A = Matrix.diagonal (fun c : Fin m => g c) * A * Matrix.diagonal (fun c : Fin m => g c) := by
  ext i j
  rw [Matrix.mul_diagonal, Matrix.diagonal_mul]
  simp only [gainedCov, Matrix.of_apply]
  ring

theorem det_gainedCov {m : Nat} (g : Nat → K) (A : Matrix (Fin m) (Fin m) K) :
    (gainedCov g A).det = (∏ c : Fin m, g c) ^ 2 * A.det := by
  rw [gainedCov_eq, Matrix.det_mul, Matrix.det_mul, Matrix.det_diagonal]
  ring

/-- C125 (rank test): a matrix of full rank is so with any gains. -/
theorem C125_rank {g : Nat → K} (hg : RealGains g) {m : Nat} (A : Matrix (Fin m) (Fin m) K) :
    (gainedCov g A).det ≠ 0 ↔ A.det ≠ 0 := by
  have : (∏ c : Fin m, g c) ^ 2 ≠ 0 := pow_ne_zero 2 (Finset.prod_ne_zero_iff.mpr fun c _ => (hg c).2)
  rw [det_gainedCov]
  simp [this]

/-- C125 (Wiener filter): the update without GEVD makes up for gains. -/
theorem C125_rule {g : Nat → K} (hg : RealGains g) {m : Nat} (Ryy Rnn : Matrix (Fin m) (Fin m) K) (r : Nat) :
    mwfRule m (gainedCov g Ryy) (gainedCov g Rnn) r = (mwfRule m Ryy Rnn r).map fun w (c : Fin m) => g r / g c * w c := by
  unfold mwfRule
  split_ifs with hr
  · by_cases h : Ryy.det = 0
    · have h' : (gainedCov g Ryy).det = 0 := by
        by_contra hc; exact (C125_rank hg Ryy).mp hc h
      unfold updateW npInv
      rw [if_pos h, if_pos h']
      rfl
    · have h' : (gainedCov g Ryy).det ≠ 0 := (C125_rank hg Ryy).mpr h
      rw [updateW_of_det h, updateW_of_det h']
      change Except.ok _ = Except.ok _
      congr 1
      -- the solution of the linear system with gains
      have hunit : IsUnit Ryy.det := Ne.isUnit h
      have hunit' : IsUnit (gainedCov g Ryy).det := Ne.isUnit h'
      set e : Fin m → K := Pi.single (⟨r, hr⟩ : Fin m) 1 with he
      set w := (Ryy⁻¹).mulVec ((Ryy - Rnn).mulVec e) with hw
      have key : (gainedCov g Ryy).mulVec (fun c : Fin m => g r / g c * w c) = (gainedCov g Ryy - gainedCov g Rnn).mulVec e := by
        have h1 : Ryy.mulVec w = (Ryy - Rnn).mulVec e := by
          rw [hw, Matrix.mulVec_mulVec, Matrix.mul_nonsing_inv _ hunit, Matrix.one_mulVec]
        funext i
        have h2 := congrFun h1 i
        have hcol : ∀ A : Matrix (Fin m) (Fin m) K, A.mulVec e i = A i ⟨r, hr⟩ := by
          intro A
          rw [he, Matrix.mulVec_single_one]
          rfl
        rw [hcol] at h2 ⊢
        simp only [Matrix.mulVec, dotProduct, gainedCov, Matrix.of_apply, Matrix.sub_apply] at h2 ⊢
        have : ∀ j : Fin m, g i * g j * Ryy i j * (g r / g j * w j) = g i * g r * (Ryy i j * w j) := by
          intro j
          have := (hg j).2
          field_simp
        rw [Finset.sum_congr rfl fun j _ => this j, ← Finset.mul_sum, h2]
        ring
      change (gainedCov g Ryy)⁻¹.mulVec ((gainedCov g Ryy - gainedCov g Rnn).mulVec e) = fun c : Fin m => g r / g c * w c
      rw [← key, Matrix.mulVec_mulVec, Matrix.nonsing_inv_mul _ hunit', Matrix.one_mulVec]
  · rfl

end

open Classical in
/-- C125 (GEVD): so does the GEVD-based update, if the library divides row `c` of the eigenvectors by the gain of channel `c`
(they are normalised to `Xᴴ B X = 1`) and gives the same eigenvalues. -/
theorem C125_rule_gevd {g : Nat → ℂ} (hg : RealGains g) {lib : (m : Nat) → LinAlg m}
    (hl : ∀ m A B, (lib m).eigh (gainedCov g A) (gainedCov g B) =
      ((lib m).eigh A B).map fun p => (p.1, Matrix.of fun (i : Fin m) j => (g i)⁻¹ * p.2 i j))
    (rank m : Nat) (Ryy Rnn : Matrix (Fin m) (Fin m) ℂ) (r : Nat) :
    gevdRule lib rank m (gainedCov g Ryy) (gainedCov g Rnn) r =
      (gevdRule lib rank m Ryy Rnn r).map fun w (c : Fin m) => g r / g c * w c := by
  unfold gevdRule
  split_ifs with hr
  · unfold updateWGevd
    rw [hl]
    cases (lib m).eigh Ryy Rnn with
    | error e => rfl
    | ok p =>
      obtain ⟨σ, X⟩ := p
      simp only [Except.map, bind, Except.bind]
      have e : (Matrix.of fun i r => (Matrix.of fun (i : Fin m) j => (g i)⁻¹ * X i j) i ((lib m).argsort σ (Fin.rev r))) =
          Matrix.diagonal (fun c : Fin m => (g c)⁻¹) * Matrix.of fun i r => X i ((lib m).argsort σ (Fin.rev r)) := by
        ext i j
        rw [Matrix.diagonal_mul]
        rfl
      rw [e]
      generalize (Matrix.of fun i r => X i ((lib m).argsort σ (Fin.rev r))) = Y
      have hs : (Matrix.diagonal fun c : Fin m => (g c)⁻¹).conjTranspose = Matrix.diagonal fun c : Fin m => (g c)⁻¹ := by
        rw [Matrix.diagonal_conjTranspose]
        congr 1
        funext c
        change star ((g c)⁻¹) = _
        rw [star_inv₀, (hg c).1]
      have hs' : (Matrix.diagonal fun c : Fin m => g c).conjTranspose = Matrix.diagonal fun c : Fin m => g c := by
        rw [Matrix.diagonal_conjTranspose]
        congr 1
        funext c
        exact (hg c).1
      have hdet : (Matrix.diagonal fun c : Fin m => (g c)⁻¹).det ≠ 0 := by
        rw [Matrix.det_diagonal]
        exact Finset.prod_ne_zero_iff.mpr fun c _ => inv_ne_zero (hg c).2
      have hinv : (Matrix.diagonal fun c : Fin m => (g c)⁻¹)⁻¹ = Matrix.diagonal fun c : Fin m => g c := by
        refine Matrix.inv_eq_right_inv ?_
        rw [Matrix.diagonal_mul_diagonal]
        convert Matrix.diagonal_one with c
        exact inv_mul_cancel₀ (hg c).2
      unfold npInv
      rw [Matrix.conjTranspose_mul, hs, Matrix.det_mul]
      by_cases hd : Y.conjTranspose.det = 0
      · rw [if_pos hd, if_pos (by rw [hd, zero_mul])]
      · rw [if_neg hd, if_neg (mul_ne_zero hd hdet)]
        simp only
        split_ifs
        · rfl
        · change Except.ok _ = Except.ok _
          congr 1
          funext i
          rw [Matrix.mul_inv_rev, hinv, Matrix.conjTranspose_mul, hs', Matrix.mul_assoc, Matrix.mul_assoc, ← Matrix.mul_assoc _ _ (Matrix.diagonal fun c : Fin m => g c),
            ← Matrix.mul_assoc Y, Matrix.diagonal_mul, ← Matrix.mul_assoc, Matrix.mul_diagonal]
          simp only
          rw [div_eq_mul_inv]
          ring
  · rfl

/-- Generalised eigenvectors of two diagonal matrices, normalised to `Xᴴ B X = 1`. -/
noncomputable def diagEigh (m : Nat) : LinAlg m where
  eigh A B :=
    open Classical in
    if ∀ i j, i ≠ j → A i j = 0 ∧ B i j = 0 then
      .ok (fun i => (A i i).re / (B i i).re, Matrix.of fun i j => if i = j then ((1 / √(B i i).re : ℝ) : ℂ) else 0)
    else .error .linAlgError
  argsort _ := id

/-- It meets the hypothesis of `C125_rule_gevd` for positive gains. -/
example {γ : Nat → ℝ} (hγ : ∀ c, 0 < γ c) : RealGains (fun c => (γ c : ℂ)) ∧
    ∀ m (A B : Matrix (Fin m) (Fin m) ℂ), (diagEigh m).eigh (gainedCov (fun c => (γ c : ℂ)) A) (gainedCov (fun c => (γ c : ℂ)) B) =
      ((diagEigh m).eigh A B).map fun p => (p.1, Matrix.of fun (i : Fin m) j => ((γ i : ℂ))⁻¹ * p.2 i j) := by
  refine ⟨fun c => ⟨Complex.conj_ofReal _, Complex.ofReal_ne_zero.mpr (hγ c).ne'⟩, fun m A B => ?_⟩
  have hz : ∀ (A : Matrix (Fin m) (Fin m) ℂ) i j, gainedCov (fun c => (γ c : ℂ)) A i j = 0 ↔ A i j = 0 := by
    intro A i j
    simp [gainedCov, (hγ i).ne', (hγ j).ne']
  unfold diagEigh
  simp only
  have hc : (∀ i j, i ≠ j → gainedCov (fun c => (γ c : ℂ)) A i j = 0 ∧ gainedCov (fun c => (γ c : ℂ)) B i j = 0) ↔
      ∀ i j, i ≠ j → A i j = 0 ∧ B i j = 0 := by simp only [hz]
  by_cases h : ∀ i j, i ≠ j → A i j = 0 ∧ B i j = 0
  · rw [if_pos h, if_pos (hc.mpr h)]
    change Except.ok _ = Except.ok _
    congr 1
    have hre : ∀ (A : Matrix (Fin m) (Fin m) ℂ) i, (gainedCov (fun c => (γ c : ℂ)) A i i).re = γ i * γ i * (A i i).re := by
      intro A i
      simp [gainedCov]
    refine Prod.ext ?_ ?_
    · funext i
      simp only [hre]
      exact mul_div_mul_left _ _ (mul_ne_zero (hγ i).ne' (hγ i).ne')
    · ext i j
      simp only [Matrix.of_apply, hre]
      split_ifs
      · rw [Real.sqrt_mul (mul_self_nonneg _), Real.sqrt_mul_self (hγ i).le]
        push_cast
        rw [one_div, one_div, mul_inv]
      · simp
  · rw [if_neg h, if_neg fun h' => h (hc.mp h')]
    rfl

/-! ## Concrete runs -/

/-- One node with two sensors. -/
def exGainG : GivenCfg ℚ :=
  { exLevelG with noFusion := false, wInt := fun _ _ => [[1, 1], [0, 0]], wExt := fun _ _ => [[1, 1], [0, 0]],
                  wLoc := fun _ _ => [[1, 1], [0, 0]] }

/-- Initial matrices 1, used or not; every second frame is active; Wiener filters; the initial filters select sensor 0. -/
noncomputable def exGain (use1st : Bool) : DanseCfg ℚ :=
  { exLevel use1st with g := exGainG, M := fun _ => 2, rule := pairRule, extTarget0 := fun _ => [[1, 1], [0, 0]],
                        valid := fun _ Rnn Ryy => decide (∀ κ, (Rnn κ).det ≠ 0 ∧ (Ryy κ).det ≠ 0) }

/-- The rule and the test of the example make up for gains. -/
theorem exGain_free (u : Bool) : letI : StarRing ℚ := starRingOfComm; (exGain u).GainFree := by
  letI : StarRing ℚ := starRingOfComm
  intro g hg
  constructor
  · intro m Ryy Rnn r
    change pairRule m _ _ r = (pairRule m _ _ r).map _
    rw [pairRule_eq]
    exact C125_rule hg Ryy Rnn r
  · intro m Rnn Ryy
    change decide _ = decide _
    congr 1
    exact propext (forall_congr' fun κ => and_congr (C125_rank hg _) (C125_rank hg _))

/-- Eight updates with the signals `a` and `b` of the two sensors: the filter after the seventh, and the output. -/
noncomputable def exGainRun (u : Bool) (a b : List ℚ) : Except PyErr (List (List ℚ) × List ℚ) :=
  letI : StarRing ℚ := starRingOfComm
  (danseRun (exGain u) (fun _ => [a, b]) 10 ((List.range 8).map fun i => ((i : ℚ) + 2, 0, .up))).map fun s =>
    (s.run.cfg.wInt 0 7, s.run.st.d 0)

theorem selects_first (v : List ℚ) : Selects 0 [v, [0, 0]] := by
  intro c hc x hx
  match c with
  | 0 => exact absurd rfl hc
  | 1 => simpa using hx
  | c + 2 => simp at hx

/-- The hypotheses of `C125_gains` and `C125_same_output` are met by a run in which the filters are updated: three times the
signal of the second sensor gives a third of its filter, and the same output. -/
example : letI : StarRing ℚ := starRingOfComm
    RealGains (fun c => if c = 1 then (3 : ℚ) else 1) ∧ (exGain true).GainFree ∧ (exGain true).use1st = true ∧
    (exGain true).SelectsRef ∧
    exGainRun true [4, 2, 2, 1, 5, 1, 3, 2, 4, 1] [1, 0, 2, 3, -1, 2, 4, 2, 5, 3] =
      .ok ([[5827 / 13915, -79 / 417], [-3808 / 13915, -64 / 1251]],
        [2, 2, 2, 1, 5, -22165 / 17091, -111501229393 / 33057155835, 3861962 / 17407665, -3506604 / 1934185, 0]) ∧
    exGainRun true [4, 2, 2, 1, 5, 1, 3, 2, 4, 1] [3, 0, 6, 9, -3, 6, 12, 6, 15, 9] =
      .ok ([[5827 / 13915, -79 / 417], [-3808 / 41745, -64 / 3753]],
        [2, 2, 2, 1, 5, -22165 / 17091, -111501229393 / 33057155835, 3861962 / 17407665, -3506604 / 1934185, 0]) := by
  refine ⟨fun c => ⟨rfl, ?_⟩, exGain_free true, rfl, ⟨fun _ _ => selects_first _, fun _ _ => selects_first _,
    fun _ _ => selects_first _, fun _ => selects_first _⟩, ?_, ?_⟩
  · dsimp only
    split_ifs <;> norm_num
  · decide +kernel
  · decide +kernel

/-- Two nodes that hear each other: three times the signal of node 1 gives a third of the filter that node 0 applies to what
node 1 sends, the same output at node 0, and an output at node 1 that is not the same. -/
noncomputable def exGainPair (y0 y1 : List ℚ) : Except PyErr (List (List ℚ) × List ℚ × List ℚ) :=
  letI : StarRing ℚ := starRingOfComm
  (danseRun (exDead true) (fun k => if k = 0 then [y0] else [y1]) 10
    ((List.range 7).flatMap fun (j : Nat) => [((j : ℚ) + 2, 0, .bc), ((j : ℚ) + 2, 1, .bc), ((j : ℚ) + 2, 0, .up),
      ((j : ℚ) + 2, 1, .up)])).map fun s => (s.run.cfg.wInt 0 7, s.run.st.d 0, s.run.st.d 1)

example : exGainPair [4, 2, 2, 1, 5, 1, 3, 2, 4, 1] [1, 0, 2, 3, -1, 2, 4, 2, 5, 3] =
      .ok ([[161 / 369, -131 / 573], [-344 / 1107, -80 / 573]],
        [2, 2, 2, 1, 5, 527 / 585, -26691193 / 4581135, 1615 / 7831, 0, 0],
        [1 / 2, 0, 2, 3, -1, 1048384 / 16929, -12201156794428 / 181566656865, 6489167 / 10725185, 0, 0]) ∧
    exGainPair [4, 2, 2, 1, 5, 1, 3, 2, 4, 1] [3, 0, 6, 9, -3, 6, 12, 6, 15, 9] =
      .ok ([[161 / 369, -131 / 573], [-344 / 3321, -80 / 1719]],
        [2, 2, 2, 1, 5, 527 / 585, -26691193 / 4581135, 1615 / 7831, 0, 0],
        [3 / 2, 0, 6, 9, -3, 1048384 / 5643, -12201156794428 / 60522218955, 19467501 / 10725185, 0, 0]) := by
  refine ⟨?_, ?_⟩ <;> decide +kernel

/-- C125 (refuted for the default settings): with `use1stFrameAsBasis` off, which is the default, the gain of a microphone
other than the reference changes the output. -/
theorem C125_refuted_default : (letI : StarRing ℚ := starRingOfComm; (exGain false).GainFree ∧ (exGain false).SelectsRef) ∧
    exGainRun false [4, 2, 2, 1, 5, 1, 3, 2, 4, 1] [1, 0, 2, 3, -1, 2, 4, 2, 5, 3] =
      .ok ([[309 / 800, -365 / 1204], [-5 / 24, -40 / 301]],
        [2, 2, 2, 1, 5, -70501 / 210600, -3763885631 / 1014249600, 103207 / 206400, -5440237 / 2889600, 0]) ∧
    exGainRun false [4, 2, 2, 1, 5, 1, 3, 2, 4, 1] [3, 0, 6, 9, -3, 6, 12, 6, 15, 9] =
      .ok ([[41347 / 106400, -3205 / 10516], [-75 / 1064, -120 / 2629]],
        [2, 2, 2, 1, 5, -36127 / 603000, -14271440511299 / 3373490736000, 291718981 / 559451200,
          -2152981153 / 1118902400, 0]) := by
  refine ⟨⟨exGain_free false, ⟨fun _ _ => selects_first _, fun _ _ => selects_first _,
    fun _ _ => selects_first _, fun _ => selects_first _⟩⟩, ?_, ?_⟩ <;> decide +kernel

end Danse
