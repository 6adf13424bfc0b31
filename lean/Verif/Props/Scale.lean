import Verif.Proofs.Scale3
import Verif.Props.Danse2

/-!
# Property C121: the level of the recording does not matter

`danseRun D y T evs` is the main loop on the recording `y` over the schedule `evs`; `scaledM a (y k)` is the
recording of node `k` times `a`; `D.LevelFree a` says that the update rule and the rank test do not change
when both matrices are multiplied by `a ^ 2` (Spec/Scale.lean).
-/

namespace Danse
section
variable {K : Type} [Field K] [StarRing K] [DecidableEq K] {D : DanseCfg K} {a : K}

/-- C121 (level): when the first frames are the basis of the covariance matrices, a run on the recording times
a real `a ≠ 0` ends normally when the run on the recording does; then all the filters of all the nodes are the
same, and all the outputs are those of the recording times `a`. -/
theorem C121_level (ha : star a = a) (h0 : a ≠ 0) (hf : D.LevelFree a) (hu : D.use1st = true)
    {y : Nat → List (List K)} {T : Nat} {evs : List (ℚ × Nat × EvType)} {s : DanseSt D}
    (h : danseRun D y T evs = .ok s) :
    ∃ s', danseRun D (fun k => scaledM a (y k)) T evs = .ok s' ∧
      s'.run.cfg.wInt = s.run.cfg.wInt ∧ s'.run.cfg.wExt = s.run.cfg.wExt ∧ s'.run.cfg.wLoc = s.run.cfg.wLoc ∧
      ∀ k, s'.run.st.d k = scaled a (s.run.st.d k) ∧ s'.run.st.dLoc k = scaled a (s.run.st.dLoc k) := by
  have := danseRun_level ha h0 hf (cov := D.cov0) (.inl hu) y T evs
  rw [h] at this
  change RelE _ _ (danseRun D (fun k => scaledM a (y k)) T evs) at this
  revert this
  cases danseRun D (fun k => scaledM a (y k)) T evs with
  | error e => exact fun h => h.elim
  | ok s' =>
    intro h1
    have h1 : s'.run = s.run.scaled a := h1
    exact ⟨s', rfl, by rw [h1]; rfl, by rw [h1]; rfl, by rw [h1]; rfl, fun k => ⟨by rw [h1]; rfl, by rw [h1]; rfl⟩⟩

/-- C121 (exceptions): and it ends with the same exception otherwise. -/
theorem C121_exception (ha : star a = a) (h0 : a ≠ 0) (hf : D.LevelFree a) (hu : D.use1st = true)
    {y : Nat → List (List K)} {T : Nat} {evs : List (ℚ × Nat × EvType)} {e : PyErr}
    (h : danseRun D y T evs = .error e) : danseRun D (fun k => scaledM a (y k)) T evs = .error e := by
  have := danseRun_level ha h0 hf (cov := D.cov0) (.inl hu) y T evs
  rw [h] at this
  change RelE _ _ (danseRun D (fun k => scaledM a (y k)) T evs) at this
  revert this
  cases danseRun D (fun k => scaledM a (y k)) T evs with
  | error e' => exact fun h => congrArg _ h.symm
  | ok s' => exact fun h => h.elim

/-- C121 (initial matrices): when the initial covariance matrices are the basis, the same holds if they are
adapted to the level, that is multiplied by `a ^ 2`. -/
theorem C121_adapted (ha : star a = a) (h0 : a ≠ 0) (hf : D.LevelFree a)
    {y : Nat → List (List K)} {T : Nat} {evs : List (ℚ × Nat × EvType)} {s : DanseSt D}
    (h : danseRun D y T evs = .ok s) :
    ∃ s', danseRun (D.withCov fun k κ i j => a ^ 2 * D.cov0 k κ i j) (fun k => scaledM a (y k)) T evs = .ok s' ∧
      s'.run.cfg.wInt = s.run.cfg.wInt ∧ s'.run.cfg.wExt = s.run.cfg.wExt ∧ s'.run.cfg.wLoc = s.run.cfg.wLoc ∧
      ∀ k, s'.run.st.d k = scaled a (s.run.st.d k) ∧ s'.run.st.dLoc k = scaled a (s.run.st.dLoc k) := by
  have := danseRun_level ha h0 hf (cov := fun k κ i j => a ^ 2 * D.cov0 k κ i j) (.inr fun _ _ _ _ => rfl) y T evs
  rw [h] at this
  revert this
  cases danseRun (D.withCov fun k κ i j => a ^ 2 * D.cov0 k κ i j) (fun k => scaledM a (y k)) T evs with
  | error e => exact fun h => h.elim
  | ok s' =>
    intro h1
    have h1 : s'.run = s.run.scaled a := h1
    exact ⟨s', rfl, by rw [h1]; rfl, by rw [h1]; rfl, by rw [h1]; rfl, fun k => ⟨by rw [h1]; rfl, by rw [h1]; rfl⟩⟩

/-- C121 (Wiener filter): the update without GEVD does not depend on the level. -/
theorem C121_rule (h0 : a ≠ 0) (m : Nat) (Ryy Rnn : Matrix (Fin m) (Fin m) K) (r : Nat) :
    mwfRule m (a ^ 2 • Ryy) (a ^ 2 • Rnn) r = mwfRule m Ryy Rnn r := by
  have h2 : a ^ 2 ≠ 0 := pow_ne_zero 2 h0
  unfold mwfRule
  split_ifs with hr
  · by_cases h : Ryy.det = 0
    · unfold updateW npInv
      rw [if_pos h, if_pos (by rw [Matrix.det_smul, h, mul_zero])]
      rfl
    · have h' : (a ^ 2 • Ryy).det ≠ 0 := by
        rw [Matrix.det_smul]; exact mul_ne_zero (pow_ne_zero _ h2) h
      rw [updateW_of_det h, updateW_of_det h']
      congr 1
      rw [← smul_sub, Matrix.smul_mulVec, Matrix.mulVec_smul, inv_smul_field h2 h, Matrix.smul_mulVec, smul_smul,
        mul_inv_cancel₀ h2, one_smul]
  · rfl
end

open Classical in
/-- C121 (GEVD): the GEVD-based update does not depend on the level, if the library scales the eigenvectors of
`(a²A, a²B)` by `1/a` (they are normalised to `Xᴴ B X = 1`) and gives the same eigenvalues. -/
theorem C121_rule_gevd {a : ℝ} (h0 : a ≠ 0) {lib : (m : Nat) → LinAlg m}
    (hl : ∀ m A B, (lib m).eigh ((a : ℂ) ^ 2 • A) ((a : ℂ) ^ 2 • B) =
      ((lib m).eigh A B).map fun p => (p.1, (a : ℂ)⁻¹ • p.2))
    (rank m : Nat) (Ryy Rnn : Matrix (Fin m) (Fin m) ℂ) (r : Nat) :
    gevdRule lib rank m ((a : ℂ) ^ 2 • Ryy) ((a : ℂ) ^ 2 • Rnn) r = gevdRule lib rank m Ryy Rnn r := by
  have hc : (a : ℂ) ≠ 0 := by exact_mod_cast h0
  unfold gevdRule
  split_ifs with hr
  · unfold updateWGevd
    rw [hl]
    cases (lib m).eigh Ryy Rnn with
    | error e => rfl
    | ok p =>
      obtain ⟨σ, X⟩ := p
      simp only [Except.map, bind, Except.bind]
      have e : (Matrix.of fun i r => ((a : ℂ)⁻¹ • X) i ((lib m).argsort σ (Fin.rev r))) =
          (a : ℂ)⁻¹ • Matrix.of fun i r => X i ((lib m).argsort σ (Fin.rev r)) := by ext; rfl
      rw [e]
      generalize (Matrix.of fun i r => X i ((lib m).argsort σ (Fin.rev r))) = Y
      have hs : star ((a : ℂ)⁻¹) = (a : ℂ)⁻¹ := by simp
      unfold npInv
      rw [Matrix.conjTranspose_smul, hs, Matrix.det_smul]
      by_cases hd : Y.conjTranspose.det = 0
      · rw [if_pos hd, if_pos (by rw [hd, mul_zero])]
      · rw [if_neg hd, if_neg (mul_ne_zero (pow_ne_zero _ (inv_ne_zero hc)) hd)]
        simp only
        split_ifs
        · rfl
        · congr 1
          funext i
          congr 1
          rw [inv_smul_field (inv_ne_zero hc) hd, inv_inv, Matrix.conjTranspose_smul, Matrix.smul_mul, Matrix.smul_mul,
            Matrix.mul_smul, smul_smul]
          have : (a : ℂ)⁻¹ * star (a : ℂ) = 1 := by
            rw [Complex.star_def, Complex.conj_ofReal, inv_mul_cancel₀ hc]
          rw [this, one_smul]
  · rfl

/-! ## Concrete runs -/

/-- The Wiener filter, written out for one channel. -/
noncomputable def scalarRule : (m : Nat) → Matrix (Fin m) (Fin m) ℚ → Matrix (Fin m) (Fin m) ℚ → Nat →
    Except PyErr (Fin m → ℚ)
  | 1, Ryy, Rnn, 0 => if Ryy 0 0 = 0 then .error .linAlgError else .ok fun _ => (Ryy 0 0)⁻¹ * (Ryy 0 0 - Rnn 0 0)
  | m, Ryy, Rnn, r => mwfRule m Ryy Rnn r

theorem scalarRule_eq : scalarRule = mwfRule := by
  funext m Ryy Rnn r
  unfold scalarRule
  split
  · rename_i Ryy Rnn
    unfold mwfRule
    rw [dif_pos Nat.one_pos]
    have hd : Ryy.det = Ryy 0 0 := Matrix.det_fin_one Ryy
    split_ifs with h
    · unfold updateW npInv
      rw [if_pos (by rw [hd]; exact h)]; rfl
    · rw [updateW_of_det (by rw [hd]; exact h)]
      congr 1
      funext i
      obtain rfl := Subsingleton.elim i 0
      have : Ryy⁻¹ 0 0 = (Ryy 0 0)⁻¹ := by
        rw [Matrix.inv_def, Matrix.adjugate_fin_one, hd]; simp
      simp [Matrix.mulVec, dotProduct, this]
  · rfl

/-- One node with one sensor, on its own. -/
def exLevelG : GivenCfg ℚ :=
  { N := 2, Ns := 1, ζ := -1, c := 1, h := [1, 1], f := [1 / 2, 1 / 2], nb := fun _ => [],
    fs := fun _ => 1, stamps := fun _ => [], bc := .few 1 false, upTDEvery := 1, noFusion := true,
    conv := false, refSensor := 0, wInt := fun _ _ => [[1, 1]], wExt := fun _ _ => [[1, 1]],
    wLoc := fun _ _ => [[1, 1]], rot := fun _ _ _ _ => 1 }

/-- Initial matrices 1, used or not; every second frame is active; Wiener filters. -/
noncomputable def exLevel (use1st : Bool) : DanseCfg ℚ :=
  { g := exLevelG, M := fun _ => 1, use1st := use1st, beta := fun _ => 1 / 2, startAfter := 3,
    bypassAll := false,
    valid := fun _ Rnn Ryy => decide (∀ κ, (Rnn κ).det ≠ 0 ∧ (Ryy κ).det ≠ 0),
    rule := scalarRule, cov0 := fun _ _ i j => if i = j then 1 else 0,
    vad := fun _ i => i % 2 == 0, bypass := fun _ _ => false, onlyRef := false, noRelax := false, seq := false,
    betaExt := fun _ => 1 / 2, alpha := 1 / 2, extEvery := 2, extTarget0 := fun _ => [[1, 1]],
    rot := fun _ _ _ _ => 1 }

/-- The rule and the test of the example do not depend on the level. -/
theorem exLevel_free (u : Bool) : (exLevel u).LevelFree 2 := by
  constructor
  · intro m Ryy Rnn r
    change scalarRule m _ _ r = scalarRule m _ _ r
    rw [scalarRule_eq]
    letI : StarRing ℚ := starRingOfComm
    exact C121_rule (by norm_num) m Ryy Rnn r
  · intro m Rnn Ryy
    change decide _ = decide _
    simp only [Matrix.det_smul]
    congr 1
    refine propext (forall_congr' fun κ => ?_)
    have : ((2 : ℚ) ^ 2) ^ Fintype.card (Fin m) ≠ 0 := by positivity
    simp

/-- Five updates on the signal `y`: the first bin of the filter after the fourth, and the output. -/
noncomputable def exLevelRun (u : Bool) (y : List ℚ) : Except PyErr (List ℚ × List ℚ) :=
  letI : StarRing ℚ := starRingOfComm
  (danseRun (exLevel u) (fun _ => [y]) 7 ((List.range 5).map fun i => ((i : ℚ) + 2, 0, .up))).map fun s =>
    ((s.run.cfg.wInt 0 4).flatten, s.run.st.d 0)

/-- The hypotheses of `C121_level` are met by a run in which the filters are updated: twice the recording gives
the same filters and twice the output. -/
example : letI : StarRing ℚ := starRingOfComm
    star (2 : ℚ) = 2 ∧ (exLevel true).use1st = true ∧
    exLevelRun true [4, 2, 2, 1, 5, 1, 3] =
      .ok ([-7 / 45, -11 / 5], [2, 2, 2, 37 / 15, -1183 / 555, 7 / 222, 0]) ∧
    exLevelRun true [8, 4, 4, 2, 10, 2, 6] =
      .ok ([-7 / 45, -11 / 5], [4, 4, 4, 74 / 15, -2366 / 555, 7 / 111, 0]) := by
  refine ⟨rfl, rfl, ?_, ?_⟩ <;> decide +kernel

/-- C121 (refuted for the default settings): with `use1stFrameAsBasis` off, which is the default, the filters do depend on
the level: twice the recording gives other filters and an output that is not twice the output. -/
theorem C121_refuted_default : (exLevel false).LevelFree 2 ∧ (exLevel false).rule = mwfRule ∧
    exLevelRun false [4, 2, 2, 1, 5, 1, 3] =
      .ok ([-34 / 55, -26 / 7], [2, 2, 2, 2531 / 770, -48008791 / 10879330, 2483 / 28258, 0]) ∧
    exLevelRun false [8, 4, 4, 2, 10, 2, 6] =
      .ok ([-136 / 217, -104 / 25], [4, 4, 4, 40361 / 5425, -11734918813 / 1208869025, 36863 / 222833, 0]) := by
  refine ⟨exLevel_free false, ?_, ?_, ?_⟩
  · letI : StarRing ℚ := starRingOfComm
    exact scalarRule_eq
  · decide +kernel
  · decide +kernel

end Danse
