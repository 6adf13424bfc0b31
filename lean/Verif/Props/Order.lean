import Verif.Proofs.Order3
import Verif.Props.Gain
import Mathlib.Data.Fin.Tuple.Sort

/-!
# Property C143: the order of the sensors

`danseRun D y T evs` is the main loop of `danse` on the recording `y` over the schedule `evs`; `reordered (σ k) (y k)` is
the recording of node `k` with the sensors in another order: sensor `c` is sensor `σ k c` of `y` (Spec/Order.lean).
-/

namespace Danse
section
variable {K : Type} [Field K] [StarRing K] [DecidableEq K] {D : DanseCfg K} {σ : Nat → Equiv.Perm Nat} {y : Nat → List (List K)}
  {T : Nat} {evs : List (ℚ × Nat × EvType)}

/-- C143 (order): put the sensors of every node in another order, the reference sensors in their places. Let the initial
covariance matrices not depend on the order, or let the first frames be their basis; let the initial filters select the
reference sensors. Then the run ends normally when it did before, the outputs are the same, what the nodes send and
receive is the same, and the filters are the same ones in the other order. -/
theorem C143_order (hs : SensorOrder D.M D.g.refSensor σ) (hf : D.OrderFree) (hu : D.use1st = true ∨ D.EvenStart σ)
    (hrot : D.LocalUnrotated) (hsel : D.StartsAtRef)
    (hy : ∀ ev ∈ evs, (y ev.2.1).length = D.M ev.2.1 ∧ D.g.refSensor < D.M ev.2.1)
    {s : DanseSt D} (h : danseRun D y T evs = .ok s) :
    ∃ s', danseRun D (fun k => reordered (σ k) (y k)) T evs = .ok s' ∧
      s'.run.st.d = s.run.st.d ∧ s'.run.st.dLoc = s.run.st.dLoc ∧
      s'.run.st.net = s.run.st.net ∧ s'.run.st.zLocal = s.run.st.zLocal ∧
      ∀ k i, s'.run.cfg.wInt k i = reordered (σ k) (s.run.cfg.wInt k i) ∧
        s'.run.cfg.wExt k i = reordered (σ k) (s.run.cfg.wExt k i) ∧
        s'.run.cfg.wLoc k i = reordered (σ k) (s.run.cfg.wLoc k i) := by
  have := danseRun_ord hs hf hu hrot hsel T hy
  rw [h] at this
  revert this
  cases danseRun D (fun k => reordered (σ k) (y k)) T evs with
  | error e => exact fun h => h.elim
  | ok s' =>
    intro h1
    have h1 : s'.run = s.run.reord σ := h1
    refine ⟨s', rfl, ?_, ?_, ?_, ?_, fun k i => ⟨?_, ?_, ?_⟩⟩ <;> rw [h1] <;> rfl

/-- C143 (exceptions): and the run ends with the same exception otherwise. -/
theorem C143_exception (hs : SensorOrder D.M D.g.refSensor σ) (hf : D.OrderFree) (hu : D.use1st = true ∨ D.EvenStart σ)
    (hrot : D.LocalUnrotated) (hsel : D.StartsAtRef)
    (hy : ∀ ev ∈ evs, (y ev.2.1).length = D.M ev.2.1 ∧ D.g.refSensor < D.M ev.2.1)
    {e : PyErr} (h : danseRun D y T evs = .error e) :
    danseRun D (fun k => reordered (σ k) (y k)) T evs = .error e := by
  have := danseRun_ord hs hf hu hrot hsel T hy
  rw [h] at this
  revert this
  cases danseRun D (fun k => reordered (σ k) (y k)) T evs with
  | error e' => exact fun h => congrArg _ h.symm
  | ok s' => exact fun h => h.elim

/-- C143 (initial matrices): multiples of the identity (`covMatInitType = 'eye'`) do not depend on the order. -/
theorem C143_eye {a : K} (h : ∀ k κ i j, D.cov0 k κ i j = if i = j then a else 0) : D.EvenStart σ := by
  intro k κ i j
  rw [h, h]
  simp only [(σ k).injective.eq_iff]

/-- C143 (rank test): a matrix of full rank is so in any order. -/
theorem C143_rank {m : Nat} (π : Equiv.Perm (Fin m)) (A : Matrix (Fin m) (Fin m) K) :
    (A.submatrix π π).det ≠ 0 ↔ A.det ≠ 0 := by
  rw [Matrix.det_submatrix_equiv_self]

/-- C143 (Wiener filter): the update without GEVD does not depend on the order. -/
theorem C143_rule {m : Nat} (π : Equiv.Perm (Fin m)) (r : Fin m) (hr : π r = r) (Ryy Rnn : Matrix (Fin m) (Fin m) K) :
    mwfRule m (Ryy.submatrix π π) (Rnn.submatrix π π) r = (mwfRule m Ryy Rnn r).map fun w => w ∘ π := by
  unfold mwfRule
  rw [dif_pos r.2, dif_pos r.2]
  by_cases h : Ryy.det = 0
  · unfold updateW npInv
    rw [if_pos h, if_pos (by rw [Matrix.det_submatrix_equiv_self]; exact h)]
    rfl
  · rw [updateW_of_det h, updateW_of_det (by rw [Matrix.det_submatrix_equiv_self]; exact h)]
    change Except.ok _ = Except.ok _
    congr 1
    have e : (Ryy.submatrix π π - Rnn.submatrix π π).mulVec (Pi.single (⟨r, r.2⟩ : Fin m) (1 : K)) =
        ((Ryy - Rnn).mulVec (Pi.single (⟨r, r.2⟩ : Fin m) 1)) ∘ π := by
      funext i
      rw [Matrix.mulVec_single_one, Function.comp, Matrix.mulVec_single_one]
      change Ryy (π i) (π r) - Rnn (π i) (π r) = Ryy (π i) r - Rnn (π i) r
      rw [hr]
    rw [e, Matrix.inv_submatrix_equiv]
    funext i
    rw [Matrix.submatrix_mulVec_equiv]
    simp only [Function.comp_def, Equiv.apply_symm_apply]

end

open Classical in
/-- C143 (GEVD): nor does the GEVD-based update, if the library gives the same eigenvalues, and the eigenvectors with their entries in
the other order. -/
theorem C143_rule_gevd {lib : (m : Nat) → LinAlg m} {m : Nat} (π : Equiv.Perm (Fin m))
    {Ryy Rnn : Matrix (Fin m) (Fin m) ℂ} (hl : (lib m).eigh (Ryy.submatrix π π) (Rnn.submatrix π π) =
      ((lib m).eigh Ryy Rnn).map fun p => (p.1, p.2.submatrix π id))
    (rank : Nat) (r : Fin m) (hr : π r = r) :
    gevdRule lib rank m (Ryy.submatrix π π) (Rnn.submatrix π π) r =
      (gevdRule lib rank m Ryy Rnn r).map fun w => w ∘ π := by
  unfold gevdRule
  rw [dif_pos r.2, dif_pos r.2]
  unfold updateWGevd
  rw [hl]
  cases (lib m).eigh Ryy Rnn with
  | error e => rfl
  | ok p =>
    obtain ⟨s0, X⟩ := p
    simp only [Except.map, bind, Except.bind]
    have e : (Matrix.of fun i r => (X.submatrix π id) i ((lib m).argsort s0 (Fin.rev r))) =
        (Matrix.of fun i r => X i ((lib m).argsort s0 (Fin.rev r))).submatrix π id := rfl
    rw [e]
    generalize (Matrix.of fun i r => X i ((lib m).argsort s0 (Fin.rev r))) = Y
    unfold npInv
    have e2 : (Y.submatrix π id).conjTranspose = Y.conjTranspose.submatrix id π := rfl
    have hdet : (Y.conjTranspose.submatrix id π).det = (Equiv.Perm.sign π : ℂ) * Y.conjTranspose.det := by
      rw [Matrix.det_permute']
    have hs : (Equiv.Perm.sign π : ℂ) ≠ 0 := by
      rcases Int.units_eq_one_or (Equiv.Perm.sign π) with h | h <;> rw [h] <;> simp
    rw [e2, hdet]
    by_cases hd : Y.conjTranspose.det = 0
    · rw [if_pos hd, if_pos (by rw [hd, mul_zero])]
    · rw [if_neg hd, if_neg (mul_ne_zero hs hd)]
      simp only
      split_ifs
      · rfl
      · change Except.ok _ = Except.ok _
        congr 1
        have hinv : (Y.conjTranspose.submatrix id π)⁻¹ = (Y.conjTranspose⁻¹).submatrix π id := by
          have := Matrix.inv_submatrix_equiv (Y.conjTranspose) (Equiv.refl (Fin m)) π
          exact this
        rw [hinv]
        funext i
        simp only [Function.comp]
        have : ∀ (A B C : Matrix (Fin m) (Fin m) ℂ), (A.submatrix π id * B * (C.submatrix π id).conjTranspose) i ⟨r, r.2⟩ =
            (A * B * C.conjTranspose) (π i) ⟨r, r.2⟩ := by
          intro A B C
          have h1 : A.submatrix π id * B * (C.submatrix π id).conjTranspose = (A * B * C.conjTranspose).submatrix π π := by
            ext i j
            simp [Matrix.mul_apply]
          rw [h1]
          change (A * B * C.conjTranspose) (π i) (π r) = _
          rw [hr]
        exact this _ _ _

/-- Eigenvalues (in increasing order, as `scipy.linalg.eigh` gives them) and eigenvectors of a diagonal matrix; `B` is taken to be 1. -/
noncomputable def sortedEigh (m : Nat) : LinAlg m where
  eigh A _ := .ok (fun j => (A (Tuple.sort (fun i => (A i i).re) j) (Tuple.sort (fun i => (A i i).re) j)).re,
    Matrix.of fun i j => if i = Tuple.sort (fun i => (A i i).re) j then 1 else 0)
  argsort _ := id

/-- It meets the hypothesis of `C143_rule_gevd` for every permutation when no two eigenvalues are equal. -/
example {m : Nat} (π : Equiv.Perm (Fin m)) {a : Fin m → ℝ} (ha : Function.Injective a) :
    (sortedEigh m).eigh ((Matrix.diagonal fun i => (a i : ℂ)).submatrix π π) ((1 : Matrix (Fin m) (Fin m) ℂ).submatrix π π) =
      ((sortedEigh m).eigh (Matrix.diagonal fun i => (a i : ℂ)) 1).map fun p => (p.1, p.2.submatrix π id) := by
  have h1 : (fun i => ((Matrix.diagonal fun i => (a i : ℂ)).submatrix π π i i).re) = a ∘ π := by
    funext i; simp
  have h2 : (fun i => ((Matrix.diagonal fun i => (a i : ℂ)) i i).re) = a := by funext i; simp
  have h3 : ∀ j, π (Tuple.sort (a ∘ π) j) = Tuple.sort a j := fun j =>
    ha (congrFun (Tuple.comp_perm_comp_sort_eq_comp_sort (f := a) (σ := π)) j)
  unfold sortedEigh
  simp only [Except.map, h1, h2, Except.ok.injEq, Prod.mk.injEq]
  constructor
  · funext j
    simp [h3]
  · ext i j
    simp only [Matrix.of_apply, Matrix.submatrix_apply, id, ← h3, π.injective.eq_iff]

/-! ## Concrete runs -/

/-- The Wiener filter, written out for three channels. -/
noncomputable def tripleRule : (m : Nat) → Matrix (Fin m) (Fin m) ℚ → Matrix (Fin m) (Fin m) ℚ → Nat →
    Except PyErr (Fin m → ℚ)
  | 3, R, S, 0 =>
    let a := R 1 1 * R 2 2 - R 1 2 * R 2 1
    let b := R 0 2 * R 2 1 - R 0 1 * R 2 2
    let c := R 0 1 * R 1 2 - R 0 2 * R 1 1
    let d := R 0 0 * a + R 1 0 * b + R 2 0 * c
    let p := R 0 0 - S 0 0
    let q := R 1 0 - S 1 0
    let r := R 2 0 - S 2 0
    if d = 0 then .error .linAlgError
    else .ok ![(a * p + b * q + c * r) / d,
      ((R 1 2 * R 2 0 - R 1 0 * R 2 2) * p + (R 0 0 * R 2 2 - R 0 2 * R 2 0) * q + (R 0 2 * R 1 0 - R 0 0 * R 1 2) * r) / d,
      ((R 1 0 * R 2 1 - R 1 1 * R 2 0) * p + (R 0 1 * R 2 0 - R 0 0 * R 2 1) * q + (R 0 0 * R 1 1 - R 0 1 * R 1 0) * r) / d]
  | m, R, S, r => mwfRule m R S r

theorem tripleRule_eq : tripleRule = mwfRule := by
  funext m R S r
  unfold tripleRule
  split
  · rename_i R S
    unfold mwfRule
    rw [dif_pos (by omega)]
    have hd : R.det = R 0 0 * (R 1 1 * R 2 2 - R 1 2 * R 2 1) + R 1 0 * (R 0 2 * R 2 1 - R 0 1 * R 2 2) +
        R 2 0 * (R 0 1 * R 1 2 - R 0 2 * R 1 1) := by
      rw [Matrix.det_fin_three]; ring
    simp only
    split_ifs with h
    · unfold updateW npInv
      rw [if_pos (by rw [hd]; exact h)]; rfl
    · rw [updateW_of_det (by rw [hd]; exact h)]
      congr 1
      funext i
      rw [Matrix.inv_def, Matrix.adjugate_fin_three, hd, Ring.inverse_eq_inv']
      have hcol : (R - S).mulVec (Pi.single (⟨0, by omega⟩ : Fin 3) (1 : ℚ)) = fun i => R i 0 - S i 0 := by
        rw [Matrix.mulVec_single_one]; rfl
      rw [hcol]
      generalize R 0 0 * (R 1 1 * R 2 2 - R 1 2 * R 2 1) + R 1 0 * (R 0 2 * R 2 1 - R 0 1 * R 2 2) +
        R 2 0 * (R 0 1 * R 1 2 - R 0 2 * R 1 1) = d
      fin_cases i <;> simp [Matrix.mulVec, dotProduct, Fin.sum_univ_three] <;> ring
  · rfl

/-- One node with three sensors. -/
def exOrderG : GivenCfg ℚ :=
  { exLevelG with noFusion := false, wInt := fun _ _ => selector 3 0 2, wExt := fun _ _ => selector 3 0 2,
                  wLoc := fun _ _ => selector 3 0 2 }

/-- Initial matrices with diagonal `1, a, b`, which are not replaced by the first frames; every second frame is active; Wiener filters;
the initial filters select sensor 0. -/
noncomputable def exOrder (a b : ℚ) : DanseCfg ℚ :=
  { exLevel false with g := exOrderG, M := fun _ => 3, rule := tripleRule, extTarget0 := fun _ => selector 3 0 2,
                       cov0 := fun _ _ i j => if i = j then if i = 1 then a else if i = 2 then b else 1 else 0
                       valid := fun _ _ _ => true }

/-- Ten updates with the signals of three sensors: the filter after the tenth, and the output. -/
noncomputable def exOrderRun (a b : ℚ) (y : List (List ℚ)) : Except PyErr (List (List ℚ) × List ℚ) :=
  letI : StarRing ℚ := starRingOfComm
  (danseRun (exOrder a b) (fun _ => y) 12 ((List.range 10).map fun i => ((i : ℚ) + 2, 0, .up))).map fun s =>
    (s.run.cfg.wInt 0 10, s.run.st.d 0)

/-- Sensors 1 and 2 are exchanged. -/
theorem exOrder_order : SensorOrder (exOrder 1 1).M (exOrder 1 1).g.refSensor (fun _ => Equiv.swap 1 2) := by
  refine ⟨fun k => rfl, fun k c hc => ?_⟩
  have hc : 3 ≤ c := hc
  exact Equiv.swap_apply_of_ne_of_ne (by omega) (by omega)

theorem exOrder_free (a b : ℚ) : letI : StarRing ℚ := starRingOfComm; (exOrder a b).OrderFree := by
  letI : StarRing ℚ := starRingOfComm
  intro m π
  refine ⟨fun r hr Ryy Rnn => ?_, fun _ _ => rfl⟩
  change tripleRule m _ _ r = (tripleRule m _ _ r).map _
  rw [tripleRule_eq]
  exact C143_rule π r hr Ryy Rnn

def exOrderA : List ℚ := [4, 2, 2, 1, 5, 1, 3, 2, 4, 1, 2, 3]
def exOrderB : List ℚ := [1, 0, 2, 3, -1, 2, 4, 2, 5, 3, 1, 2]
def exOrderC : List ℚ := [2, 1, 0, 1, 1, -2, 3, 1, 0, 2, 3, -1]

/-- The hypotheses of `C143_order` are met by a run in which the filters are updated (initial matrices 1): the same output, and
the filters of sensors 1 and 2 exchanged. -/
example : letI : StarRing ℚ := starRingOfComm
    SensorOrder (exOrder 1 1).M (exOrder 1 1).g.refSensor (fun _ => Equiv.swap 1 2) ∧ (exOrder 1 1).OrderFree ∧
    (exOrder 1 1).EvenStart (fun _ => Equiv.swap 1 2) ∧ (exOrder 1 1).LocalUnrotated ∧ (exOrder 1 1).StartsAtRef ∧
    reordered (Equiv.swap 1 2) [exOrderA, exOrderB, exOrderC] = [exOrderA, exOrderC, exOrderB] ∧
    exOrderRun 1 1 [exOrderA, exOrderB, exOrderC] =
      .ok ([[2450514 / 12246851, 1416634 / 2893955], [8524884 / 12246851, 165368 / 2893955],
          [-22985708 / 12246851, -1103504 / 2893955]],
        [2, 2, 2, 1, 5, 1, 3, 13820393833 / 10338109985, -508136312259806452027840 / 43968191446693941871731,
          -151746550592949 / 70883671371410, -53214021650229 / 35441835685705, 0]) ∧
    exOrderRun 1 1 [exOrderA, exOrderC, exOrderB] =
      .ok ([[2450514 / 12246851, 1416634 / 2893955], [-22985708 / 12246851, -1103504 / 2893955],
          [8524884 / 12246851, 165368 / 2893955]],
        [2, 2, 2, 1, 5, 1, 3, 13820393833 / 10338109985, -508136312259806452027840 / 43968191446693941871731,
          -151746550592949 / 70883671371410, -53214021650229 / 35441835685705, 0]) := by
  refine ⟨exOrder_order, exOrder_free 1 1, C143_eye (a := 1) fun k κ i j => ?_, fun _ _ _ _ _ => rfl,
    ⟨fun _ _ => rfl, fun _ _ => rfl, fun _ _ => rfl, fun _ => rfl⟩, ?_, ?_, ?_⟩
  · change (if i = j then if i = 1 then (1 : ℚ) else if i = 2 then 1 else 1 else 0) = _
    simp only [ite_self]
  · rfl
  · decide +kernel
  · decide +kernel

/-- C143 (refuted for the default settings): with initial matrices that distinguish the sensors (`'fully_random'`, the default;
here a diagonal `1, 2, 3`) and `use1stFrameAsBasis` off (the default), the order of the sensors changes the output. -/
theorem C143_refuted_default : (letI : StarRing ℚ := starRingOfComm; (exOrder 2 3).OrderFree ∧ (exOrder 2 3).LocalUnrotated ∧
      (exOrder 2 3).StartsAtRef) ∧
    exOrderRun 2 3 [exOrderA, exOrderB, exOrderC] =
      .ok ([[2758026 / 13741319, 1543906 / 3149807], [8682828 / 13741319, 203384 / 3149807],
          [-23219984 / 13741319, -1140008 / 3149807]],
        [2, 2, 2, 1, 5, 1, 3, 43601251090 / 61744068387, -23179322162730807378833993 / 2672437811326852455536571,
          -166657994207895 / 86565005550866, -57568274960310 / 43282502775433, 0]) ∧
    exOrderRun 2 3 [exOrderA, exOrderC, exOrderB] =
      .ok ([[2825706 / 13297439, 221326 / 451289], [-23454260 / 13297439, -1176512 / 3159023],
          [8603856 / 13297439, 184376 / 3159023]],
        [2, 2, 2, 1, 5, 1, 3, 51476279498 / 54834845403, -6972801722119108341839627 / 767814241697083824576697,
          -169354129820793 / 84013831284194, -8389670647269 / 6000987948871, 0]) := by
  refine ⟨⟨exOrder_free 2 3, fun _ _ _ _ _ => rfl, ⟨fun _ _ => rfl, fun _ _ => rfl, fun _ _ => rfl, fun _ => rfl⟩⟩, ?_, ?_⟩ <;>
    decide +kernel

end Danse
