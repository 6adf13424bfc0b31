import Verif.Proofs.ScaleTI
import Verif.Props.Scale

/-!
# Property C122: the level of the recording does not matter in TI-DANSE

`tiDanseRun D T y up0 trees out` is the main loop of `tidanse` on the recording `y` over the schedule `out` with the
trees `trees`; `scaledM a (y k)` is the recording of node `k` times `a`; `D.LevelFree a` says that the update rule and
the rank test do not change when both matrices are multiplied by `a ^ 2` (Spec/Scale.lean).
-/

namespace Danse
section
variable {n : Nat} {K : Type} [Field K] [StarRing K] [DecidableEq K] {D : DanseCfg K} {a : K}

/-- C122 (level): when the first frames are the basis of the covariance matrices, a TI-DANSE run on the recording times
a real `a ≠ 0` ends normally when the run on the recording does; then all the filters of all the nodes are the same, the
last broadcast filters included, and the in-network sums and all the outputs are those of the recording times `a`. -/
theorem C122_level (ha : star a = a) (h0 : a ≠ 0) (hf : D.LevelFree a) (hu : D.use1st = true)
    {T : Nat} {y : Fin n → List (List K)} {up0 : Fin n → List (Fin n)} {trees : List (TreeObj n)}
    {out : List (Instant ℚ)} {s : TIDanseSt n D} (h : tiDanseRun D T y up0 trees out = .ok s) :
    ∃ s', tiDanseRun D T (fun k => scaledM a (y k)) up0 trees out = .ok s' ∧
      ∀ k, (s'.node k).danse.w = (s.node k).danse.w ∧ (s'.node k).loc.w = (s.node k).loc.w ∧
        (s'.run.node k).ext = (s.run.node k).ext ∧ (s'.run.node k).started = (s.run.node k).started ∧
        s'.run.net.eta k = scaled a (s.run.net.eta k) ∧ s'.run.net.etaMk k = scaled a (s.run.net.etaMk k) ∧
        (s'.run.node k).d = scaled a (s.run.node k).d ∧ (s'.run.node k).dLoc = scaled a (s.run.node k).dLoc := by
  have := tiDanseRun_level ha h0 hf (cov := D.cov0) (.inl hu) T y up0 trees out
  rw [h] at this
  change RelE _ _ (tiDanseRun D T (fun k => scaledM a (y k)) up0 trees out) at this
  revert this
  cases tiDanseRun D T (fun k => scaledM a (y k)) up0 trees out with
  | error e => exact fun h => h.elim
  | ok s' =>
    intro h1
    have h1 : TILevel a _ s (cov := D.cov0) s' := h1
    have h2 : s'.run = s.run.scaled a := h1.run
    refine ⟨s', rfl, fun k => ⟨(h1.node k).danse.w, (h1.node k).loc.w, ?_⟩⟩
    rw [h2]
    exact ⟨rfl, rfl, rfl, rfl, rfl, rfl⟩

/-- C122 (exceptions): and it ends with the same exception (a division by a weight zero of the in-network sum
included) otherwise. -/
theorem C122_exception (ha : star a = a) (h0 : a ≠ 0) (hf : D.LevelFree a) (hu : D.use1st = true)
    {T : Nat} {y : Fin n → List (List K)} {up0 : Fin n → List (Fin n)} {trees : List (TreeObj n)}
    {out : List (Instant ℚ)} {e : PyErr} (h : tiDanseRun D T y up0 trees out = .error e) :
    tiDanseRun D T (fun k => scaledM a (y k)) up0 trees out = .error e := by
  have := tiDanseRun_level ha h0 hf (cov := D.cov0) (.inl hu) T y up0 trees out
  rw [h] at this
  change RelE _ _ (tiDanseRun D T (fun k => scaledM a (y k)) up0 trees out) at this
  revert this
  cases tiDanseRun D T (fun k => scaledM a (y k)) up0 trees out with
  | error e' => exact fun h => congrArg _ h.symm
  | ok s' => exact fun h => h.elim

/-- C122 (initial matrices): when the initial covariance matrices are the basis, the same holds if they are
adapted to the level, that is multiplied by `a ^ 2`. -/
theorem C122_adapted (ha : star a = a) (h0 : a ≠ 0) (hf : D.LevelFree a)
    {T : Nat} {y : Fin n → List (List K)} {up0 : Fin n → List (Fin n)} {trees : List (TreeObj n)}
    {out : List (Instant ℚ)} {s : TIDanseSt n D} (h : tiDanseRun D T y up0 trees out = .ok s) :
    ∃ s', tiDanseRun (D.withCov fun k κ i j => a ^ 2 * D.cov0 k κ i j) T (fun k => scaledM a (y k)) up0 trees out =
        .ok s' ∧
      ∀ k, (s'.node k).danse.w = (s.node k).danse.w ∧ (s'.node k).loc.w = (s.node k).loc.w ∧
        (s'.run.node k).ext = (s.run.node k).ext ∧ (s'.run.node k).started = (s.run.node k).started ∧
        s'.run.net.eta k = scaled a (s.run.net.eta k) ∧ s'.run.net.etaMk k = scaled a (s.run.net.etaMk k) ∧
        (s'.run.node k).d = scaled a (s.run.node k).d ∧ (s'.run.node k).dLoc = scaled a (s.run.node k).dLoc := by
  have := tiDanseRun_level ha h0 hf (cov := fun k κ i j => a ^ 2 * D.cov0 k κ i j) (.inr fun _ _ _ _ => rfl) T y up0
    trees out
  rw [h] at this
  revert this
  cases tiDanseRun (D.withCov fun k κ i j => a ^ 2 * D.cov0 k κ i j) T (fun k => scaledM a (y k)) up0 trees out with
  | error e => exact fun h => h.elim
  | ok s' =>
    intro h1
    have h1 : TILevel a _ s s' := h1
    have h2 : s'.run = s.run.scaled a := h1.run
    refine ⟨s', rfl, fun k => ⟨(h1.node k).danse.w, (h1.node k).loc.w, ?_⟩⟩
    rw [h2]
    exact ⟨rfl, rfl, rfl, rfl, rfl, rfl⟩

end

/-! ## Concrete runs -/

/-- The Wiener filter, written out for one and two channels. -/
noncomputable def pairRule : (m : Nat) → Matrix (Fin m) (Fin m) ℚ → Matrix (Fin m) (Fin m) ℚ → Nat →
    Except PyErr (Fin m → ℚ)
  | 2, Ryy, Rnn, 0 =>
    let d := Ryy 0 0 * Ryy 1 1 - Ryy 0 1 * Ryy 1 0
    let p := Ryy 0 0 - Rnn 0 0
    let q := Ryy 1 0 - Rnn 1 0
    if d = 0 then .error .linAlgError
    else .ok ![(Ryy 1 1 * p - Ryy 0 1 * q) / d, (Ryy 0 0 * q - Ryy 1 0 * p) / d]
  | m, Ryy, Rnn, r => scalarRule m Ryy Rnn r

theorem pairRule_eq : pairRule = mwfRule := by
  funext m Ryy Rnn r
  unfold pairRule
  split
  · rename_i Ryy Rnn
    unfold mwfRule
    rw [dif_pos Nat.two_pos]
    have hd : Ryy.det = Ryy 0 0 * Ryy 1 1 - Ryy 0 1 * Ryy 1 0 := Matrix.det_fin_two Ryy
    simp only
    split_ifs with h
    · unfold updateW npInv
      rw [if_pos (by rw [hd]; exact h)]; rfl
    · rw [updateW_of_det (by rw [hd]; exact h)]
      congr 1
      have e : Ryy⁻¹ = (Ryy 0 0 * Ryy 1 1 - Ryy 0 1 * Ryy 1 0)⁻¹ • !![Ryy 1 1, -Ryy 0 1; -Ryy 1 0, Ryy 0 0] := by
        rw [Matrix.inv_def, Matrix.adjugate_fin_two, hd, Ring.inverse_eq_inv']
      funext i
      rw [e]
      fin_cases i <;> simp [Matrix.mulVec, dotProduct, Fin.sum_univ_two] <;> ring
  · rw [scalarRule_eq]

/-- Two nodes with one sensor each; frames of two samples, one new sample per frame. -/
def exLevelTIG : GivenCfg ℚ :=
  { exLevelG with noFusion := false, wInt := fun _ _ => [[1, 1], [0, 0]], wExt := fun _ _ => [[1, 1], [0, 0]] }

/-- Initial matrices 1, used or not; every second frame is active; Wiener filters. -/
noncomputable def exLevelTI (use1st : Bool) : DanseCfg ℚ :=
  { g := exLevelTIG, M := fun _ => 1, use1st := use1st, beta := fun _ => 1 / 2, startAfter := 3,
    bypassAll := false,
    valid := fun _ Rnn Ryy => decide (∀ κ, (Rnn κ).det ≠ 0 ∧ (Ryy κ).det ≠ 0),
    rule := pairRule, cov0 := fun _ _ i j => if i = j then 1 else 0,
    vad := fun _ i => i % 2 == 0, bypass := fun _ _ => false, onlyRef := false, noRelax := false, seq := false,
    betaExt := fun _ => 1 / 2, alpha := 1 / 2, extEvery := 2, extTarget0 := fun _ => [[1, 1], [0, 0]],
    rot := fun _ _ _ _ => 1 }

/-- The rule and the test of the example do not depend on the level. -/
theorem exLevelTI_free (u : Bool) : (exLevelTI u).LevelFree 2 := by
  constructor
  · intro m Ryy Rnn r
    change pairRule m _ _ r = pairRule m _ _ r
    rw [pairRule_eq]
    letI : StarRing ℚ := starRingOfComm
    exact C121_rule (by norm_num) m Ryy Rnn r
  · intro m Rnn Ryy
    change decide _ = decide _
    simp only [Matrix.det_smul]
    congr 1
    refine propext (forall_congr' fun κ => ?_)
    have : ((2 : ℚ) ^ 2) ^ Fintype.card (Fin m) ≠ 0 := by positivity
    simp

/-- Events of one kind. -/
def exLevelEv (ty : EvType) (l : List Nat) : List OutEv := l.map fun k => ⟨k, ty, false⟩

/-- One tree rooted at node 0, then eight instants with sums and updates of both nodes. -/
def exLevelOut : List (Instant ℚ) := ⟨0, exLevelEv .tr [0]⟩ :: (List.range 8).map fun (j : Nat) =>
  ⟨(j : ℚ) + 2, exLevelEv .fu [1, 0] ++ exLevelEv .bc [1, 0] ++ exLevelEv .re [0] ++ exLevelEv .up [0, 1]⟩

/-- The run on the signals `y0` and `y1`: has node 0 started, its broadcast filter, its output and the in-network sum. -/
noncomputable def exLevelTIRun (u : Bool) (y0 y1 : List ℚ) : Except PyErr (Bool × List ℚ × List ℚ × List ℚ) :=
  letI : StarRing ℚ := starRingOfComm
  (tiDanseRun (exLevelTI u) 10 ![[y0], [y1]] (fun _ => []) [⟨0, ![[1], []]⟩] exLevelOut).map fun s =>
    ((s.run.node 0).started, (s.run.node 0).ext.flatten, (s.run.node 0).d, s.run.net.eta 0)

/-- The hypotheses of `C122_level` are met by a run in which the filters are updated: twice the recording gives
the same filters and twice the output and the in-network sum. -/
example : letI : StarRing ℚ := starRingOfComm
    star (2 : ℚ) = 2 ∧ (exLevelTI true).use1st = true ∧ (exLevelTI true).rule = mwfRule ∧
    exLevelTIRun true [4, 2, 2, 1, 5, 1, 3, 2, 4, 1] [1, 0, 2, 3, -1, 2, 4, 2, 5, 3] =
      .ok (true, [317 / 369, 397 / 573, -172 / 1107, -40 / 573],
        [2, 2, 2, 1, 5, 527 / 585, -26691193 / 4581135, 586225 / 1480059, -2986505 / 1480059, 0], [2, 9 / 2]) ∧
    exLevelTIRun true [8, 4, 4, 2, 10, 2, 6, 4, 8, 2] [2, 0, 4, 6, -2, 4, 8, 4, 10, 6] =
      .ok (true, [317 / 369, 397 / 573, -172 / 1107, -40 / 573],
        [4, 4, 4, 2, 10, 1054 / 585, -53382386 / 4581135, 1172450 / 1480059, -5973010 / 1480059, 0], [4, 9]) := by
  refine ⟨rfl, rfl, pairRule_eq, ?_, ?_⟩ <;> decide +kernel

/-- C122 (refuted for the default settings): with `use1stFrameAsBasis` off, which is the default, the filters do depend
on the level: twice the recording gives other filters. -/
theorem C122_refuted_default : (exLevelTI false).LevelFree 2 ∧ (exLevelTI false).rule = mwfRule ∧
    (exLevelTIRun false [4, 2, 2, 1, 5, 1, 3, 2, 4, 1] [1, 0, 2, 3, -1, 2, 4, 2, 5, 3]).map (·.2.1) =
      .ok [3245 / 3826, 1703 / 2542, -1481 / 13391, -105 / 1271] ∧
    (exLevelTIRun false [8, 4, 4, 2, 10, 2, 6, 4, 8, 2] [2, 0, 4, 6, -2, 4, 8, 4, 10, 6]).map (·.2.1) =
      .ok [21617 / 25324, 1511 / 2248, -6173 / 50648, -393 / 4496] := by
  refine ⟨exLevelTI_free false, ?_, ?_, ?_⟩
  · letI : StarRing ℚ := starRingOfComm
    exact pairRule_eq
  · decide +kernel
  · decide +kernel

end Danse
