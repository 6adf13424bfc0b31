import Verif.Proofs.OrderTI2
import Verif.Props.ScaleTI
import Verif.Props.Order
import Mathlib.LinearAlgebra.Matrix.Adjugate

/-!
# Property C144: the order of the sensors in TI-DANSE

`tiDanseRun D T y up0 trees out` is the main loop of `tidanse` on the recording `y` over the schedule `out` with the
trees `trees`; `reordered (σ k) (y k)` is the recording of node `k` with the sensors in another order (Spec/Order.lean).
-/

namespace Danse
section
variable {n : Nat} {K : Type} [Field K] [StarRing K] [DecidableEq K] {D : DanseCfg K} {σ : Nat → Equiv.Perm Nat}
  {T : Nat} {y : Fin n → List (List K)} {up0 : Fin n → List (Fin n)} {trees : List (TreeObj n)} {out : List (Instant ℚ)}

/-- C144 (order): put the sensors of every node in another order, the reference sensors in their places. Let the initial
covariance matrices not depend on the order, or let the first frames be their basis; let the initial filters select the
reference sensors. Then the TI-DANSE run ends normally when it did before; the in-network sums and the outputs are the
same, and the filters are the same ones in the other order, the weight of the in-network sum in its place. -/
theorem C144_order (hs : SensorOrder D.M D.g.refSensor σ) (hf : D.OrderFree) (hu : D.use1st = true ∨ D.EvenStart σ)
    (hsel : D.TIStartsAtRef) (hy : ∀ k : Fin n, (y k).length = D.M k ∧ D.g.refSensor < D.M k)
    {s : TIDanseSt n D} (h : tiDanseRun D T y up0 trees out = .ok s) :
    ∃ s', tiDanseRun D T (fun k => reordered (σ k) (y k)) up0 trees out = .ok s' ∧ s'.run.net = s.run.net ∧
      ∀ k, (s'.run.node k).d = (s.run.node k).d ∧ (s'.run.node k).dLoc = (s.run.node k).dLoc ∧
        (s'.run.node k).started = (s.run.node k).started ∧
        (s'.run.node k).ext = reordered (σ k) (s.run.node k).ext ∧
        (∀ i κ (c c' : Fin (D.M k + 1)), c'.val = σ k c →
          ((s'.node k).danse.w i).map (fun w => w κ c) = ((s.node k).danse.w i).map (fun w => w κ c')) ∧
        ∀ i κ (c c' : Fin (D.M k)), c'.val = σ k c →
          ((s'.node k).loc.w i).map (fun w => w κ c) = ((s.node k).loc.w i).map (fun w => w κ c') := by
  have := tiDanseRun_ord hs hf hu hsel (fun k => (hy k).1) (fun k => (hy k).2) T up0 trees out
  rw [h] at this
  revert this
  cases tiDanseRun D T (fun k => reordered (σ k) (y k)) up0 trees out with
  | error e => exact fun h => h.elim
  | ok s' =>
    intro h1
    have h1 : TIOrd _ σ s s' := h1
    have h2 : s'.run = s.run.reord σ := h1.run
    have hd : ∀ k : Fin n, Stable (σ k) (D.M k + 1) := fun k => hs.stable (by omega)
    have hl : ∀ k : Fin n, Stable (σ k) (D.M k) := fun k => hs.stable le_rfl
    refine ⟨s', rfl, by rw [h2]; rfl, fun k => ?_⟩
    have hn := h1.node k (hd k) (hl k)
    rw [h2]
    refine ⟨rfl, rfl, rfl, rfl, fun i κ c c' hc => ?_, fun i κ c c' hc => ?_⟩
    · have e : finPerm (σ k) _ (hd k) c = c' := Fin.ext hc.symm
      rw [hn.danse.w, ← e]
      cases (s.node k).danse.w i <;> rfl
    · have e : finPerm (σ k) _ (hl k) c = c' := Fin.ext hc.symm
      rw [hn.loc.w, ← e]
      cases (s.node k).loc.w i <;> rfl

/-- C144 (exceptions): and the run ends with the same exception (a division by a weight zero of the in-network sum
included) otherwise. -/
theorem C144_exception (hs : SensorOrder D.M D.g.refSensor σ) (hf : D.OrderFree) (hu : D.use1st = true ∨ D.EvenStart σ)
    (hsel : D.TIStartsAtRef) (hy : ∀ k : Fin n, (y k).length = D.M k ∧ D.g.refSensor < D.M k)
    {e : PyErr} (h : tiDanseRun D T y up0 trees out = .error e) :
    tiDanseRun D T (fun k => reordered (σ k) (y k)) up0 trees out = .error e := by
  have := tiDanseRun_ord hs hf hu hsel (fun k => (hy k).1) (fun k => (hy k).2) T up0 trees out
  rw [h] at this
  revert this
  cases tiDanseRun D T (fun k => reordered (σ k) (y k)) up0 trees out with
  | error e' => exact fun h => congrArg _ h.symm
  | ok s' => exact fun h => h.elim

end

/-! ## Concrete runs -/

/-- The determinant by expansion along the first row. -/
def lapDet : (m : Nat) → Matrix (Fin m) (Fin m) ℚ → ℚ
  | 0, _ => 1
  | m + 1, A => ∑ j : Fin (m + 1), (-1) ^ j.val * A 0 j * lapDet m (A.submatrix Fin.succ j.succAbove)

theorem lapDet_eq : ∀ m (A : Matrix (Fin m) (Fin m) ℚ), lapDet m A = A.det
  | 0, A => by simp [lapDet]
  | m + 1, A => by
    rw [lapDet, Matrix.det_succ_row_zero]
    refine Finset.sum_congr rfl fun j _ => ?_
    rw [lapDet_eq m]

/-- The Wiener filter, by Cramer's rule. -/
def cramerRule (m : Nat) (R S : Matrix (Fin m) (Fin m) ℚ) (r : Nat) : Except PyErr (Fin m → ℚ) :=
  if h : r < m then
    if lapDet m R = 0 then .error .linAlgError
    else .ok fun i => lapDet m (Matrix.of fun a b => if b = i then R a ⟨r, h⟩ - S a ⟨r, h⟩ else R a b) / lapDet m R
  else .error .indexError

theorem cramerRule_eq : cramerRule = mwfRule := by
  funext m R S r
  unfold cramerRule mwfRule
  split_ifs with h hd
  · rw [lapDet_eq] at hd
    unfold updateW npInv
    rw [if_pos hd]; rfl
  · rw [lapDet_eq] at hd
    rw [updateW_of_det hd]
    congr 1
    funext i
    have hcol : (R - S).mulVec (Pi.single (⟨r, h⟩ : Fin m) (1 : ℚ)) = fun i => R i ⟨r, h⟩ - S i ⟨r, h⟩ := by
      rw [Matrix.mulVec_single_one]; rfl
    rw [hcol, Matrix.inv_def, Matrix.smul_mulVec, ← Matrix.cramer_eq_adjugate_mulVec, Pi.smul_apply, Matrix.cramer_apply,
      lapDet_eq, lapDet_eq, Ring.inverse_eq_inv', smul_eq_mul, div_eq_inv_mul]
    have e : (R.updateCol i fun i => R i ⟨r, h⟩ - S i ⟨r, h⟩) =
        Matrix.of fun a b => if b = i then R a ⟨r, h⟩ - S a ⟨r, h⟩ else R a b := by
      ext a b
      rw [Matrix.updateCol_apply]; rfl
    rw [e]
  · rfl

/-- Two nodes: node 0 with three sensors, node 1 with one. -/
def exOrderTIM (k : Nat) : Nat := if k = 0 then 3 else 1

/-- Frames of two samples, one new sample per frame. -/
def exOrderTIG : GivenCfg ℚ :=
  { exLevelG with noFusion := false, wInt := fun k _ => selector (exOrderTIM k + 1) 0 2,
                  wExt := fun k _ => selector (exOrderTIM k + 1) 0 2, wLoc := fun k _ => selector (exOrderTIM k) 0 2 }

/-- Initial matrices with diagonal `1, a, b` for the sensors of node 0, which are not replaced by the first frames; Wiener filters; the
initial filters select sensor 0. Every frame of node 1 is active, so that it keeps its filter. -/
def exOrderTI (a b : ℚ) : DanseCfg ℚ :=
  { g := exOrderTIG, M := exOrderTIM, use1st := false, beta := fun _ => 1 / 2, startAfter := 3,
    bypassAll := false, valid := fun _ _ _ => true, rule := cramerRule,
    cov0 := fun k _ i j => if i = j then if k = 0 ∧ i = 1 then a else if k = 0 ∧ i = 2 then b else 1 else 0,
    vad := fun k i => k == 1 || i % 2 == 0, bypass := fun _ _ => false, onlyRef := false, noRelax := true, seq := false,
    betaExt := fun _ => 1 / 2, alpha := 1 / 2, extEvery := 2,
    extTarget0 := fun k => selector (exOrderTIM k + 1) 0 2, rot := fun _ _ _ _ => 1 }

/-- One tree rooted at node 0, then ten instants with sums and updates of both nodes. -/
def exOrderTIOut : List (Instant ℚ) := ⟨0, exLevelEv .tr [0]⟩ :: (List.range 10).map fun (j : Nat) =>
  ⟨(j : ℚ) + 2, exLevelEv .fu [1, 0] ++ exLevelEv .bc [1, 0] ++ exLevelEv .re [0] ++ exLevelEv .up [0, 1]⟩

/-- The run: the filters of node 0 after its tenth update, its output and the in-network sum. -/
def exOrderTIRun (a b : ℚ) (y : List (List ℚ)) : Except PyErr (List (List ℚ) × List ℚ × List ℚ) :=
  letI : StarRing ℚ := starRingOfComm
  (tiDanseRun (exOrderTI a b) 12 ![y, [[0, 0, 1, 1, 0, -1, 1, 0, 1, 1, 0, 1]]] (fun _ => [])
    [⟨0, ![[1], []]⟩] exOrderTIOut).map fun s =>
    ((s.run.node 0).ext, (s.run.node 0).d, s.run.net.eta 0)

/-- Sensors 1 and 2 of node 0 are exchanged. -/
def exOrderTIPerm (k : Nat) : Equiv.Perm Nat := if k = 0 then Equiv.swap 1 2 else 1

theorem exOrderTI_order (a b : ℚ) : SensorOrder (exOrderTI a b).M (exOrderTI a b).g.refSensor exOrderTIPerm := by
  refine ⟨fun k => ?_, fun k c hc => ?_⟩
  · unfold exOrderTIPerm
    split_ifs <;> rfl
  · have hc : exOrderTIM k ≤ c := hc
    unfold exOrderTIPerm
    unfold exOrderTIM at hc
    split_ifs at hc ⊢
    · exact Equiv.swap_apply_of_ne_of_ne (by omega) (by omega)
    · rfl

theorem exOrderTI_free (a b : ℚ) : letI : StarRing ℚ := starRingOfComm; (exOrderTI a b).OrderFree := by
  letI : StarRing ℚ := starRingOfComm
  intro m π
  refine ⟨fun r hr Ryy Rnn => ?_, fun _ _ => rfl⟩
  change cramerRule m _ _ r = (cramerRule m _ _ r).map _
  rw [cramerRule_eq]
  exact C143_rule π r hr Ryy Rnn

def exOrderTIA : List ℚ := [1, 0, 1, 0, 0, 0, 1, 1, 0, 1, 0, 1]
def exOrderTIB : List ℚ := [0, 0, 0, 1, 0, 1, 0, 0, 1, 0, 0, 1]
def exOrderTIC : List ℚ := [0, 1, 0, 0, 1, 0, 0, 0, 0, 0, 1, 0]

set_option maxHeartbeats 4000000 in
/-- The hypotheses of `C144_order` are met by a run in which the filters of node 0 are updated (initial matrices 1): the same output
and in-network sum, and the filters of sensors 1 and 2 exchanged. -/
example : letI : StarRing ℚ := starRingOfComm
    SensorOrder (exOrderTI 1 1).M (exOrderTI 1 1).g.refSensor exOrderTIPerm ∧ (exOrderTI 1 1).OrderFree ∧
    (exOrderTI 1 1).EvenStart exOrderTIPerm ∧ (exOrderTI 1 1).TIStartsAtRef ∧
    reordered (exOrderTIPerm 0) [exOrderTIA, exOrderTIB, exOrderTIC] = [exOrderTIA, exOrderTIC, exOrderTIB] ∧
    exOrderTIRun 1 1 [exOrderTIA, exOrderTIB, exOrderTIC] =
      .ok ([[9331 / 18714, -3023 / 3114], [9665 / 18714, -406 / 519], [-40609 / 18714, 5459 / 3114],
          [-3011 / 6238, -6037 / 3114]],
        [1 / 2, 0, 1, 0, 0, 0, 1, 1, 0, -11674091 / 12950088, 2882119 / 6475044, 0], [1, 0]) ∧
    exOrderTIRun 1 1 [exOrderTIA, exOrderTIC, exOrderTIB] =
      .ok ([[9331 / 18714, -3023 / 3114], [-40609 / 18714, 5459 / 3114], [9665 / 18714, -406 / 519],
          [-3011 / 6238, -6037 / 3114]],
        [1 / 2, 0, 1, 0, 0, 0, 1, 1, 0, -11674091 / 12950088, 2882119 / 6475044, 0], [1, 0]) := by
  refine ⟨exOrderTI_order 1 1, exOrderTI_free 1 1, C143_eye (a := 1) fun k κ i j => ?_,
    ⟨fun _ _ => rfl, fun _ => rfl, fun _ _ => rfl, fun _ => rfl⟩, ?_, ?_, ?_⟩
  · change (if i = j then if k = 0 ∧ i = 1 then (1 : ℚ) else if k = 0 ∧ i = 2 then 1 else 1 else 0) = _
    simp only [ite_self]
  · rfl
  · decide +kernel
  · decide +kernel

set_option maxHeartbeats 4000000 in
/-- C144 (refuted for the default settings): with initial matrices that distinguish the sensors (`'fully_random'`, the default;
here a diagonal `1, 2, 3`) and `use1stFrameAsBasis` off (the default), the order of the sensors changes the output. -/
theorem C144_refuted_default : (letI : StarRing ℚ := starRingOfComm; (exOrderTI 2 3).OrderFree ∧ (exOrderTI 2 3).TIStartsAtRef) ∧
    exOrderTIRun 2 3 [exOrderTIA, exOrderTIB, exOrderTIC] =
      .ok ([[6761 / 17396, -2432 / 2351], [1811 / 17396, -3835 / 4702], [-17217 / 17396, 2089 / 2351],
          [-87 / 8698, -7999 / 4702]],
        [1 / 2, 0, 1, 0, 0, 0, 1, 1, 0, -3526598 / 10224499, 44324187 / 81795992, 0], [1, 0]) ∧
    exOrderTIRun 2 3 [exOrderTIA, exOrderTIC, exOrderTIB] =
      .ok ([[1331 / 3144, -79 / 96], [-62693 / 47160, 121 / 96], [7549 / 47160, -163 / 288], [-643 / 5895, -125 / 72]],
        [1 / 2, 0, 1, 0, 0, 0, 1, 1, 0, -36067 / 75456, 37555 / 75456, 0], [1, 0]) := by
  refine ⟨⟨exOrderTI_free 2 3, ⟨fun _ _ => rfl, fun _ => rfl, fun _ _ => rfl, fun _ => rfl⟩⟩, ?_, ?_⟩ <;>
    decide +kernel

end Danse
