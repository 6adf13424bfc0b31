import Verif.Proofs.Danse4
import Verif.Props.Danse
import Mathlib.Analysis.Matrix.PosDef
import Mathlib.Data.Fin.Tuple.Sort

/-!
# Property C117 (continued): a whole online DANSE run comes to its end
-/

namespace Danse
section
open scoped ComplexOrder
variable {D : DanseCfg ℂ} {y : Nat → List (List ℂ)}

/-- C117 (positive definite): with a forgetting factor in `(0, 1]`, initial matrices that are positive
semidefinite (or not used) and a rank test that only passes invertible matrices, both weighted covariance
matrices are positive definite in every bin, once updating has started and for ever after. -/
theorem C117_posdef {k m : Nat} {b : ℝ} (h0 : 0 < b) (h1 : b ≤ 1) (hb : D.beta k = (b : ℂ))
    (hv : ∀ Rnn Ryy, D.valid m Rnn Ryy = true → ∀ κ, (Rnn κ).det ≠ 0 ∧ (Ryy κ).det ≠ 0)
    (hR : D.use1st = true ∨ ∀ κ, (D.R0 k m κ).PosSemidef)
    (l : List (UpEv (Fin D.nb) (Fin m) ℂ ℚ)) (hs : D.Started k l) (κ : Fin D.nb) :
    (D.scm k true l κ).PosDef ∧ (D.scm k false l κ).PosDef := by
  unfold DanseCfg.scm
  unfold DanseCfg.Started at hs
  rw [hb] at hs ⊢
  have hR' : D.use1st = true ∨ (D.R0 k m κ).PosSemidef := hR.imp_right fun h => h κ
  exact ⟨started_posDef h0 h1 κ (fun a b h => hv a b h κ) hR' l hs true,
    started_posDef h0 h1 κ (fun a b h => hv a b h κ) hR' l hs false⟩

/-- C117 (the run ends): under the conditions of C80 (same clock everywhere, few-sample broadcasts that fit
the frames) the schedule is made and the whole run with all its covariance and filter updates ends without an
exception, whatever the signals, the VAD decisions and the bypassed updates, if the reference sensor is a
sensor of every node, the forgetting factors are in `(0, 1]`, the initial covariance matrices are positive
semidefinite or not used, and the rank test passes invertible matrices only. -/
theorem C117_completes (hrule : D.rule = mwfRule) (href : ∀ k, D.g.refSensor < D.M k)
    (hβ : ∀ k, ∃ b : ℝ, 0 < b ∧ b ≤ 1 ∧ D.beta k = (b : ℂ))
    (hv : ∀ m Rnn Ryy, D.valid m Rnn Ryy = true → ∀ κ, (Rnn κ).det ≠ 0 ∧ (Ryy κ).det ≠ 0)
    (hR : D.use1st = true ∨ ∀ k m κ, (D.R0 k m κ).PosSemidef)
    {n L : Nat} (hn : 0 < n) {fs : ℚ} (hfs : 0 < fs)
    (hf : inferFs (clockStamps fs n) = .ok fs) (nbs : List (List Nat)) {seq sim : Bool}
    {ri : Nat} (first minF : Int) (hri : sim = true → ri < nbs.length)
    (hg : ∀ k, D.g.fs k = fs) (hb : D.g.bc = .few L false) (hL0 : 0 < L) (hLNs : L ≤ D.g.Ns)
    (hN : 0 < D.g.N) (he : 2 ∣ D.g.N) (hbuf : D.g.Ns + L ≤ D.g.N + 1 ∨ L ∣ D.g.Ns ∧ D.g.Ns ≤ D.g.N)
    (hfl : D.g.f.length = D.g.N) (gd : GoodNeighbours D.g.nb)
    (hnb : ∀ q < nbs.length, ∀ k ∈ D.g.nb q, k < nbs.length)
    (hy : ∀ k < nbs.length, ∀ ch ∈ y k, ch.length = n)
    (hw : ∀ k i, (∀ b ∈ D.g.wInt k i, b.length = D.nb) ∧
      (∀ b ∈ D.g.wExt k i, b.length = D.nb) ∧ ∀ b ∈ D.g.wLoc k i, b.length = D.nb) :
    ∃ out a, initEventsFC D.g.bc D.g.N D.g.Ns seq sim ri first minF (syncNodes fs n nbs) =
        .ok (out, List.replicate nbs.length fs) ∧
      danseRun D y n (flatEvents out) = .ok a := by
  obtain ⟨out, a, h1, h2⟩ := C80_completes (y := y) D.strategy hn hfs hf nbs (seq := seq) (sim := sim) (ri := ri)
    first minF hri hg hb hL0 hLNs hN he hbuf hfl gd hnb hy strategy_bins hw D.M
  obtain ⟨b, hb, -⟩ := danseRun_of_adapt (fun k h => by
    obtain ⟨b, b0, b1, bb⟩ := hβ k
    exact nodeFold_total b0 b1 bb (fun m hm Ryy Rnn p _ => by
      rw [hrule]; exact mwfRule_total (lt_of_lt_of_le (href k) hm) p) hv (hR.imp_right fun h => h k) h) _ h2
  exact ⟨out, b, h1, hb⟩

/-- C117 (the run ends, GEVD): the same with the GEVD-based update, if the rank to keep is at most the number
of sensors of every node and the library finds generalised eigenvectors of positive definite matrices. -/
theorem C117_completes_gevd {lib : (m : Nat) → LinAlg m} {rank : Nat} (hrule : D.rule = gevdRule lib rank)
    (hrank : ∀ k, rank ≤ D.M k)
    (hlib : ∀ m A B, Matrix.PosDef A → Matrix.PosDef B → ∃ σ X, (lib m).Ok A B σ X)
    (href : ∀ k, D.g.refSensor < D.M k)
    (hβ : ∀ k, ∃ b : ℝ, 0 < b ∧ b ≤ 1 ∧ D.beta k = (b : ℂ))
    (hv : ∀ m Rnn Ryy, D.valid m Rnn Ryy = true → ∀ κ, (Rnn κ).det ≠ 0 ∧ (Ryy κ).det ≠ 0)
    (hR : D.use1st = true ∨ ∀ k m κ, (D.R0 k m κ).PosSemidef)
    {n L : Nat} (hn : 0 < n) {fs : ℚ} (hfs : 0 < fs)
    (hf : inferFs (clockStamps fs n) = .ok fs) (nbs : List (List Nat)) {seq sim : Bool}
    {ri : Nat} (first minF : Int) (hri : sim = true → ri < nbs.length)
    (hg : ∀ k, D.g.fs k = fs) (hb : D.g.bc = .few L false) (hL0 : 0 < L) (hLNs : L ≤ D.g.Ns)
    (hN : 0 < D.g.N) (he : 2 ∣ D.g.N) (hbuf : D.g.Ns + L ≤ D.g.N + 1 ∨ L ∣ D.g.Ns ∧ D.g.Ns ≤ D.g.N)
    (hfl : D.g.f.length = D.g.N) (gd : GoodNeighbours D.g.nb)
    (hnb : ∀ q < nbs.length, ∀ k ∈ D.g.nb q, k < nbs.length)
    (hy : ∀ k < nbs.length, ∀ ch ∈ y k, ch.length = n)
    (hw : ∀ k i, (∀ b ∈ D.g.wInt k i, b.length = D.nb) ∧
      (∀ b ∈ D.g.wExt k i, b.length = D.nb) ∧ ∀ b ∈ D.g.wLoc k i, b.length = D.nb) :
    ∃ out a, initEventsFC D.g.bc D.g.N D.g.Ns seq sim ri first minF (syncNodes fs n nbs) =
        .ok (out, List.replicate nbs.length fs) ∧
      danseRun D y n (flatEvents out) = .ok a := by
  obtain ⟨out, a, h1, h2⟩ := C80_completes (y := y) D.strategy hn hfs hf nbs (seq := seq) (sim := sim) (ri := ri)
    first minF hri hg hb hL0 hLNs hN he hbuf hfl gd hnb hy strategy_bins hw D.M
  obtain ⟨b, hb, -⟩ := danseRun_of_adapt (fun k h => by
    obtain ⟨b, b0, b1, bb⟩ := hβ k
    exact nodeFold_total b0 b1 bb (fun m hm Ryy Rnn p q => by
      rw [hrule]
      exact gevdRule_total (lt_of_lt_of_le (href k) hm) (le_trans (hrank k) hm) (hlib m Ryy Rnn p q))
      hv (hR.imp_right fun h => h k) h) _ h2
  exact ⟨out, b, h1, hb⟩

/-- C117 (start): when the first frame is not used as a basis, the initial matrices are positive definite and
the rank test passes positive definite matrices, then updating starts at the first update that is not before
the minimal time and has more active and more inactive frames than there are channels, however alike the
frames are. -/
theorem C117_starts {k m : Nat} {b : ℝ} (h0 : 0 < b) (h1 : b ≤ 1) (hb : D.beta k = (b : ℂ))
    (hu : D.use1st = false) (hR : ∀ κ, (D.R0 k m κ).PosDef)
    (hv : ∀ Rnn Ryy, (∀ κ, (Rnn κ).PosDef) → (∀ κ, (Ryy κ).PosDef) → D.valid m Rnn Ryy = true)
    (l : List (UpEv (Fin D.nb) (Fin m) ℂ ℚ)) :
    D.Started k l ↔ ∃ i e, l[i]? = some e ∧ D.startAfter ≤ e.t ∧
      m < (framesWith true (l.take (i + 1))).length ∧ m < (framesWith false (l.take (i + 1))).length := by
  unfold DanseCfg.Started StartedBy
  rw [hb, hu]
  constructor
  · rintro ⟨l1, e, ⟨l2, rfl⟩, ht, c1, c2, -⟩
    have e3 : (l1 ++ [e] ++ l2).take (l1.length + 1) = l1 ++ [e] := by
      rw [List.take_append_of_le_length (by simp)]
      exact List.take_of_length_le (by simp)
    rw [Fintype.card_fin] at c1 c2
    exact ⟨l1.length, e, by simp, ht, by rw [e3]; exact c1, by rw [e3]; exact c2⟩
  · rintro ⟨i, e, hi, ht, c1, c2⟩
    obtain ⟨hlt, he⟩ := List.getElem?_eq_some_iff.1 hi
    have e3 : l.take i ++ [e] = l.take (i + 1) := by
      rw [List.take_add_one, hi]; rfl
    refine ⟨l.take i, e, ?_, ht, ?_, ?_, ?_⟩
    · rw [e3]; exact List.take_prefix _ _
    · rw [e3, Fintype.card_fin]; exact c1
    · rw [e3, Fintype.card_fin]; exact c2
    · exact hv _ _ (fun κ => scmOf_posDef h0 h1 κ (hR κ) _) (fun κ => scmOf_posDef h0 h1 κ (hR κ) _)

end

/-- Two nodes with one sensor each, which hear each other; frames of two samples, one new sample per frame. -/
noncomputable def exOnlineG : GivenCfg ℂ :=
  { N := 2, Ns := 1, ζ := -1, c := 1, h := [1, 1], f := [1 / 2, 1 / 2],
    nb := fun k => [if k % 2 = 0 then k + 1 else k - 1],
    fs := fun _ => 1, stamps := fun _ => [], bc := .few 1 false, upTDEvery := 1, noFusion := true,
    conv := false, refSensor := 0, wInt := fun _ _ => [[1, 1], [0, 0]], wExt := fun _ _ => [[1, 1]],
    wLoc := fun _ _ => [[1, 1]], rot := fun _ _ _ _ => 1 }

open Classical in
/-- Forgetting factor 1/2, identity matrices to begin with, every second frame active. -/
noncomputable def exOnline : DanseCfg ℂ :=
  { g := exOnlineG, M := fun _ => 1, use1st := false, beta := fun _ => ((1 / 2 : ℝ) : ℂ), startAfter := 3,
    bypassAll := false,
    valid := fun _ Rnn Ryy => decide (∀ κ, (Rnn κ).det ≠ 0 ∧ (Ryy κ).det ≠ 0),
    rule := mwfRule, cov0 := fun _ _ i j => if i = j then 1 else 0,
    vad := fun _ i => i % 2 == 0, bypass := fun _ _ => false, onlyRef := false, noRelax := false, seq := false,
    betaExt := fun _ => 1 / 2, alpha := 1 / 2, extEvery := 2, extTarget0 := fun _ => [[1, 1]],
    rot := fun _ _ _ _ => 1 }

open scoped ComplexOrder in
theorem exOnline_R0 (k m : Nat) (κ : Fin exOnline.nb) : (exOnline.R0 k m κ).PosDef := by
  have : exOnline.R0 k m κ = 1 := by
    ext i j
    simp [DanseCfg.R0, exOnline, Matrix.one_apply, Fin.ext_iff]
  rw [this]
  exact Matrix.PosDef.one

open scoped ComplexOrder in
/-- The hypotheses of the theorems C117 are met: `C117_completes` gives a run of two nodes on any two signals of
12 samples, in which both nodes make 9 updates; updating (both of the filters of all channels and of the local
ones) has started at the sixth update. -/
theorem exOnline_run (y : Nat → List (List ℂ)) (hy : ∀ k < 2, ∀ ch ∈ y k, ch.length = 12) :
    ∃ out a, initEventsFC exOnline.g.bc 2 1 false false 0 0 0 (syncNodes 1 12 [[1], [0]]) =
        .ok (out, [1, 1]) ∧ danseRun exOnline y 12 (flatEvents out) = .ok a ∧
      ∀ k < 2, evUps (flatEvents out) k = 9 ∧
        ∀ i, 5 ≤ i → i < 9 → exOnline.Started k (exOnline.heard k ((a.run.hist k).take (i + 1))) ∧
          exOnline.Started k (exOnline.heardLoc k ((a.run.hist k).take (i + 1))) := by
  have hf : inferFs (clockStamps 1 12) = .ok 1 := by decide_cbv
  obtain ⟨out, a, h1, h2⟩ := C117_completes (D := exOnline) (y := y) rfl (fun _ => Nat.one_pos)
    (fun _ => ⟨1 / 2, by norm_num, by norm_num, rfl⟩)
    (fun m Rnn Ryy h κ => (of_decide_eq_true h) κ) (.inr fun k m κ => (exOnline_R0 k m κ).posSemidef)
    (n := 12) (L := 1) (by norm_num) one_pos hf [[1], [0]] (seq := false) (sim := false) (ri := 0) 0 0
    (by simp) (fun _ => rfl) rfl one_pos (le_refl _) (by change 0 < 2; norm_num) (by change 2 ∣ 2; norm_num)
    (.inl (by change 1 + 1 ≤ 2 + 1; norm_num)) rfl
    ⟨fun k => by change [if k % 2 = 0 then k + 1 else k - 1].Nodup; simp, fun k q => by
      change q ∈ [if k % 2 = 0 then k + 1 else k - 1] → k ∈ [if q % 2 = 0 then q + 1 else q - 1]
      simp only [List.mem_singleton]; split <;> split <;> omega⟩
    (by intro q hq k hk; change k ∈ [if q % 2 = 0 then q + 1 else q - 1] at hk; simp at hk hq ⊢; split at hk <;> omega)
    hy (fun k i => by simp [exOnline, exOnlineG, DanseCfg.nb])
  refine ⟨out, a, h1, h2, fun k hk => ?_⟩
  obtain ⟨out', h3, h4, -⟩ := C78_schedule (bc := exOnline.g.bc) (N := 2) (Ns := 1) (n := 12) one_pos (by norm_num)
    (one_pos : (0 : ℚ) < 1) hf (by intro h; cases h) (by intro L e h; injection h with a b; subst a b; exact ⟨one_pos, rfl⟩)
    [[1], [0]] (seq := false) (sim := false) (r := 0) 0 0 (by simp)
  have e : out' = out := by
    have := h3.symm.trans h1
    injection this with this
    injection this
  subst e
  have ht := (h4 k hk).1
  have hu : evUps (flatEvents out') k = 9 := by
    rw [← evUps_length, ht, everySep_length]
    decide +kernel
  refine ⟨hu, fun i h5 h9 => ?_⟩
  have hobs := (C77_observed (C117_instance h2) k).1
  have hlen : (a.run.hist k).length = 9 := by
    have := congrArg List.length hobs
    rw [List.length_map, evUps_length, hu] at this
    exact this
  have ht6 : ((a.run.hist k).map (·.t))[5]? = some 7 := by
    rw [hobs, ht]
    decide +kernel
  have key : ∀ {m : Nat} (l : List (UpEv (Fin exOnline.nb) (Fin m) ℂ ℚ)), m ≤ 2 →
      l.map (·.vad) = (List.range (i + 1)).map (exOnline.vad k) →
      l.map (·.t) = ((a.run.hist k).take (i + 1)).map (·.t) → exOnline.Started k l := by
    intro m l hm hva hti
    have hll : l.length = i + 1 := by simpa using congrArg List.length hva
    have hcount : ∀ b : Bool, m < (framesWith b (l.take 6)).length := by
      intro b
      rw [framesWith_countP, List.map_take, hva, ← List.map_take, List.take_range, min_eq_left (by omega)]
      refine lt_of_le_of_lt hm ?_
      cases b <;> exact of_decide_eq_true rfl
    rw [C117_starts (b := 1 / 2) (by norm_num) (by norm_num) rfl rfl (fun κ => exOnline_R0 k m κ)
      (fun Rnn Ryy p q => decide_eq_true fun κ => ⟨ne_of_gt (p κ).det_pos, ne_of_gt (q κ).det_pos⟩)]
    refine ⟨5, l[5]'(by omega), List.getElem?_eq_getElem (by omega), ?_, hcount true, hcount false⟩
    have : (l.map (·.t))[5]? = some 7 := by
      rw [hti, List.map_take, List.getElem?_take_of_lt (by omega)]
      exact ht6
    rw [List.getElem?_map, List.getElem?_eq_getElem (by omega)] at this
    injection this with this
    change (3 : ℚ) ≤ _
    exact le_trans (by norm_num) (le_of_eq this.symm)
  have hl2 : ((a.run.hist k).take (i + 1)).length = i + 1 := by rw [List.length_take, hlen]; omega
  exact ⟨key _ (le_refl 2) (by rw [heard_vad, hl2]) (heard_t _ _),
    key _ (by change 1 ≤ 2; omega) (by rw [heardLoc_vad, hl2]) (heardLoc_t _ _)⟩

open Classical in
open scoped ComplexOrder Matrix in
/-- The hypothesis of `C117_completes_gevd` on the library is met by some library. -/
theorem exLib : ∃ lib : (m : Nat) → LinAlg m,
    ∀ m A B, Matrix.PosDef A → Matrix.PosDef B → ∃ σ X, (lib m).Ok A B σ X := by
  have key : ∀ m (A B : Matrix (Fin m) (Fin m) ℂ), A.PosDef → B.PosDef →
      ∃ p : (Fin m → ℝ) × Matrix (Fin m) (Fin m) ℂ,
        p.2ᴴ * A * p.2 = Matrix.diagonal (fun r => (p.1 r : ℂ)) ∧ p.2ᴴ * B * p.2 = 1 := by
    intro m A B hA hB
    have diag : ∀ C : Matrix (Fin m) (Fin m) ℂ, (hC : C.IsHermitian) →
        ∃ U : Matrix (Fin m) (Fin m) ℂ, Uᴴ * U = 1 ∧
          Uᴴ * C * U = Matrix.diagonal (fun r => (hC.eigenvalues r : ℂ)) := by
      intro C hC
      have hs := hC.conjStarAlgAut_star_eigenvectorUnitary
      rw [Unitary.conjStarAlgAut_star_apply] at hs
      exact ⟨hC.eigenvectorUnitary, (Matrix.mem_unitaryGroup_iff').mp hC.eigenvectorUnitary.2, hs⟩
    obtain ⟨V, -, hV⟩ := diag B hB.isHermitian
    let c : Fin m → ℂ := fun r => ((Real.sqrt (hB.isHermitian.eigenvalues r))⁻¹ : ℝ)
    let C := V * Matrix.diagonal c
    have hc : (Matrix.diagonal c)ᴴ = Matrix.diagonal c := by
      rw [Matrix.diagonal_conjTranspose]
      congr 1
      funext r
      exact Complex.conj_ofReal _
    have hCB : Cᴴ * B * C = 1 := by
      have : Cᴴ * B * C = Matrix.diagonal c * (Vᴴ * B * V) * Matrix.diagonal c := by
        simp only [C, Matrix.conjTranspose_mul, hc, Matrix.mul_assoc]
      rw [this, hV, Matrix.diagonal_mul_diagonal, Matrix.diagonal_mul_diagonal, ← Matrix.diagonal_one]
      congr 1
      funext r
      have hp := hB.eigenvalues_pos r
      have h1 := Real.mul_self_sqrt hp.le
      have h2 := Real.sqrt_ne_zero'.mpr hp
      simp only [c]
      norm_cast
      field_simp
      nlinarith
    clear_value C
    have hH : (Cᴴ * A * C).IsHermitian := by
      unfold Matrix.IsHermitian
      rw [Matrix.conjTranspose_mul, Matrix.conjTranspose_mul, Matrix.conjTranspose_conjTranspose, hA.isHermitian.eq,
        Matrix.mul_assoc]
    obtain ⟨U, hUU, hU⟩ := diag _ hH
    refine ⟨(hH.eigenvalues, C * U), ?_, ?_⟩
    · rw [← hU]
      simp only [Matrix.conjTranspose_mul, Matrix.mul_assoc]
    · have : (C * U)ᴴ * B * (C * U) = Uᴴ * (Cᴴ * B * C) * U := by
        simp only [Matrix.conjTranspose_mul, Matrix.mul_assoc]
      simp only
      rw [this, hCB, Matrix.mul_one, hUU]
  refine ⟨fun m => ⟨fun A B => if h : A.PosDef ∧ B.PosDef then .ok (key m A B h.1 h.2).choose else
    .error .linAlgError, fun σ => Tuple.sort σ⟩, fun m A B hA hB => ?_⟩
  obtain ⟨h1, h2⟩ := (key m A B hA hB).choose_spec
  exact ⟨_, _, dif_pos ⟨hA, hB⟩, h1, h2, (Tuple.sort _).injective, Tuple.monotone_sort _⟩

end Danse
