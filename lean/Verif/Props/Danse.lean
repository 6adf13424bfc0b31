import Verif.Proofs.Danse3
import Verif.Props.Mwf
import Verif.Props.Total

/-!
# Property C117: the filters of a whole online DANSE run

`danseRun D y T evs` is the main loop on the recording `y` over the schedule `evs`; `a.run.hist k` is what node
`k` observed at its updates (C77), `D.heard k h` its spectra, `D.scm k b l` their weighted covariance
matrices, `D.Started k l` the start condition (Spec/Danse.lean).
-/

namespace Danse
section
variable {K : Type} [Field K] [StarRing K] [DecidableEq K] {D : DanseCfg K} {y : Nat → List (List K)}
  {T : Nat} {evs : List (ℚ × Nat × EvType)} {a : DanseSt D}
open Matrix

/-- C117 (instance): a DANSE run is one of the runs that C30, C72-C77 and C80 are about: its nodes compute
filters and phase factors from their own observations only. -/
theorem C117_instance (h : danseRun D y T evs = .ok a) :
    adaptRun D.strategy y (.init D.g T D.M) evs = .ok a.run := (danseRun_adapt evs h).1

/-- C117 (rows): at its `i`-th update a node writes in row `i + 1` of its filters: a copy of row `i` if the
update is bypassed, else the initial filter as long as updating has not started, else what the update rule
gives for the exponentially weighted covariance matrices of all the active and of all the inactive frames
heard so far, this one included. The same holds for the local filters, with the frames of its own sensors. -/
theorem C117_rows (h : danseRun D y T evs = .ok a) {k i : Nat} (hi : i < evUps evs k) :
    D.RowOk k (D.heard k ((a.run.hist k).take (i + 1))) (D.bypass k i) (a.run.cfg.wInt k i)
      (D.g.wInt k (i + 1)) (a.run.cfg.wInt k (i + 1)) ∧
    D.RowOk k (D.heardLoc k ((a.run.hist k).take (i + 1))) (D.bypass k i) (a.run.cfg.wLoc k i)
      (D.g.wLoc k (i + 1)) (a.run.cfg.wLoc k (i + 1)) := danseRun_rowOk h k i hi

/-- C117 (Wiener filter): without GEVD, a row that is neither a copy nor initial is in every bin the one
solution of `Ryy w = (Ryy - Rnn) e_ref`, where `Ryy` and `Rnn` are the weighted covariance matrices of the
active and inactive frames heard so far; and so is the local row, for the frames of its own sensors. -/
theorem C117_wiener (hrule : D.rule = mwfRule) (h : danseRun D y T evs = .ok a) {k i : Nat}
    (hi : i < evUps evs k) (hb : D.bypass k i = false) (ha : D.bypassAll = false) :
    (D.Started k (D.heard k ((a.run.hist k).take (i + 1))) →
      ∃ href : D.g.refSensor < D.dim k, ∀ (κ : Fin D.nb) (v : Fin (D.dim k) → K),
        D.scm k true (D.heard k ((a.run.hist k).take (i + 1))) κ *ᵥ v =
          (D.scm k true (D.heard k ((a.run.hist k).take (i + 1))) κ -
            D.scm k false (D.heard k ((a.run.hist k).take (i + 1))) κ) *ᵥ Pi.single ⟨D.g.refSensor, href⟩ 1 ↔
        v = fun c : Fin (D.dim k) => coef (a.run.cfg.wInt k (i + 1)) κ c) ∧
    (D.Started k (D.heardLoc k ((a.run.hist k).take (i + 1))) →
      ∃ href : D.g.refSensor < D.M k, ∀ (κ : Fin D.nb) (v : Fin (D.M k) → K),
        D.scm k true (D.heardLoc k ((a.run.hist k).take (i + 1))) κ *ᵥ v =
          (D.scm k true (D.heardLoc k ((a.run.hist k).take (i + 1))) κ -
            D.scm k false (D.heardLoc k ((a.run.hist k).take (i + 1))) κ) *ᵥ
              Pi.single ⟨D.g.refSensor, href⟩ 1 ↔
        v = fun c : Fin (D.M k) => coef (a.run.cfg.wLoc k (i + 1)) κ c) := by
  have key : ∀ {m : Nat} (l : List (UpEv (Fin D.nb) (Fin m) K ℚ)) (prev init new : List (List K)),
      D.RowOk k l (D.bypass k i) prev init new → D.Started k l →
      ∃ href : D.g.refSensor < m, ∀ (κ : Fin D.nb) (v : Fin m → K),
        D.scm k true l κ *ᵥ v = (D.scm k true l κ - D.scm k false l κ) *ᵥ
          Pi.single ⟨D.g.refSensor, href⟩ 1 ↔ v = fun c : Fin m => coef new κ c := by
    intro m l prev init new hr hs
    have hr := hr.2.2.2 hb ha hs
    rw [hrule] at hr
    have href : D.g.refSensor < m := by
      by_contra hn
      have := hr ⟨0, by unfold DanseCfg.nb; omega⟩
      unfold mwfRule at this
      rw [dif_neg hn] at this
      cases this
    refine ⟨href, fun κ v => ?_⟩
    have hw := hr κ
    unfold mwfRule at hw
    rw [dif_pos href] at hw
    obtain ⟨hd, -⟩ := updateW_ok hw
    have hn := updateW_normal hw
    constructor
    · intro hv
      rw [← hn] at hv
      have := congrArg ((D.scm k true l κ)⁻¹ *ᵥ ·) hv
      simpa [mulVec_mulVec, nonsing_inv_mul _ (Ne.isUnit hd)] using this
    · rintro rfl
      exact hn
  obtain ⟨r1, r2⟩ := C117_rows h hi
  exact ⟨key _ _ _ _ r1, key _ _ _ _ r2⟩

/-- C117 (broadcast filters): row `i + 1` of the broadcast filters of a node is the selector of the reference
sensor if only that is to be broadcast; row `i` for a single sensor that is not to be fused; the part of row
`i + 1` of the filters that belongs to its own sensors, when nodes update in turns or without relaxation. -/
theorem C117_broadcast (h : danseRun D y T evs = .ok a) {k i : Nat} (hi : i < evUps evs k)
    (κ : Fin D.nb) (c : Fin (D.M k)) :
    (D.onlyRef = true → coef (a.run.cfg.wExt k (i + 1)) κ c = if c.val = D.g.refSensor then 1 else 0) ∧
    (D.onlyRef = false → D.M k = 1 → D.g.noFusion = true →
      coef (a.run.cfg.wExt k (i + 1)) κ c = coef (a.run.cfg.wExt k i) κ c) ∧
    (D.onlyRef = false → ¬ (D.M k = 1 ∧ D.g.noFusion = true) → D.noRelax = true ∨ D.seq = true →
      coef (a.run.cfg.wExt k (i + 1)) κ c = coef (a.run.cfg.wInt k (i + 1)) κ c) := by
  obtain ⟨-, -, p0, hp0, e0⟩ := danseRun_stored h k i (by omega)
  obtain ⟨o, ho, hl, p, hp, e1, e2, -, -⟩ := danseRun_rows h k i hi
  rw [ho] at hp
  obtain ⟨q, v, vl, hq, -, -, hx, hr⟩ := nodeFold_rows _ _ hp
  rw [hp0] at hq
  injection hq with hq
  subst hq
  rw [e1, e2, hr]
  simp only
  rw [coef_frameRow, hx, ← e0]
  unfold extStep DanseCfg.ext
  refine ⟨fun h1 => ?_, fun h1 h2 h3 => ?_, fun h1 h2 h3 => ?_⟩
  · simp only [h1, if_true]
  · simp only [h1, h2, h3, reduceCtorEq, if_false, beq_self_eq_true, and_self, if_true]
  · simp only
    rw [if_neg (by simp [h1]), if_neg (by simpa using h2), if_pos h3]
    exact (coef_frameRow v κ (Fin.castAdd _ c)).symm

/-- C117 (relaxed broadcast filters): otherwise row `i + 1` is a mixture of row `i` and of a target that is
moved towards the filters of the node at most once in every `extEvery` seconds. -/
theorem C117_relaxed (h : danseRun D y T evs = .ok a) (k : Nat) (h1 : D.onlyRef = false)
    (h2 : ¬ (D.M k = 1 ∧ D.g.noFusion = true)) (h3 : D.noRelax = false) (h4 : D.seq = false) :
    ∃ (target : Nat → Nat → Nat → K) (last : Nat → ℚ),
      (∀ (κ : Fin D.nb) (c : Fin (D.M k)), target 0 κ c = coef (D.extTarget0 k) κ c) ∧ last 0 = 0 ∧
      ∀ i t, (upTimes evs k)[i]? = some t →
        (∀ (κ : Fin D.nb) (c : Fin (D.M k)), coef (a.run.cfg.wExt k (i + 1)) κ c =
          D.betaExt k * coef (a.run.cfg.wExt k i) κ c + (1 - D.betaExt k) * target i κ c) ∧
        (D.extEvery ≤ t - last i → last (i + 1) = t ∧ ∀ (κ : Fin D.nb) (c : Fin (D.M k)),
          target (i + 1) κ c = (1 - D.alpha) * target i κ c + D.alpha * coef (a.run.cfg.wInt k (i + 1)) κ c) ∧
        (¬ D.extEvery ≤ t - last i → last (i + 1) = last i ∧ ∀ (κ : Fin D.nb) (c : Fin (D.M k)),
          target (i + 1) κ c = target i κ c) := by
  classical
  let st : Nat → ExtSt (Frame (Fin D.nb) (Fin (D.M k)) K) ℚ := fun i =>
    ((D.nodeFold k ((a.run.hist k).take i)).toOption.map (·.1.ext)).getD (D.node0 k).ext
  refine ⟨fun i κ c => if hk : κ < D.nb ∧ c < D.M k then (st i).target ⟨κ, hk.1⟩ ⟨c, hk.2⟩ else 0,
    fun i => (st i).last, fun κ c => ?_, rfl, fun i t ht => ?_⟩
  · dsimp only; rw [dif_pos ⟨κ.isLt, c.isLt⟩]; rfl
  · have hobs := C77_observed (C117_instance h) k
    have hi : i < evUps evs k := by
      rw [← evUps_length]
      exact (List.getElem?_eq_some_iff.1 ht).1
    obtain ⟨-, -, p0, hp0, e0⟩ := danseRun_stored h k i (by omega)
    obtain ⟨o, ho, hl, p, hp, e1, e2, -, -⟩ := danseRun_rows h k i hi
    have hot : o.t = t := by
      have : ((a.run.hist k).map (·.t))[i]? = some o.t := by
        rw [List.getElem?_map]
        have h5 : (a.run.hist k)[i]? = some o := by
          have h6 : ((a.run.hist k).take (i + 1))[i]? = some o := by
            rw [ho, List.getElem?_append_right (by omega), hl]; simp
          rw [List.getElem?_take_of_lt (by omega)] at h6
          exact h6
        rw [h5]; rfl
      rw [hobs.1, ht] at this
      injection this with this
      exact this.symm
    have hs1 : st (i + 1) = p.1.ext := by simp only [st, hp]; rfl
    have hs0 : st i = p0.1.ext := by simp only [st, hp0]; rfl
    rw [ho] at hp
    obtain ⟨q, v, vl, hq, -, -, hx, hr⟩ := nodeFold_rows _ _ hp
    rw [hp0] at hq
    injection hq with hq
    subst hq
    have hrel : (D.ext k).Relaxed := ⟨h1, by
      by_cases hm : D.M k = 1
      · right
        have : ¬ D.g.noFusion = true := fun hh => h2 ⟨hm, hh⟩
        simpa [DanseCfg.ext] using this
      · left; simpa [DanseCfg.ext] using hm, h3, h4⟩
    have hstep : p.1.ext = if D.extEvery ≤ o.t - p0.1.ext.last then
          ⟨D.betaExt k • p0.1.ext.ext + (1 - D.betaExt k) • p0.1.ext.target,
            (1 - D.alpha) • p0.1.ext.target + D.alpha • localPart (D.M k) _ v, o.t⟩
        else ⟨D.betaExt k • p0.1.ext.ext + (1 - D.betaExt k) • p0.1.ext.target, p0.1.ext.target, p0.1.ext.last⟩ := by
      rw [hx]
      obtain ⟨r1, r2, r3, r4⟩ := hrel
      unfold extStep
      rw [if_neg (by simp [r1]), if_neg (by rintro ⟨a, b⟩; rcases r2 with h | h <;> simp_all),
        if_neg (by simp [r3, r4])]
      rfl
    have hdf : ∀ (f : Frame (Fin D.nb) (Fin (D.M k)) K) (κ : Fin D.nb) (c : Fin (D.M k)),
        (if hk : κ.val < D.nb ∧ c.val < D.M k then f ⟨κ, hk.1⟩ ⟨c, hk.2⟩ else 0) = f κ c := by
      intro f κ c
      rw [dif_pos ⟨κ.isLt, c.isLt⟩]
    refine ⟨fun κ c => ?_, fun hd => ⟨?_, fun κ c => ?_⟩, fun hd => ⟨?_, fun κ c => ?_⟩⟩
    · dsimp only
      rw [hdf, hs0, e2, hr]
      simp only
      rw [coef_frameRow, ← e0, hstep]
      split <;> simp
    · dsimp only
      rw [hs1, hstep, if_pos (by rw [hot, ← hs0]; exact hd)]
      exact hot
    · dsimp only
      rw [hdf, hdf, hs1, hs0, hstep, if_pos (by rw [hot, ← hs0]; exact hd), e1, hr]
      have := coef_frameRow v κ (Fin.castAdd _ c)
      simp only [Fin.val_castAdd] at this
      simp only [Pi.add_apply, Pi.smul_apply, smul_eq_mul, localPart]
      rw [this]
    · dsimp only
      rw [hs1, hstep, if_neg (by rw [hot, ← hs0]; exact hd), hs0]
    · dsimp only
      rw [hdf, hdf, hs1, hstep, if_neg (by rw [hot, ← hs0]; exact hd), hs0]

end
end Danse
