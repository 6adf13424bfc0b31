import Verif.Proofs.Scale2
import Verif.Proofs.Scm

/-!
# Helper lemmas for C121: covariance matrices and filters of a DANSE run at another level
-/

set_option linter.unusedSectionVars false

namespace Danse

/-- Both end normally with related results, or both with the same exception. -/
def RelE {α β : Type} (R : α → β → Prop) : Except PyErr α → Except PyErr β → Prop
  | .ok x, .ok y => R x y
  | .error e, .error e' => e = e'
  | _, _ => False

theorem RelE.bind {α β γ δ : Type} {R : α → β → Prop} {S : γ → δ → Prop} {x : Except PyErr α} {y : Except PyErr β}
    {f : α → Except PyErr γ} {g : β → Except PyErr δ} (h : RelE R x y) (hf : ∀ u v, R u v → RelE S (f u) (g v)) :
    RelE S (x >>= f) (y >>= g) := by
  cases x <;> cases y
  · exact h
  · exact h.elim
  · exact h.elim
  · exact hf _ _ h

theorem RelE.of_map {α β : Type} {f : α → β} (x : Except PyErr α) : RelE (fun u v => v = f u) x (x.map f) := by
  cases x <;> rfl

theorem RelE.refl {α : Type} (x : Except PyErr α) : RelE Eq x x := by cases x <;> rfl

theorem RelE.foldlM {α β γ : Type} {R : α → β → Prop} {f : α → γ → Except PyErr α} {g : β → γ → Except PyErr β}
    (h : ∀ u v e, R u v → RelE R (f u e) (g v e)) (l : List γ) {u : α} {v : β} (huv : R u v) :
    RelE R (l.foldlM f u) (l.foldlM g v) := by
  induction l generalizing u v with
  | nil => exact huv
  | cons e l ih =>
    simp only [List.foldlM_cons]
    exact (h u v e huv).bind fun _ _ h' => ih h'

section
variable {F n K : Type} [Fintype n] [Field K] [StarRing K] {a : K}

/-- Covariance matrices of the same frames at two levels; `I`: the initial ones are scaled, too. -/
structure ScmLevel (a : K) (I : Prop) (s s' : Scm F n K) : Prop where
  numRyy : s'.numRyy = s.numRyy
  numRnn : s'.numRnn = s.numRnn
  ryy : 0 < s.numRyy ∨ I → s'.ryy = fun f => a ^ 2 • s.ryy f
  rnn : 0 < s.numRnn ∨ I → s'.rnn = fun f => a ^ 2 • s.rnn f

theorem outerMean_scaled (ha : star a = a) (y : Frame F n K) :
    outerMean (fun f c => a * y f c) = fun f => a ^ 2 • outerMean y f := by
  funext f
  ext i j
  simp only [outerMean, Matrix.smul_apply, Matrix.of_apply, star_mul, ha, smul_eq_mul]
  ring

theorem blend_scaled (a β : K) (A B : Matrix n n K) :
    β • a ^ 2 • A + (1 - β) • a ^ 2 • B = a ^ 2 • (β • A + (1 - β) • B) := by
  rw [smul_add, smul_comm β, smul_comm (1 - β)]

theorem scmUpdate_level (ha : star a = a) {I : Prop} {u : Bool} (hu : u = true ∨ I) (β : K)
    {s s' : Scm F n K} (h : ScmLevel a I s s') (y : Frame F n K) (vad : Bool) :
    ScmLevel a I (scmUpdate u β s y vad vad) (scmUpdate u β s' (fun f c => a * y f c) vad vad) := by
  obtain ⟨h1, h2, h3, h4⟩ := h
  cases vad with
  | true =>
    unfold scmUpdate conditionalScm updateCovOnline
    simp only [if_true, outerMean_scaled ha]
    cases u with
    | true =>
      simp only [if_true, h1, h2]
      refine ⟨by simp, by simp, fun _ => ?_, fun hi => ?_⟩
      · simp only [Nat.add_eq_right, and_true, gt_iff_lt]
        by_cases hz : s.numRyy = 0
        · simp [hz]
        · have hp : 0 < s.numRyy := Nat.pos_of_ne_zero hz
          rw [if_neg hz, if_neg hz, if_pos (by omega), if_pos (by omega), h3 (.inl hp)]
          funext f
          exact blend_scaled _ _ _ _
      · simp only [Bool.true_eq_false, and_false, if_false, ite_self] at hi ⊢
        exact h4 hi
    | false =>
      have hI : I := by simpa using hu
      simp only [Bool.false_eq_true, if_false, h1, h2]
      refine ⟨rfl, rfl, fun _ => ?_, fun hi => h4 hi⟩
      rw [h3 (.inr hI)]
      funext f
      exact blend_scaled _ _ _ _
  | false =>
    unfold scmUpdate conditionalScm updateCovOnline
    simp only [Bool.false_eq_true, if_false, outerMean_scaled ha]
    cases u with
    | true =>
      simp only [if_true, h1, h2]
      refine ⟨by simp, by simp, fun hi => ?_, fun _ => ?_⟩
      · simp only [and_false, if_false, ite_self] at hi ⊢
        exact h3 hi
      · simp only [Nat.add_eq_right, and_true, gt_iff_lt]
        by_cases hz : s.numRnn = 0
        · simp [hz]
        · have hp : 0 < s.numRnn := Nat.pos_of_ne_zero hz
          rw [if_neg hz, if_neg hz, if_pos (by omega), if_pos (by omega), h4 (.inl hp)]
          funext f
          exact blend_scaled _ _ _ _
    | false =>
      have hI : I := by simpa using hu
      simp only [Bool.false_eq_true, if_false, h1, h2]
      refine ⟨rfl, rfl, fun hi => h3 hi, fun _ => ?_⟩
      rw [h4 (.inr hI)]
      funext f
      exact blend_scaled _ _ _ _

variable {W T : Type} [LE T] [DecidableLE T]

/-- States of a node at two levels: everything but the matrices is the same, and updating has started only when
both matrices have been written. -/
structure NodeLevel (a : K) (I : Prop) (s s' : NodeSt F n K W) : Prop where
  scm : ScmLevel a I s.scm s'.scm
  started : s'.started = s.started
  w : s'.w = s.w
  i : s'.i = s.i
  nUps : s'.nUps = s.nUps
  pos : s.started = true → 0 < s.scm.numRyy ∧ 0 < s.scm.numRnn

theorem nodeStep_level (ha : star a = a) {I : Prop} {c : NodeCfg F n K W T} (hb : c.batchInit = false)
    (hu : c.use1st = true ∨ I)
    (hv : ∀ Rnn Ryy, c.valid (fun f => a ^ 2 • Rnn f) (fun f => a ^ 2 • Ryy f) = c.valid Rnn Ryy)
    (hup : ∀ Ryy Rnn, c.upd (fun f => a ^ 2 • Ryy f) (fun f => a ^ 2 • Rnn f) = c.upd Ryy Rnn)
    {s s' : NodeSt F n K W} (h : NodeLevel a I s s') (y : Frame F n K) (vad : Bool) (t : T) (bypass : Bool) :
    NodeLevel a I (nodeStep c s y vad t bypass) (nodeStep c s' (fun f c => a * y f c) vad t bypass) := by
  have hs := scmUpdate_level ha hu c.beta h.scm y vad
  have hmono : ∀ (s : Scm F n K), s.numRyy ≤ (scmUpdate c.use1st c.beta s y vad vad).numRyy ∧
      s.numRnn ≤ (scmUpdate c.use1st c.beta s y vad vad).numRnn := by
    intro s
    unfold scmUpdate conditionalScm
    cases vad <;> cases c.use1st <;> simp
  have hm := hmono s.scm
  unfold nodeStep
  simp only
  generalize hS : scmUpdate c.use1st c.beta s.scm y vad vad = S at hs hm ⊢
  generalize scmUpdate c.use1st c.beta s'.scm (fun f c => a * y f c) vad vad = S' at hs ⊢
  have hc : checkCov c S' s'.started t = checkCov c S s.started t ∧
      (checkCov c S s.started t = true → 0 < S.numRyy ∧ 0 < S.numRnn) := by
    unfold checkCov
    rw [hb, h.started, hs.numRyy, hs.numRnn]
    simp only [Bool.false_eq_true, if_false]
    have hp : s.started = true → 0 < S.numRyy ∧ 0 < S.numRnn := fun e =>
      ⟨lt_of_lt_of_le (h.pos e).1 hm.1, lt_of_lt_of_le (h.pos e).2 hm.2⟩
    by_cases h1 : s.started = false ∧ c.startAfter ≤ t
    · rw [if_pos h1, if_pos h1]
      by_cases h2 : S.numRyy > Fintype.card n ∧ S.numRnn > Fintype.card n
      · rw [if_pos h2, if_pos h2]
        have p1 : 0 < S.numRyy := by omega
        have p2 : 0 < S.numRnn := by omega
        rw [hs.ryy (.inl p1), hs.rnn (.inl p2), hv]
        exact ⟨rfl, fun _ => ⟨p1, p2⟩⟩
      · rw [if_neg h2, if_neg h2]
        exact ⟨rfl, hp⟩
    · rw [if_neg h1, if_neg h1]
      exact ⟨rfl, hp⟩
  rw [hc.1]
  cases bypass with
  | true =>
    simp only [if_true]
    exact ⟨hs, rfl, by rw [h.i, h.w], by rw [h.i], h.nUps, hc.2⟩
  | false =>
    simp only [Bool.false_eq_true, if_false]
    by_cases hst : c.bypassAll = false ∧ checkCov c S s.started t = true
    · rw [if_pos hst, if_pos hst]
      have hp := hc.2 hst.2
      refine ⟨hs, rfl, ?_, by rw [h.i], by rw [h.nUps], hc.2⟩
      simp only
      rw [h.i, h.w, hs.ryy (.inl hp.1), hs.rnn (.inl hp.2), hup]
    · rw [if_neg hst, if_neg hst]
      exact ⟨hs, rfl, h.w, by rw [h.i], h.nUps, hc.2⟩

end

section
variable {K : Type} [Field K] [StarRing K] [DecidableEq K] {D : DanseCfg K} {a : K}

theorem coef_scaled (rows : List (List K)) (κ c : Nat) : coef (scaledM a rows) κ c = a * coef rows κ c := by
  unfold coef
  rw [scaled_getD, scaled_at0]

theorem spectra_scaled (m : Nat) (chs : List (List K)) :
    D.spectra m (scaledM a chs) = fun κ c => a * D.spectra m chs κ c := by
  funext κ c
  unfold DanseCfg.spectra rowFrame
  rw [scaled_analysisM, coef_scaled]

/-- States of a DANSE node at two levels. -/
structure DNodeLevel (a : K) (I : Prop) {B m ml : Nat} (s s' : DNode B m ml K) : Prop where
  danse : NodeLevel a I s.danse s'.danse
  loc : NodeLevel a I s.loc s'.loc
  ext : s'.ext = s.ext
  times : s'.times = s.times

theorem kind_level (ha : star a = a) (hf : D.LevelFree a) {I : Prop} (hu : D.use1st = true ∨ I) {k m : Nat}
    {s s' : NodeSt (Fin D.nb) (Fin m) K (Except PyErr (Frame (Fin D.nb) (Fin m) K))} (h : NodeLevel a I s s')
    (y : Frame (Fin D.nb) (Fin m) K) (vad : Bool) (t : ℚ) (bypass : Bool) :
    NodeLevel a I (nodeStep (D.kind k m) s y vad t bypass)
      (nodeStep (D.kind k m) s' (fun f c => a * y f c) vad t bypass) := by
  refine nodeStep_level ha rfl hu (fun Rnn Ryy => hf.2 m Rnn Ryy) (fun Ryy Rnn => ?_) h y vad t bypass
  unfold DanseCfg.kind
  simp only [hf.1]

theorem nodeUpdate_level (ha : star a = a) (hf : D.LevelFree a) {I : Prop} (hu : D.use1st = true ∨ I) {k : Nat}
    {s s' : DNode D.nb (D.dim k) (D.M k) K} (h : DNodeLevel a I s s') (o : Obs K) :
    RelE (fun p p' => DNodeLevel a I p.1 p'.1 ∧ p'.2 = p.2) (D.nodeUpdate k s o) (D.nodeUpdate k s' (o.scaled a)) := by
  unfold DanseCfg.nodeUpdate
  simp only
  have e1 : ∀ ph : Nat → Nat → K, (fun (κ : Fin D.nb) (c : Fin (D.dim k)) =>
        D.spectra (D.dim k) ((o.scaled a).loc ++ (o.scaled a).z) κ c * ph c κ) =
      fun κ c => a * (D.spectra (D.dim k) (o.loc ++ o.z) κ c * ph c κ) := by
    intro ph
    funext κ c
    change D.spectra (D.dim k) (scaledM a o.loc ++ scaledM a o.z) κ c * _ = _
    rw [← scaledM_append, spectra_scaled]
    ring
  have e2 : D.spectra (D.M k) (o.scaled a).loc = fun κ c => a * D.spectra (D.M k) o.loc κ c := spectra_scaled _ _
  have e3 : s'.times ++ [((o.scaled a).t, (o.scaled a).flags)] = s.times ++ [(o.t, o.flags)] := by
    rw [h.times]; rfl
  have e4 : (o.scaled a).t = o.t := rfl
  rw [e1, e2, e3, e4, h.danse.i]
  have hd := kind_level (k := k) ha hf hu h.danse
    (fun κ c => D.spectra (D.dim k) (o.loc ++ o.z) κ c * D.rot k (s.times ++ [(o.t, o.flags)]) c κ)
    (D.vad k s.danse.i) o.t (D.bypass k s.danse.i)
  have hl := kind_level (k := k) ha hf hu h.loc (D.spectra (D.M k) o.loc) (D.vad k s.danse.i) o.t (D.bypass k s.danse.i)
  refine RelE.bind (R := Eq) ?_ fun w w' hw => ?_
  · rw [hd.w]; exact RelE.refl _
  subst hw
  refine RelE.bind (R := Eq) ?_ fun wl wl' hw => ?_
  · rw [hl.w]; exact RelE.refl _
  subst hw
  refine ⟨⟨hd, hl, ?_, rfl⟩, ?_⟩
  · simp only [h.ext]
  · simp only [h.ext]

/-- States of two runs, the second at level `a` and with other initial matrices. -/
structure DanseLevel (a : K) (I : Prop) {cov : Nat → Nat → Nat → Nat → K} (s : DanseSt D)
    (s' : DanseSt (D.withCov cov)) : Prop where
  run : s'.run = s.run.scaled a
  node : ∀ k, DNodeLevel a I (B := D.nb) (m := D.dim k) (ml := D.M k) (s.node k) (s'.node k)

theorem danseStep_level (ha : star a = a) (h0 : a ≠ 0) (hf : D.LevelFree a) {I : Prop} (hu : D.use1st = true ∨ I)
    {cov : Nat → Nat → Nat → Nat → K} (y : Nat → List (List K)) {s : DanseSt D} {s' : DanseSt (D.withCov cov)}
    (h : DanseLevel a I s s') (ev : ℚ × Nat × EvType) :
    RelE (DanseLevel a I) (danseStep D y s ev) (danseStep (D.withCov cov) (fun q => scaledM a (y q)) s' ev) := by
  unfold danseStep
  rw [h.run]
  have hother : RelE (DanseLevel a I)
      (s.run.cfg.step y s.run.st ev >>= fun x => .ok { s with run := { s.run with st := x } })
      ((s.run.scaled a).cfg.step (fun q => scaledM a (y q)) (s.run.scaled a).st ev >>= fun x =>
        .ok { s' with run := { s.run.scaled a with st := x } }) := by
    have e : (s.run.scaled a).cfg.step (fun q => scaledM a (y q)) (s.run.scaled a).st ev =
        (s.run.cfg.step y s.run.st ev).map (GivenSt.scaled a) := scaled_step ha h0 y s.run.st ev
    rw [e]
    refine (RelE.of_map _).bind fun u v hv => ?_
    subst hv
    exact ⟨rfl, h.node⟩
  cases hty : ev.2.2 with
  | up =>
    simp only
    have e : (s.run.scaled a).cfg.observe (fun q => scaledM a (y q)) (s.run.scaled a).st ev.1 ev.2.1 =
        (s.run.cfg.observe y s.run.st ev.1 ev.2.1).map (Obs.scaled a) := scaled_observe y s.run.st ev.1 ev.2.1
    rw [e]
    refine (RelE.of_map _).bind fun o o' ho => ?_
    subst ho
    refine (nodeUpdate_level ha hf hu (h.node ev.2.1) o).bind fun r r' hr => ?_
    obtain ⟨h1, h2⟩ := hr
    have e2 : (((s.run.scaled a).cfg.record ev.2.1 ((s.run.scaled a).st.net.it ev.2.1 + 1) r'.2).setRot ev.2.1
          ((s.run.scaled a).st.net.it ev.2.1) ((D.withCov cov).rot ev.2.1 r'.1.times)) =
        ((s.run.cfg.record ev.2.1 (s.run.st.net.it ev.2.1 + 1) r.2).setRot ev.2.1
          (s.run.st.net.it ev.2.1) (D.rot ev.2.1 r.1.times)) := by
      rw [h2, h1.times]; rfl
    rw [e2]
    have e3 := scaled_step (g := ((s.run.cfg.record ev.2.1 (s.run.st.net.it ev.2.1 + 1) r.2).setRot ev.2.1
          (s.run.st.net.it ev.2.1) (D.rot ev.2.1 r.1.times))) ha h0 y s.run.st ev
    change RelE _ _ (GivenCfg.step _ _ (s.run.st.scaled a) ev >>= _)
    rw [e3]
    refine (RelE.of_map _).bind fun u v hv => ?_
    subst hv
    constructor
    · simp only [AdaptSt.scaled, AdaptSt.mk.injEq, true_and]
      funext q
      by_cases hq : q = ev.2.1
      · subst hq; simp
      · simp [Function.update_of_ne hq]
    · intro k
      by_cases hq : k = ev.2.1
      · subst hq
        simp only [Function.update_self]
        exact h1
      · simp only [Function.update_of_ne hq]
        exact h.node k
  | bc => exact hother
  | fu => exact hother
  | re => exact hother
  | tr => exact hother

theorem danseRun_level (ha : star a = a) (h0 : a ≠ 0) (hf : D.LevelFree a) {cov : Nat → Nat → Nat → Nat → K}
    (hu : D.use1st = true ∨ ∀ k κ i j, cov k κ i j = a ^ 2 * D.cov0 k κ i j) (y : Nat → List (List K)) (T : Nat)
    (evs : List (ℚ × Nat × EvType)) :
    RelE (fun s s' => s'.run = s.run.scaled a) (danseRun D y T evs)
      (danseRun (D.withCov cov) (fun q => scaledM a (y q)) T evs) := by
  have hi : DanseLevel a (∀ k κ i j, cov k κ i j = a ^ 2 * D.cov0 k κ i j) (DanseSt.init D T)
      (DanseSt.init (D.withCov cov) T) := by
    refine ⟨(scaled_init T D.M).symm, fun k => ?_⟩
    have hk : ∀ (m : Nat) (w : Nat → List (List K)), NodeLevel a (∀ k κ i j, cov k κ i j = a ^ 2 * D.cov0 k κ i j)
        (D.kind0 k m w) ((D.withCov cov).kind0 k m w) := by
      intro m w
      refine ⟨⟨rfl, rfl, fun h => ?_, fun h => ?_⟩, rfl, rfl, rfl, rfl, fun h => by cases h⟩ <;>
      · have h := h.resolve_left (by simp [DanseCfg.kind0])
        funext κ
        ext i j
        simp only [DanseCfg.kind0, DanseCfg.withCov, Matrix.smul_apply, Matrix.of_apply, smul_eq_mul]
        exact h k κ i j
    exact ⟨hk _ _, hk _ _, rfl, rfl⟩
  have := RelE.foldlM (fun u v e h => danseStep_level ha h0 hf hu y h e) evs hi
  unfold danseRun
  revert this
  generalize List.foldlM (danseStep D y) (DanseSt.init D T) evs = x
  generalize List.foldlM (danseStep (D.withCov cov) fun q => scaledM a (y q)) (DanseSt.init (D.withCov cov) T) evs = x'
  intro this
  cases x <;> cases x' <;> first | exact this | exact this.elim | exact this.run

theorem inv_smul_field {m : Nat} {c : K} (hc : c ≠ 0) {A : Matrix (Fin m) (Fin m) K} (h : A.det ≠ 0) :
    (c • A)⁻¹ = c⁻¹ • A⁻¹ := by
  have := Matrix.inv_smul' (A := A) (Units.mk0 c hc) (Ne.isUnit h)
  simpa [Units.smul_def] using this

end
end Danse
