import Verif.Proofs.Gain2

/-!
# Helper lemmas for C125: covariance matrices and filters of a DANSE run, microphones with gains
-/

set_option linter.unusedSectionVars false

namespace Danse

theorem RelE.foldlM_mem {α β γ : Type} {R : α → β → Prop} {f : α → γ → Except PyErr α} {g : β → γ → Except PyErr β}
    (l : List γ) (h : ∀ u v, ∀ e ∈ l, R u v → RelE R (f u e) (g v e)) {u : α} {v : β} (huv : R u v) :
    RelE R (l.foldlM f u) (l.foldlM g v) := by
  induction l generalizing u v with
  | nil => exact huv
  | cons e l ih =>
    simp only [List.foldlM_cons]
    exact (h u v e (by simp) huv).bind fun _ _ h' => ih (fun u v e he => h u v e (List.mem_cons_of_mem _ he)) h'

section
variable {F K : Type} {m : Nat} [Field K] [StarRing K] {g : Nat → K}

/-- Covariance matrices of the same frames without and with gains. -/
structure ScmGain (g : Nat → K) (s s' : Scm F (Fin m) K) : Prop where
  numRyy : s'.numRyy = s.numRyy
  numRnn : s'.numRnn = s.numRnn
  ryy : 0 < s.numRyy → s'.ryy = fun f => gainedCov g (s.ryy f)
  rnn : 0 < s.numRnn → s'.rnn = fun f => gainedCov g (s.rnn f)

theorem outerMean_gained (hg : ∀ c, star (g c) = g c) (y : Frame F (Fin m) K) :
    outerMean (fun f (c : Fin m) => g c * y f c) = fun f => gainedCov g (outerMean y f) := by
  funext f
  ext i j
  simp only [outerMean, gainedCov, Matrix.smul_apply, Matrix.of_apply, star_mul, hg, smul_eq_mul]
  ring

theorem blend_gained (g : Nat → K) (β : K) (A B : Matrix (Fin m) (Fin m) K) :
    β • gainedCov g A + (1 - β) • gainedCov g B = gainedCov g (β • A + (1 - β) • B) := by
  ext i j
  simp only [gainedCov, Matrix.add_apply, Matrix.smul_apply, Matrix.of_apply, smul_eq_mul]
  ring

theorem scmUpdate_gain (hg : ∀ c, star (g c) = g c) (β : K)
    {s s' : Scm F (Fin m) K} (h : ScmGain g s s') (y : Frame F (Fin m) K) (vad : Bool) :
    ScmGain g (scmUpdate true β s y vad vad) (scmUpdate true β s' (fun f c => g c * y f c) vad vad) := by
  obtain ⟨h1, h2, h3, h4⟩ := h
  cases vad with
  | true =>
    unfold scmUpdate conditionalScm updateCovOnline
    simp only [if_true, outerMean_gained hg, h1, h2]
    refine ⟨by simp, by simp, fun _ => ?_, fun hi => ?_⟩
    · simp only [Nat.add_eq_right, and_true, gt_iff_lt]
      by_cases hz : s.numRyy = 0
      · simp [hz]
      · have hp : 0 < s.numRyy := Nat.pos_of_ne_zero hz
        rw [if_neg hz, if_neg hz, if_pos (by omega), if_pos (by omega), h3 hp]
        funext f
        exact blend_gained _ _ _ _
    · simp only [Bool.true_eq_false, and_false, if_false, ite_self] at hi ⊢
      exact h4 hi
  | false =>
    unfold scmUpdate conditionalScm updateCovOnline
    simp only [Bool.false_eq_true, if_false, if_true, outerMean_gained hg, h1, h2]
    refine ⟨by simp, by simp, fun hi => ?_, fun _ => ?_⟩
    · simp only [and_false, if_false, ite_self] at hi ⊢
      exact h3 hi
    · simp only [Nat.add_eq_right, and_true, gt_iff_lt]
      by_cases hz : s.numRnn = 0
      · simp [hz]
      · have hp : 0 < s.numRnn := Nat.pos_of_ne_zero hz
        rw [if_neg hz, if_neg hz, if_pos (by omega), if_pos (by omega), h4 hp]
        funext f
        exact blend_gained _ _ _ _

variable {W T : Type} [LE T] [DecidableLE T] {τ : W → W}

/-- States of a node without and with gains; the filters are changed by `τ`. -/
structure NodeGain (g : Nat → K) (τ : W → W) (s s' : NodeSt F (Fin m) K W) : Prop where
  scm : ScmGain g s.scm s'.scm
  started : s'.started = s.started
  w : ∀ j, s'.w j = τ (s.w j)
  i : s'.i = s.i
  nUps : s'.nUps = s.nUps
  pos : s.started = true → 0 < s.scm.numRyy ∧ 0 < s.scm.numRnn

theorem nodeStep_gain (hg : ∀ c, star (g c) = g c) {c : NodeCfg F (Fin m) K W T} (hb : c.batchInit = false)
    (hu : c.use1st = true)
    (hv : ∀ Rnn Ryy, c.valid (fun f => gainedCov g (Rnn f)) (fun f => gainedCov g (Ryy f)) = c.valid Rnn Ryy)
    (hup : ∀ Ryy Rnn, c.upd (fun f => gainedCov g (Ryy f)) (fun f => gainedCov g (Rnn f)) = τ (c.upd Ryy Rnn))
    {s s' : NodeSt F (Fin m) K W} (h : NodeGain g τ s s') (y : Frame F (Fin m) K) (vad : Bool) (t : T) (bypass : Bool) :
    NodeGain g τ (nodeStep c s y vad t bypass) (nodeStep c s' (fun f c => g c * y f c) vad t bypass) := by
  have hs := scmUpdate_gain hg c.beta h.scm y vad
  rw [← hu] at hs
  have hmono : ∀ (s : Scm F (Fin m) K), s.numRyy ≤ (scmUpdate c.use1st c.beta s y vad vad).numRyy ∧
      s.numRnn ≤ (scmUpdate c.use1st c.beta s y vad vad).numRnn := by
    intro s
    unfold scmUpdate conditionalScm
    cases vad <;> cases c.use1st <;> simp
  have hm := hmono s.scm
  unfold nodeStep
  simp only
  generalize hS : scmUpdate c.use1st c.beta s.scm y vad vad = S at hs hm ⊢
  generalize scmUpdate c.use1st c.beta s'.scm (fun f c => g c * y f c) vad vad = S' at hs ⊢
  have hc : checkCov c S' s'.started t = checkCov c S s.started t ∧
      (checkCov c S s.started t = true → 0 < S.numRyy ∧ 0 < S.numRnn) := by
    unfold checkCov
    rw [hb, h.started, hs.numRyy, hs.numRnn]
    simp only [Bool.false_eq_true, if_false]
    have hp : s.started = true → 0 < S.numRyy ∧ 0 < S.numRnn := fun e =>
      ⟨lt_of_lt_of_le (h.pos e).1 hm.1, lt_of_lt_of_le (h.pos e).2 hm.2⟩
    by_cases h1 : s.started = false ∧ c.startAfter ≤ t
    · rw [if_pos h1, if_pos h1]
      by_cases h2 : S.numRyy > Fintype.card (Fin m) ∧ S.numRnn > Fintype.card (Fin m)
      · rw [if_pos h2, if_pos h2]
        have p1 : 0 < S.numRyy := by omega
        have p2 : 0 < S.numRnn := by omega
        rw [hs.ryy p1, hs.rnn p2, hv]
        exact ⟨rfl, fun _ => ⟨p1, p2⟩⟩
      · rw [if_neg h2, if_neg h2]
        exact ⟨rfl, hp⟩
    · rw [if_neg h1, if_neg h1]
      exact ⟨rfl, hp⟩
  rw [hc.1]
  cases bypass with
  | true =>
    simp only [if_true]
    refine ⟨hs, rfl, fun j => ?_, by rw [h.i], h.nUps, hc.2⟩
    simp only [h.i]
    split_ifs
    · exact h.w _
    · exact h.w _
  | false =>
    simp only [Bool.false_eq_true, if_false]
    by_cases hst : c.bypassAll = false ∧ checkCov c S s.started t = true
    · rw [if_pos hst, if_pos hst]
      have hp := hc.2 hst.2
      refine ⟨hs, rfl, fun j => ?_, by rw [h.i], by rw [h.nUps], hc.2⟩
      simp only [h.i]
      split_ifs
      · rw [hs.ryy hp.1, hs.rnn hp.2, hup]
      · exact h.w _
    · rw [if_neg hst, if_neg hst]
      exact ⟨hs, rfl, h.w, by rw [h.i], h.nUps, hc.2⟩

end

section
variable {K : Type} [Field K]

/-- A filter (or frame), each channel times a factor. -/
def gainedF {B m : Nat} (f : Nat → K) (w : Frame (Fin B) (Fin m) K) : Frame (Fin B) (Fin m) K := fun κ c => f c * w κ c

theorem coef_gained (f : Nat → K) (rows : List (List K)) (κ c : Nat) :
    coef (gained f rows) κ c = f c * coef rows κ c := by
  unfold coef
  rw [gained_getD, scaled_at0]

theorem rowFrame_gained (f : Nat → K) (B m : Nat) (rows : List (List K)) :
    rowFrame B m (gained f rows) = gainedF f (rowFrame B m rows) := by
  funext κ c
  exact coef_gained _ _ _ _

theorem frameRow_gained (f : Nat → K) {B m : Nat} (w : Frame (Fin B) (Fin m) K) :
    frameRow (gainedF f w) = gained f (frameRow w) := by
  unfold frameRow
  apply List.ext_getElem?
  intro i
  simp only [gained_eq, List.getElem?_mapIdx, List.getElem?_ofFn]
  split_ifs with h
  · simp only [Option.map_some, Option.some.injEq, scaled, List.map_ofFn]
    rfl
  · rfl

theorem seqBins_gained {B m : Nat} (f : Nat → K) {u u' : Fin B → Except PyErr (Fin m → K)}
    (h : ∀ κ, u' κ = (u κ).map fun w (c : Fin m) => f c * w c) : seqBins u' = (seqBins u).map (gainedF f) := by
  unfold seqBins
  have := mapM_map_comm (f := (id : Fin B → Fin B)) (k := u) (k' := u') (g := fun (w : Fin m → K) (c : Fin m) => f c * w c) h
    (List.finRange B)
  rw [List.map_id] at this
  rw [this]
  refine map_bind_comm fun l => ?_
  change Except.ok _ = Except.ok _
  congr 1
  funext κ c
  simp only [gainedF, List.getD_eq_getElem?_getD, List.getElem?_map]
  cases l[κ.val]? <;> simp

variable [StarRing K] [DecidableEq K] {D : DanseCfg K} {H : Mics K}

theorem spectra_gained (f : Nat → K) (m : Nat) (chs : List (List K)) :
    D.spectra m (gained f chs) = fun κ (c : Fin m) => f c * D.spectra m chs κ c := by
  unfold DanseCfg.spectra
  rw [gained_analysisM, rowFrame_gained]
  rfl

theorem kind_gain {g : Nat → K} (hg : RealGains g) (hf : D.GainFree) (hu : D.use1st = true) {k m : Nat} {ρ : K}
    (hr : g D.g.refSensor = ρ)
    {s s' : NodeSt (Fin D.nb) (Fin m) K (Except PyErr (Frame (Fin D.nb) (Fin m) K))}
    (h : NodeGain g (Except.map (gainedF fun c => ρ / g c)) s s') (y : Frame (Fin D.nb) (Fin m) K) (vad : Bool)
    (t : ℚ) (bypass : Bool) :
    NodeGain g (Except.map (gainedF fun c => ρ / g c)) (nodeStep (D.kind k m) s y vad t bypass)
      (nodeStep (D.kind k m) s' (fun f c => g c * y f c) vad t bypass) := by
  refine nodeStep_gain (fun c => (hg c).1) rfl hu (fun Rnn Ryy => (hf g hg).2 m Rnn Ryy) (fun Ryy Rnn => ?_) h y vad t bypass
  refine seqBins_gained _ fun κ => ?_
  rw [(hf g hg).1, hr]

/-- `update_external_filters` commutes with factors for the channels, if that of the reference sensor is 1. -/
theorem extStep_gain {k : Nat} {f : Nat → K} (hf : f D.g.refSensor = 1)
    (s : ExtSt (Frame (Fin D.nb) (Fin (D.M k)) K) ℚ) (w : Frame (Fin D.nb) (Fin (D.M k)) K) (t : ℚ) :
    extStep (D.ext k) ⟨gainedF f s.ext, gainedF f s.target, s.last⟩ (gainedF f w) (some t) =
      ⟨gainedF f (extStep (D.ext k) s w (some t)).ext, gainedF f (extStep (D.ext k) s w (some t)).target,
        (extStep (D.ext k) s w (some t)).last⟩ := by
  have hsel : gainedF f (D.ext k).refSel = (D.ext k).refSel := by
    funext κ c
    simp only [gainedF, DanseCfg.ext]
    split_ifs with h
    · rw [h, hf, one_mul]
    · rw [mul_zero]
  have hlin : ∀ (a b : K) (x y : Frame (Fin D.nb) (Fin (D.M k)) K),
      a • gainedF f x + b • gainedF f y = gainedF f (a • x + b • y) := by
    intro a b x y
    funext κ c
    simp only [gainedF, Pi.add_apply, Pi.smul_apply, smul_eq_mul]
    ring
  unfold extStep
  split_ifs
  · simp only [hsel]
  · rfl
  · rfl
  · simp only
    split_ifs <;> simp only [hlin]

/-- States of a DANSE node without and with gains. -/
structure DNodeGain (H : Mics K) (k : Nat) {B m ml : Nat} (s s' : DNode B m ml K) : Prop where
  danse : NodeGain (H.all k) (Except.map (gainedF (H.fInt k))) s.danse s'.danse
  loc : NodeGain (H.γ k) (Except.map (gainedF (H.fLoc k))) s.loc s'.loc
  ext : s'.ext = ⟨gainedF (H.fLoc k) s.ext.ext, gainedF (H.fLoc k) s.ext.target, s.ext.last⟩
  times : s'.times = s.times

theorem nodeUpdate_gain (hH : H.Real) (hM : H.M = D.M) (hrr : H.r = D.g.refSensor) (hf : D.GainFree)
    (hu : D.use1st = true) {k : Nat} (hr : D.g.refSensor < D.M k)
    {s s' : DNode D.nb (D.dim k) (D.M k) K} (h : DNodeGain H k s s') {o : Obs K} (ho : o.loc.length = D.M k) :
    RelE (fun r r' => DNodeGain H k r.1 r'.1 ∧ r'.2 = r.2.gained H k) (D.nodeUpdate k s o)
      (D.nodeUpdate k s' (o.gained H k)) := by
  unfold DanseCfg.nodeUpdate
  simp only
  have e3 : s'.times ++ [((o.gained H k).t, (o.gained H k).flags)] = s.times ++ [(o.t, o.flags)] := by
    rw [h.times]; rfl
  have e1 : (fun (κ : Fin D.nb) (c : Fin (D.dim k)) => D.spectra (D.dim k) ((o.gained H k).loc ++ (o.gained H k).z) κ c *
        D.rot k (s.times ++ [(o.t, o.flags)]) c κ) =
      fun κ (c : Fin (D.dim k)) => H.all k c * (D.spectra (D.dim k) (o.loc ++ o.z) κ c * D.rot k (s.times ++ [(o.t, o.flags)]) c κ) := by
    funext κ c
    have : (o.gained H k).loc ++ (o.gained H k).z = gained (H.all k) (o.loc ++ o.z) :=
      gained_channels (by rw [hM]; exact ho) (by rw [hM, hrr]; exact hr)
    rw [this, spectra_gained, mul_assoc]
  have e2 : D.spectra (D.M k) (o.gained H k).loc = fun κ (c : Fin (D.M k)) => H.γ k c * D.spectra (D.M k) o.loc κ c := spectra_gained _ _ _
  have e4 : (o.gained H k).t = o.t := rfl
  rw [e3, e1, e2, e4, h.danse.i]
  have hall : H.all k D.g.refSensor = H.ref k := by
    unfold Mics.all Mics.ref
    rw [if_pos (.inr hrr.symm), hrr]
  have hd := kind_gain (D := D) (g := H.all k) (ρ := H.ref k) (fun c => hH.all k c) hf hu (k := k) hall h.danse
    (fun κ c => D.spectra (D.dim k) (o.loc ++ o.z) κ c * D.rot k (s.times ++ [(o.t, o.flags)]) c κ)
    (D.vad k s.danse.i) o.t (D.bypass k s.danse.i)
  have hl := kind_gain (D := D) (g := H.γ k) (ρ := H.ref k) (fun c => hH k c) hf hu (k := k)
    (by unfold Mics.ref; rw [hrr]) h.loc (D.spectra (D.M k) o.loc) (D.vad k s.danse.i) o.t (D.bypass k s.danse.i)
  refine RelE.bind (R := fun w w' => w' = gainedF (H.fInt k) w) ?_ fun w w' hw => ?_
  · rw [hd.w]; exact RelE.of_map _
  subst hw
  refine RelE.bind (R := fun w w' => w' = gainedF (H.fLoc k) w) ?_ fun wl wl' hw => ?_
  · rw [hl.w]; exact RelE.of_map _
  subst hw
  have hloc : localPart (D.M k) (D.g.nb k).length (gainedF (H.fInt k) w) =
      gainedF (H.fLoc k) (localPart (D.M k) (D.g.nb k).length w) := by
    funext κ c
    simp only [localPart, gainedF, Mics.fInt, Mics.fLoc, Mics.all, Fin.val_castAdd, hM, c.isLt, true_or, if_true]
  have hone : H.fLoc k D.g.refSensor = 1 := by
    unfold Mics.fLoc
    rw [← hrr]
    exact div_self (hH k H.r).2
  have hext := extStep_gain (D := D) (k := k) (f := H.fLoc k) hone s.ext (localPart (D.M k) (D.g.nb k).length w) o.t
  rw [← hloc, ← h.ext] at hext
  refine ⟨⟨hd, hl, hext, rfl⟩, ?_⟩
  simp only [hext, frameRow_gained]
  rfl

/-- States of two runs, the second with gains. -/
structure DanseGain (H : Mics K) (s s' : DanseSt D) : Prop where
  run : s'.run = s.run.gained H
  nb : s.run.cfg.nb = D.g.nb
  node : ∀ k, DNodeGain H k (s.node k) (s'.node k)

theorem gained_record (cfg : GivenCfg K) (k i : Nat) (w : Rows K) :
    (cfg.gained H).record k i (w.gained H k) = (cfg.record k i w).gained H := by
  unfold GivenCfg.record GivenCfg.gained
  simp only [GivenCfg.mk.injEq, true_and, and_true]
  refine ⟨?_, ?_, ?_⟩ <;>
  · funext q j
    by_cases hq : q = k
    · subst hq
      simp only [Function.update_self]
      by_cases hj : j = i
      · subst hj; simp [Rows.gained]
      · simp [Function.update_of_ne hj]
    · simp [Function.update_of_ne hq]

theorem gained_setRot (cfg : GivenCfg K) (k i : Nat) (r : Nat → Nat → K) :
    (cfg.gained H).setRot k i r = (cfg.setRot k i r).gained H := rfl

theorem danseStep_gain (hH : H.Real) (hM : H.M = D.M) (hrr : H.r = D.g.refSensor) (hn : H.nb = D.g.nb) (hf : D.GainFree)
    (hu : D.use1st = true) {y : Nat → List (List K)} {s s' : DanseSt D} {ev : ℚ × Nat × EvType}
    (hy : (y ev.2.1).length = D.M ev.2.1) (hr : D.g.refSensor < D.M ev.2.1) (h : DanseGain H s s') :
    RelE (DanseGain H) (danseStep D y s ev) (danseStep D (fun q => gained (H.γ q) (y q)) s' ev) := by
  have hy' : (y ev.2.1).length = H.M ev.2.1 := by rw [hM, hy]
  have hr' : H.r < H.M ev.2.1 := by rw [hM, hrr]; exact hr
  have hnb : H.nb = s.run.cfg.nb := by rw [hn, h.nb]
  unfold danseStep
  rw [h.run]
  have hother : RelE (DanseGain H)
      (s.run.cfg.step y s.run.st ev >>= fun x => .ok { s with run := { s.run with st := x } })
      ((s.run.gained H).cfg.step (fun q => gained (H.γ q) (y q)) (s.run.gained H).st ev >>= fun x =>
        .ok { s' with run := { s.run.gained H with st := x } }) := by
    have e : (s.run.gained H).cfg.step (fun q => gained (H.γ q) (y q)) (s.run.gained H).st ev =
        (s.run.cfg.step y s.run.st ev).map (GivenSt.gained H) := gained_step hH hnb s.run.st ev hy' hr'
    rw [e]
    refine (RelE.of_map _).bind fun u v hv => ?_
    subst hv
    exact ⟨rfl, h.nb, h.node⟩
  cases hty : ev.2.2 with
  | up =>
    simp only
    have e : (s.run.gained H).cfg.observe (fun q => gained (H.γ q) (y q)) (s.run.gained H).st ev.1 ev.2.1 =
        (s.run.cfg.observe y s.run.st ev.1 ev.2.1).map (Obs.gained H ev.2.1) := gained_observe hnb y s.run.st ev.1 ev.2.1
    rw [e]
    cases ho : s.run.cfg.observe y s.run.st ev.1 ev.2.1 with
    | error er => rfl
    | ok o =>
      have hlen : o.loc.length = D.M ev.2.1 := by
        unfold GivenCfg.observe at ho
        obtain ⟨n, -, ho⟩ := bind_ok_inv ho
        obtain ⟨l, hl, ho⟩ := bind_ok_inv ho
        injection ho with ho
        subst ho
        rw [List.length_map, (mapM_get hl).1, hy]
      simp only [Except.map, Except.bind_ok]
      refine (nodeUpdate_gain hH hM hrr hf hu hr (h.node ev.2.1) hlen).bind fun r r' hr => ?_
      obtain ⟨h1, h2⟩ := hr
      have e2 : (((s.run.gained H).cfg.record ev.2.1 ((s.run.gained H).st.net.it ev.2.1 + 1) r'.2).setRot ev.2.1
            ((s.run.gained H).st.net.it ev.2.1) (D.rot ev.2.1 r'.1.times)) =
          ((s.run.cfg.record ev.2.1 (s.run.st.net.it ev.2.1 + 1) r.2).setRot ev.2.1
            (s.run.st.net.it ev.2.1) (D.rot ev.2.1 r.1.times)).gained H := by
        rw [h2, h1.times, ← gained_setRot, ← gained_record]; rfl
      rw [e2]
      have e3 := gained_step (g := ((s.run.cfg.record ev.2.1 (s.run.st.net.it ev.2.1 + 1) r.2).setRot ev.2.1
            (s.run.st.net.it ev.2.1) (D.rot ev.2.1 r.1.times))) hH hnb s.run.st ev hy' hr'
      change RelE _ _ (GivenCfg.step _ _ (s.run.st.gained H) ev >>= _)
      rw [e3]
      refine (RelE.of_map _).bind fun u v hv => ?_
      subst hv
      refine ⟨?_, h.nb, fun k => ?_⟩
      · simp only [AdaptSt.gained, AdaptSt.mk.injEq, true_and]
        funext q
        by_cases hq : q = ev.2.1
        · subst hq; simp
        · simp [Function.update_of_ne hq]
      · by_cases hq : k = ev.2.1
        · subst hq
          simp only [Function.update_self]
          exact h1
        · simp only [Function.update_of_ne hq]
          exact h.node k
  | bc => exact hother
  | fu => exact hother
  | re => exact hother
  | tr => exact hother

theorem danseRun_gain (hH : H.Real) (hM : H.M = D.M) (hrr : H.r = D.g.refSensor) (hn : H.nb = D.g.nb) (hf : D.GainFree)
    (hu : D.use1st = true) (hsel : D.SelectsRef) {y : Nat → List (List K)} (T : Nat) {evs : List (ℚ × Nat × EvType)}
    (hy : ∀ ev ∈ evs, (y ev.2.1).length = D.M ev.2.1 ∧ D.g.refSensor < D.M ev.2.1) :
    RelE (fun s s' => s'.run = s.run.gained H) (danseRun D y T evs) (danseRun D (fun q => gained (H.γ q) (y q)) T evs) := by
  have h1 : ∀ k, H.fInt k D.g.refSensor = 1 := fun k => by
    unfold Mics.fInt Mics.all Mics.ref
    rw [if_pos (.inr hrr.symm), ← hrr]
    exact div_self (hH k _).2
  have h2 : ∀ k, H.fLoc k D.g.refSensor = 1 := fun k => by
    unfold Mics.fLoc Mics.ref
    rw [← hrr]
    exact div_self (hH k _).2
  have hF : ∀ (f : Nat → K) (B m : Nat) (w : List (List K)), Selects D.g.refSensor w → f D.g.refSensor = 1 →
      rowFrame B m w = gainedF f (rowFrame B m w) := by
    intro f B m w hw h
    rw [← rowFrame_gained, gained_selects hw h]
  have hcfg : D.g.gained H = D.g := by
    unfold GivenCfg.gained
    have e1 : (fun k i => gained (H.fInt k) (D.g.wInt k i)) = D.g.wInt := by
      funext k i; exact gained_selects (hsel.int k i) (h1 k)
    have e2 : (fun k i => gained (H.fLoc k) (D.g.wExt k i)) = D.g.wExt := by
      funext k i; exact gained_selects (hsel.ext k i) (h2 k)
    have e3 : (fun k i => gained (H.fLoc k) (D.g.wLoc k i)) = D.g.wLoc := by
      funext k i; exact gained_selects (hsel.loc k i) (h2 k)
    rw [e1, e2, e3]
  have hwIR : ∀ k, gained (H.fLoc k) ((GivenSt.init D.g.N D.g.refSensor T D.M).wIR k) =
      (GivenSt.init D.g.N D.g.refSensor T D.M : GivenSt K).wIR k := by
    intro k
    refine gained_selects (r := D.g.refSensor) (fun c hc v hv => ?_) (h2 k)
    simp only [GivenSt.init, List.getD_eq_getElem?_getD, List.getElem?_map] at hv
    by_cases hlt : c < D.M k
    · rw [List.getElem?_range hlt] at hv
      simp only [Option.map_some, Option.getD_some, if_neg hc] at hv
      exact (List.mem_replicate.mp hv).2
    · rw [List.getElem?_eq_none (by simpa using hlt)] at hv
      simp at hv
  have hi : DanseGain H (DanseSt.init D T) (DanseSt.init D T) := by
    refine ⟨?_, rfl, fun k => ?_⟩
    · simp only [DanseSt.init, AdaptSt.init, AdaptSt.gained, AdaptSt.mk.injEq, List.map_nil, and_true, hcfg, true_and]
      have : (GivenSt.init D.g.N D.g.refSensor T D.M : GivenSt K).gained H =
          { (GivenSt.init D.g.N D.g.refSensor T D.M : GivenSt K) with
            wIR := fun k => gained (H.fLoc k) ((GivenSt.init D.g.N D.g.refSensor T D.M).wIR k) } := by
        simp [GivenSt.init, GivenSt.gained, NetSt.init, NetSt.gained, scaled, gained]
      rw [this]
      simp only [hwIR]
    · have hk : ∀ (m : Nat) (w : Nat → List (List K)) (g f : Nat → K), (∀ j, Selects D.g.refSensor (w j)) →
          f D.g.refSensor = 1 → NodeGain g (Except.map (gainedF f)) (D.kind0 k m w) (D.kind0 k m w) := by
        intro m w g f hw h
        refine ⟨⟨rfl, rfl, fun h => by simp [DanseCfg.kind0] at h, fun h => by simp [DanseCfg.kind0] at h⟩, rfl,
          fun j => ?_, rfl, rfl, fun h => by cases h⟩
        exact congrArg Except.ok (hF f _ _ _ (hw j) h)
      refine ⟨hk _ _ _ _ (hsel.int k) (h1 k), hk _ _ _ _ (hsel.loc k) (h2 k), ?_, rfl⟩
      simp only [DanseSt.init, DanseCfg.node0, ExtSt.mk.injEq, and_true]
      exact ⟨hF _ _ _ _ (hsel.ext k 0) (h2 k), hF _ _ _ _ (hsel.target k) (h2 k)⟩
  have := RelE.foldlM_mem evs (fun u v e he h => danseStep_gain hH hM hrr hn hf hu (hy e he).1 (hy e he).2 h) hi
  unfold danseRun
  revert this
  generalize List.foldlM (danseStep D y) (DanseSt.init D T) evs = x
  generalize List.foldlM (danseStep D fun q => gained (H.γ q) (y q)) (DanseSt.init D T) evs = x'
  intro this
  cases x <;> cases x' <;> first | exact this | exact this.elim | exact this.run

end
end Danse
