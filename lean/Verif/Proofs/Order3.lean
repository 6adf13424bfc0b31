import Verif.Proofs.Order2

/-!
# Helper lemmas for C143: covariance matrices and filters of a DANSE run, sensors in another order
-/

set_option linter.unusedSectionVars false

namespace Danse

/-- The permutation of the first `m` numbers. -/
def finPerm (σ : Equiv.Perm Nat) (m : Nat) (h : Stable σ m) : Equiv.Perm (Fin m) where
  toFun c := ⟨σ c, (h c).2 c.2⟩
  invFun c := ⟨σ.symm c, (h _).1 (by simp [c.2])⟩
  left_inv c := by simp
  right_inv c := by simp

section
variable {F K : Type} {m : Nat} [Field K] [StarRing K] {π : Equiv.Perm (Fin m)} {P : Prop}

/-- Covariance matrices of the same frames in the two orders; `P`: the initial matrices agree as well. -/
structure ScmOrd (P : Prop) (π : Equiv.Perm (Fin m)) (s s' : Scm F (Fin m) K) : Prop where
  numRyy : s'.numRyy = s.numRyy
  numRnn : s'.numRnn = s.numRnn
  ryy : P ∨ 0 < s.numRyy → s'.ryy = fun f => (s.ryy f).submatrix π π
  rnn : P ∨ 0 < s.numRnn → s'.rnn = fun f => (s.rnn f).submatrix π π

theorem outerMean_ord (y : Frame F (Fin m) K) :
    outerMean (fun f (c : Fin m) => y f (π c)) = fun f => (outerMean y f).submatrix π π := by
  funext f
  ext i j
  simp [outerMean]

theorem blend_ord (β : K) (A B : Matrix (Fin m) (Fin m) K) :
    β • A.submatrix π π + (1 - β) • B.submatrix π π = (β • A + (1 - β) • B).submatrix π π := by
  ext i j
  simp

theorem scmUpdate_ord {u : Bool} (hu : u = true ∨ P) (β : K) {s s' : Scm F (Fin m) K} (h : ScmOrd P π s s')
    (y : Frame F (Fin m) K) (vad : Bool) :
    ScmOrd P π (scmUpdate u β s y vad vad) (scmUpdate u β s' (fun f c => y f (π c)) vad vad) := by
  obtain ⟨h1, h2, h3, h4⟩ := h
  cases u with
  | false =>
    have hP : P := by simpa using hu
    have h3 := h3 (.inl hP)
    have h4 := h4 (.inl hP)
    unfold scmUpdate conditionalScm updateCovOnline
    cases vad with
    | true =>
      simp only [if_true, Bool.false_eq_true, if_false, outerMean_ord, h1, h2, h3, h4]
      refine ⟨rfl, rfl, fun _ => ?_, fun _ => rfl⟩
      funext f
      exact blend_ord _ _ _
    | false =>
      simp only [Bool.false_eq_true, if_false, outerMean_ord, h1, h2, h3, h4]
      refine ⟨rfl, rfl, fun _ => rfl, fun _ => ?_⟩
      funext f
      exact blend_ord _ _ _
  | true =>
    cases vad with
    | true =>
      unfold scmUpdate conditionalScm updateCovOnline
      simp only [if_true, outerMean_ord, h1, h2]
      refine ⟨by simp, by simp, fun _ => ?_, fun hi => ?_⟩
      · simp only [Nat.add_eq_right, and_true, gt_iff_lt]
        by_cases hz : s.numRyy = 0
        · simp [hz]
        · have hp : 0 < s.numRyy := Nat.pos_of_ne_zero hz
          rw [if_neg hz, if_neg hz, if_pos (by omega), if_pos (by omega), h3 (.inr hp)]
          funext f
          exact blend_ord _ _ _
      · simp only [Bool.true_eq_false, and_false, if_false, ite_self] at hi ⊢
        exact h4 hi
    | false =>
      unfold scmUpdate conditionalScm updateCovOnline
      simp only [Bool.false_eq_true, if_false, if_true, outerMean_ord, h1, h2]
      refine ⟨by simp, by simp, fun hi => ?_, fun _ => ?_⟩
      · simp only [and_false, if_false, ite_self] at hi ⊢
        exact h3 hi
      · simp only [Nat.add_eq_right, and_true, gt_iff_lt]
        by_cases hz : s.numRnn = 0
        · simp [hz]
        · have hp : 0 < s.numRnn := Nat.pos_of_ne_zero hz
          rw [if_neg hz, if_neg hz, if_pos (by omega), if_pos (by omega), h4 (.inr hp)]
          funext f
          exact blend_ord _ _ _

variable {W T : Type} [LE T] [DecidableLE T] {τ : W → W}

/-- States of a node in the two orders; the filters are changed by `τ`. -/
structure NodeOrd (P : Prop) (π : Equiv.Perm (Fin m)) (τ : W → W) (s s' : NodeSt F (Fin m) K W) : Prop where
  scm : ScmOrd P π s.scm s'.scm
  started : s'.started = s.started
  w : ∀ j, s'.w j = τ (s.w j)
  i : s'.i = s.i
  nUps : s'.nUps = s.nUps
  pos : s.started = true → 0 < s.scm.numRyy ∧ 0 < s.scm.numRnn

theorem nodeStep_ord {c : NodeCfg F (Fin m) K W T} (hb : c.batchInit = false) (hu : c.use1st = true ∨ P)
    (hv : ∀ Rnn Ryy, c.valid (fun f => (Rnn f).submatrix π π) (fun f => (Ryy f).submatrix π π) = c.valid Rnn Ryy)
    (hup : ∀ Ryy Rnn, c.upd (fun f => (Ryy f).submatrix π π) (fun f => (Rnn f).submatrix π π) = τ (c.upd Ryy Rnn))
    {s s' : NodeSt F (Fin m) K W} (h : NodeOrd P π τ s s') (y : Frame F (Fin m) K) (vad : Bool) (t : T) (bypass : Bool) :
    NodeOrd P π τ (nodeStep c s y vad t bypass) (nodeStep c s' (fun f c => y f (π c)) vad t bypass) := by
  have hs := scmUpdate_ord hu c.beta h.scm y vad
  have hmono : ∀ (s : Scm F (Fin m) K), s.numRyy ≤ (scmUpdate c.use1st c.beta s y vad vad).numRyy ∧
      s.numRnn ≤ (scmUpdate c.use1st c.beta s y vad vad).numRnn := by
    intro s
    unfold scmUpdate conditionalScm
    cases vad <;> cases c.use1st <;> simp
  have hm := hmono s.scm
  unfold nodeStep
  simp only
  generalize hS : scmUpdate c.use1st c.beta s.scm y vad vad = S at hs hm ⊢
  generalize scmUpdate c.use1st c.beta s'.scm (fun f c => y f (π c)) vad vad = S' at hs ⊢
  have hc : checkCov c S' s'.started t = checkCov c S s.started t ∧
      (checkCov c S s.started t = true → 0 < S.numRyy ∧ 0 < S.numRnn) := by
    unfold checkCov
    rw [hb, h.started, hs.numRyy, hs.numRnn]
    simp only [Bool.false_eq_true, if_false]
    have hp : s.started = true → 0 < S.numRyy ∧ 0 < S.numRnn := fun e =>
      ⟨lt_of_lt_of_le (h.pos e).1 hm.1, lt_of_lt_of_le (h.pos e).2 hm.2⟩
    by_cases h1 : s.started = false ∧ c.startAfter ≤ t
    · rw [if_pos h1, if_pos h1]
      by_cases h2 : S.numRyy > Fintype.card (Fin m) ∧ S.numRnn > Fintype.card (Fin m)
      · rw [if_pos h2, if_pos h2]
        have p1 : 0 < S.numRyy := by omega
        have p2 : 0 < S.numRnn := by omega
        rw [hs.ryy (.inr p1), hs.rnn (.inr p2), hv]
        exact ⟨rfl, fun _ => ⟨p1, p2⟩⟩
      · rw [if_neg h2, if_neg h2]
        exact ⟨rfl, hp⟩
    · rw [if_neg h1, if_neg h1]
      exact ⟨rfl, hp⟩
  rw [hc.1]
  cases bypass with
  | true =>
    simp only [if_true]
    refine ⟨hs, rfl, fun j => ?_, by rw [h.i], h.nUps, hc.2⟩
    simp only [h.i]
    split_ifs
    · exact h.w _
    · exact h.w _
  | false =>
    simp only [Bool.false_eq_true, if_false]
    by_cases hst : c.bypassAll = false ∧ checkCov c S s.started t = true
    · rw [if_pos hst, if_pos hst]
      have hp := hc.2 hst.2
      refine ⟨hs, rfl, fun j => ?_, by rw [h.i], by rw [h.nUps], hc.2⟩
      simp only [h.i]
      split_ifs
      · rw [hs.ryy (.inr hp.1), hs.rnn (.inr hp.2), hup]
      · exact h.w _
    · rw [if_neg hst, if_neg hst]
      exact ⟨hs, rfl, h.w, by rw [h.i], h.nUps, hc.2⟩

end

section
variable {K : Type} [Field K]

/-- A filter (or frame) with the channels in another order. -/
def ordF {B m : Nat} (π : Equiv.Perm (Fin m)) (w : Frame (Fin B) (Fin m) K) : Frame (Fin B) (Fin m) K := fun κ c => w κ (π c)

theorem coef_reordered {σ : Equiv.Perm Nat} {rows : List (List K)} (h : Stable σ rows.length) (κ c : Nat) :
    coef (reordered σ rows) κ c = coef rows κ (σ c) := by
  unfold coef
  rw [List.getD_eq_getElem?_getD, List.getD_eq_getElem?_getD, reordered_get h]

theorem rowFrame_reordered {σ : Equiv.Perm Nat} {rows : List (List K)} (h : Stable σ rows.length) (B m : Nat)
    (hm : Stable σ m) : rowFrame B m (reordered σ rows) = ordF (finPerm σ m hm) (rowFrame B m rows) := by
  funext κ c
  exact coef_reordered h _ _

theorem frameRow_length {B m : Nat} (w : Frame (Fin B) (Fin m) K) : (frameRow w).length = m := by simp [frameRow]

theorem frameRow_ord {σ : Equiv.Perm Nat} {B m : Nat} (hm : Stable σ m) (w : Frame (Fin B) (Fin m) K) :
    frameRow (ordF (finPerm σ m hm) w) = reordered σ (frameRow w) := by
  apply List.ext_getElem?
  intro i
  rw [reordered_get (by rw [frameRow_length]; exact hm)]
  unfold frameRow
  simp only [List.getElem?_ofFn]
  by_cases h : i < m
  · rw [dif_pos h, dif_pos ((hm i).2 h)]
    rfl
  · rw [dif_neg h, dif_neg (fun h' => h ((hm i).1 h'))]

theorem seqBins_ord {B m : Nat} {π : Equiv.Perm (Fin m)} {u u' : Fin B → Except PyErr (Fin m → K)}
    (h : ∀ κ, u' κ = (u κ).map fun w => w ∘ π) : seqBins u' = (seqBins u).map (ordF π) := by
  unfold seqBins
  have := mapM_map_comm (f := (id : Fin B → Fin B)) (k := u) (k' := u') (g := fun (w : Fin m → K) => w ∘ π) h
    (List.finRange B)
  rw [List.map_id] at this
  rw [this]
  refine map_bind_comm fun l => ?_
  change Except.ok _ = Except.ok _
  congr 1
  funext κ c
  simp only [ordF, List.getD_eq_getElem?_getD, List.getElem?_map]
  cases l[κ.val]? <;> simp

variable [StarRing K] [DecidableEq K] {D : DanseCfg K} {σ : Nat → Equiv.Perm Nat}

theorem spectra_reordered {τ : Equiv.Perm Nat} {m : Nat} (hm : Stable τ m) {chs : List (List K)} (h : Stable τ chs.length) :
    D.spectra m (reordered τ chs) = ordF (finPerm τ m hm) (D.spectra m chs) := by
  unfold DanseCfg.spectra
  rw [reordered_map h, rowFrame_reordered (by rw [List.length_map]; exact h)]

theorem kind_ord {P : Prop} (hf : D.OrderFree) (hu : D.use1st = true ∨ P) {k m : Nat} {π : Equiv.Perm (Fin m)}
    (hr : ∃ h : D.g.refSensor < m, π ⟨_, h⟩ = ⟨_, h⟩)
    {s s' : NodeSt (Fin D.nb) (Fin m) K (Except PyErr (Frame (Fin D.nb) (Fin m) K))}
    (h : NodeOrd P π (Except.map (ordF π)) s s') (y : Frame (Fin D.nb) (Fin m) K) (vad : Bool) (t : ℚ) (bypass : Bool) :
    NodeOrd P π (Except.map (ordF π)) (nodeStep (D.kind k m) s y vad t bypass)
      (nodeStep (D.kind k m) s' (ordF π y) vad t bypass) := by
  obtain ⟨hlt, hr⟩ := hr
  refine nodeStep_ord rfl hu (fun Rnn Ryy => (hf m π).2 Rnn Ryy) (fun Ryy Rnn => ?_) h y vad t bypass
  refine seqBins_ord fun κ => ?_
  exact (hf m π).1 ⟨_, hlt⟩ hr _ _

/-- `update_external_filters` commutes with the order of the channels. -/
theorem extStep_ord {k : Nat} {π : Equiv.Perm (Fin (D.M k))} (hr : ∃ h : D.g.refSensor < D.M k, π ⟨_, h⟩ = ⟨_, h⟩)
    (s : ExtSt (Frame (Fin D.nb) (Fin (D.M k)) K) ℚ) (w : Frame (Fin D.nb) (Fin (D.M k)) K) (t : ℚ) :
    extStep (D.ext k) ⟨ordF π s.ext, ordF π s.target, s.last⟩ (ordF π w) (some t) =
      ⟨ordF π (extStep (D.ext k) s w (some t)).ext, ordF π (extStep (D.ext k) s w (some t)).target,
        (extStep (D.ext k) s w (some t)).last⟩ := by
  obtain ⟨hlt, hr⟩ := hr
  have hsel : ordF π (D.ext k).refSel = (D.ext k).refSel := by
    funext κ c
    simp only [ordF, DanseCfg.ext]
    have : (π c).val = D.g.refSensor ↔ c.val = D.g.refSensor := by
      constructor
      · intro e
        have : π c = π ⟨_, hlt⟩ := by rw [hr]; exact Fin.ext e
        exact congrArg Fin.val (π.injective this)
      · intro e
        rw [show c = ⟨_, hlt⟩ from Fin.ext e, hr]
    simp only [this]
  have hlin : ∀ (a b : K) (x y : Frame (Fin D.nb) (Fin (D.M k)) K),
      a • ordF π x + b • ordF π y = ordF π (a • x + b • y) := fun a b x y => rfl
  unfold extStep
  split_ifs
  · simp only [hsel]
  · rfl
  · rfl
  · simp only
    split_ifs <;> simp only [hlin]

/-- States of a DANSE node in the two orders. -/
structure DNodeOrd (P : Prop) {B m ml : Nat} (π : Equiv.Perm (Fin m)) (π' : Equiv.Perm (Fin ml)) (s s' : DNode B m ml K) :
    Prop where
  danse : NodeOrd P π (Except.map (ordF π)) s.danse s'.danse
  loc : NodeOrd P π' (Except.map (ordF π')) s.loc s'.loc
  ext : s'.ext = ⟨ordF π' s.ext.ext, ordF π' s.ext.target, s.ext.last⟩
  times : s'.times = s.times

theorem nodeUpdate_ord {P : Prop} (hs : SensorOrder D.M D.g.refSensor σ) (hf : D.OrderFree) (hu : D.use1st = true ∨ P)
    (hrot : D.LocalUnrotated) {k : Nat} (hr : D.g.refSensor < D.M k) (hd : Stable (σ k) (D.dim k))
    (hl : Stable (σ k) (D.M k)) {s s' : DNode D.nb (D.dim k) (D.M k) K}
    (h : DNodeOrd P (finPerm _ _ hd) (finPerm _ _ hl) s s') {o : Obs K} (ho : o.loc.length = D.M k) :
    RelE (fun r r' => DNodeOrd P (finPerm _ _ hd) (finPerm _ _ hl) r.1 r'.1 ∧ r'.2 = r.2.reord (σ k)) (D.nodeUpdate k s o)
      (D.nodeUpdate k s' (o.reord (σ k))) := by
  unfold DanseCfg.nodeUpdate
  simp only
  have e3 : s'.times ++ [((o.reord (σ k)).t, (o.reord (σ k)).flags)] = s.times ++ [(o.t, o.flags)] := by
    rw [h.times]; rfl
  have e1 : (fun (κ : Fin D.nb) (c : Fin (D.dim k)) => D.spectra (D.dim k) ((o.reord (σ k)).loc ++ (o.reord (σ k)).z) κ c *
        D.rot k (s.times ++ [(o.t, o.flags)]) c κ) =
      ordF (finPerm _ _ hd) fun κ (c : Fin (D.dim k)) =>
        D.spectra (D.dim k) (o.loc ++ o.z) κ c * D.rot k (s.times ++ [(o.t, o.flags)]) c κ := by
    have : (o.reord (σ k)).loc ++ (o.reord (σ k)).z = reordered (σ k) (o.loc ++ o.z) :=
      reordered_append (fun n hn => hs.stable (by rw [← ho]; exact hn)) (fun c hc => hs.fix k c (by rw [← ho]; exact hc))
    rw [this, spectra_reordered hd (hs.stable (by rw [List.length_append, ho]; omega))]
    funext κ c
    simp only [ordF]
    congr 1
    by_cases hc : c.val < D.M k
    · rw [hrot k _ _ κ hc, hrot k _ _ κ]
      exact (hl c).2 hc
    · have : finPerm _ _ hd c = c := Fin.ext (hs.fix k c (by omega))
      rw [this]
  have e2 : D.spectra (D.M k) (o.reord (σ k)).loc = ordF (finPerm _ _ hl) (D.spectra (D.M k) o.loc) :=
    spectra_reordered hl (hs.stable ho.ge)
  have e4 : (o.reord (σ k)).t = o.t := rfl
  have hr1 : ∃ h : D.g.refSensor < D.dim k, finPerm _ _ hd ⟨_, h⟩ = ⟨_, h⟩ :=
    ⟨by change _ < D.M k + _; omega, Fin.ext (hs.ref k)⟩
  have hr2 : ∃ h : D.g.refSensor < D.M k, finPerm _ _ hl ⟨_, h⟩ = ⟨_, h⟩ := ⟨hr, Fin.ext (hs.ref k)⟩
  rw [e3, e1, e2, e4, h.danse.i]
  have hd' := kind_ord (D := D) hf hu (k := k) hr1 h.danse
    (fun κ c => D.spectra (D.dim k) (o.loc ++ o.z) κ c * D.rot k (s.times ++ [(o.t, o.flags)]) c κ)
    (D.vad k s.danse.i) o.t (D.bypass k s.danse.i)
  have hl' := kind_ord (D := D) hf hu (k := k) hr2 h.loc (D.spectra (D.M k) o.loc) (D.vad k s.danse.i) o.t
    (D.bypass k s.danse.i)
  refine RelE.bind (R := fun w w' => w' = ordF (finPerm _ _ hd) w) ?_ fun w w' hw => ?_
  · rw [hd'.w]; exact RelE.of_map _
  subst hw
  refine RelE.bind (R := fun w w' => w' = ordF (finPerm _ _ hl) w) ?_ fun wl wl' hw => ?_
  · rw [hl'.w]; exact RelE.of_map _
  subst hw
  have hloc : localPart (D.M k) (D.g.nb k).length (ordF (finPerm _ _ hd) w) =
      ordF (finPerm _ _ hl) (localPart (D.M k) (D.g.nb k).length w) := rfl
  have hext := extStep_ord (D := D) (k := k) hr2 s.ext (localPart (D.M k) (D.g.nb k).length w) o.t
  rw [← hloc, ← h.ext] at hext
  refine ⟨⟨hd', hl', hext, rfl⟩, ?_⟩
  simp only [hext, frameRow_ord]
  rfl

/-- States of two runs, the second one with the sensors in another order. -/
structure DanseOrd (P : Prop) (σ : Nat → Equiv.Perm Nat) (s s' : DanseSt D) : Prop where
  run : s'.run = s.run.reord σ
  cfg : s.run.cfg.Wide D.M
  st : s.run.st.Wide D.M
  node : ∀ k hd hl, DNodeOrd P (finPerm (σ k) _ hd) (finPerm (σ k) _ hl) (s.node k) (s'.node k)

theorem reord_record (cfg : GivenCfg K) (k i : Nat) (w : Rows K) :
    (cfg.reord σ).record k i (w.reord (σ k)) = (cfg.record k i w).reord σ := by
  unfold GivenCfg.record GivenCfg.reord
  simp only [GivenCfg.mk.injEq, true_and, and_true]
  refine ⟨?_, ?_, ?_⟩ <;>
  · funext q j
    by_cases hq : q = k
    · subst hq
      simp only [Function.update_self]
      by_cases hj : j = i
      · subst hj; simp [Rows.reord]
      · simp [Function.update_of_ne hj]
    · simp [Function.update_of_ne hq]

theorem record_wide {M : Nat → Nat} {cfg : GivenCfg K} (h : cfg.Wide M) {k i : Nat} {w : Rows K} {r : Nat → Nat → K} {i' : Nat}
    (h1 : M k ≤ w.int.length) (h2 : M k ≤ w.ext.length) (h3 : M k ≤ w.loc.length) :
    ((cfg.record k i w).setRot k i' r).Wide M := by
  have key : ∀ (f : Nat → Nat → List (List K)) (x : List (List K)), (∀ q j, M q ≤ (f q j).length) → M k ≤ x.length →
      ∀ q j, M q ≤ (Function.update f k (Function.update (f k) i x) q j).length := by
    intro f x hf hx q j
    by_cases hq : q = k
    · subst hq
      simp only [Function.update_self]
      by_cases hj : j = i
      · subst hj; simpa using hx
      · simp only [Function.update_of_ne hj]; exact hf _ _
    · simp only [Function.update_of_ne hq]; exact hf _ _
  exact ⟨key _ _ h.int h1, key _ _ h.ext h2, key _ _ h.loc h3⟩

theorem danseStep_ord {P : Prop} (hs : SensorOrder D.M D.g.refSensor σ) (hf : D.OrderFree) (hu : D.use1st = true ∨ P)
    (hrot : D.LocalUnrotated) {y : Nat → List (List K)} {s s' : DanseSt D} {ev : ℚ × Nat × EvType}
    (hy : (y ev.2.1).length = D.M ev.2.1) (hr : D.g.refSensor < D.M ev.2.1) (h : DanseOrd P σ s s') :
    RelE (DanseOrd P σ) (danseStep D y s ev) (danseStep D (fun q => reordered (σ q) (y q)) s' ev) := by
  unfold danseStep
  rw [h.run]
  have hstep : ∀ (g : GivenCfg K), g.Wide D.M → (∀ c κ, ev.2.2 = .up → c < D.M ev.2.1 → g.rot ev.2.1 (s.run.st.net.it ev.2.1) c κ = 1) →
      (g.reord σ).step (fun q => reordered (σ q) (y q)) (s.run.st.reord σ) ev = (g.step y s.run.st ev).map (GivenSt.reord σ) := by
    intro g hg hr
    unfold GivenCfg.step
    cases hty : ev.2.2 with
    | bc => exact reord_broadcast hs hg h.st _ hy
    | up => exact reord_update hs hg _ _ hy (fun c κ hc => hr c κ hty hc)
    | fu => rfl
    | re => rfl
    | tr => rfl
  have hother : ev.2.2 ≠ .up → RelE (DanseOrd P σ)
      (s.run.cfg.step y s.run.st ev >>= fun x => .ok { s with run := { s.run with st := x } })
      ((s.run.reord σ).cfg.step (fun q => reordered (σ q) (y q)) (s.run.reord σ).st ev >>= fun x =>
        .ok { s' with run := { s.run.reord σ with st := x } }) := by
    intro hne
    have e := hstep s.run.cfg h.cfg (fun c κ h => absurd h hne)
    change RelE _ _ ((s.run.cfg.reord σ).step (fun q => reordered (σ q) (y q)) (s.run.st.reord σ) ev >>= _)
    rw [e]
    cases hx : s.run.cfg.step y s.run.st ev with
    | error e => rfl
    | ok u => exact ⟨rfl, h.cfg, step_wide h.cfg h.st hx, h.node⟩
  cases hty : ev.2.2 with
  | up =>
    simp only
    have e : (s.run.reord σ).cfg.observe (fun q => reordered (σ q) (y q)) (s.run.reord σ).st ev.1 ev.2.1 =
        (s.run.cfg.observe y s.run.st ev.1 ev.2.1).map (Obs.reord (σ ev.2.1)) := reord_observe hs s.run.st ev.1 hy
    rw [e]
    cases ho : s.run.cfg.observe y s.run.st ev.1 ev.2.1 with
    | error er => rfl
    | ok o =>
      have hlen : o.loc.length = D.M ev.2.1 := by
        unfold GivenCfg.observe at ho
        obtain ⟨n, -, ho⟩ := bind_ok_inv ho
        obtain ⟨l, hl, ho⟩ := bind_ok_inv ho
        injection ho with ho
        subst ho
        rw [List.length_map, (mapM_get hl).1, hy]
      have hd : Stable (σ ev.2.1) (D.dim ev.2.1) := hs.stable (by change _ ≤ D.M _ + _; omega)
      have hl : Stable (σ ev.2.1) (D.M ev.2.1) := hs.stable le_rfl
      have hnu := nodeUpdate_ord hs hf hu hrot hr hd hl (h.node ev.2.1 hd hl) hlen
      simp only [Except.map, bind, Except.bind]
      revert hnu
      cases hn : D.nodeUpdate ev.2.1 (s.node ev.2.1) o with
      | error e1 =>
        cases D.nodeUpdate ev.2.1 (s'.node ev.2.1) (o.reord (σ ev.2.1)) with
        | error e2 => exact fun h => h
        | ok r' => exact fun h => h.elim
      | ok r =>
        cases D.nodeUpdate ev.2.1 (s'.node ev.2.1) (o.reord (σ ev.2.1)) with
        | error e2 => exact fun h => h.elim
        | ok r' =>
          intro hnu
          obtain ⟨h1, h2⟩ : DNodeOrd P (finPerm _ _ hd) (finPerm _ _ hl) r.1 r'.1 ∧ r'.2 = r.2.reord (σ ev.2.1) := hnu
          have hshape : D.M ev.2.1 ≤ r.2.int.length ∧ D.M ev.2.1 ≤ r.2.ext.length ∧ D.M ev.2.1 ≤ r.2.loc.length := by
            unfold DanseCfg.nodeUpdate at hn
            simp only at hn
            obtain ⟨w, -, hn⟩ := bind_ok_inv hn
            obtain ⟨wl, -, hn⟩ := bind_ok_inv hn
            injection hn with hn
            subst hn
            simp only [frameRow_length]
            exact ⟨Nat.le_add_right _ _, le_rfl, le_rfl⟩
          have hwide := record_wide (r := D.rot ev.2.1 r.1.times) (i' := s.run.st.net.it ev.2.1)
            (i := s.run.st.net.it ev.2.1 + 1) h.cfg hshape.1 hshape.2.1 hshape.2.2
          have e2 : (((s.run.reord σ).cfg.record ev.2.1 ((s.run.reord σ).st.net.it ev.2.1 + 1) r'.2).setRot ev.2.1
                ((s.run.reord σ).st.net.it ev.2.1) (D.rot ev.2.1 r'.1.times)) =
              ((s.run.cfg.record ev.2.1 (s.run.st.net.it ev.2.1 + 1) r.2).setRot ev.2.1
                (s.run.st.net.it ev.2.1) (D.rot ev.2.1 r.1.times)).reord σ := by
            rw [h2, h1.times]
            have := reord_record (σ := σ) s.run.cfg ev.2.1 (s.run.st.net.it ev.2.1 + 1) r.2
            change ((s.run.cfg.reord σ).record ev.2.1 (s.run.st.net.it ev.2.1 + 1) _).setRot _ _ _ = _
            rw [this]
            rfl
          simp only [e2]
          have e3 := hstep _ hwide (fun c κ _ hc => by
            simp only [GivenCfg.setRot, Function.update_self]
            exact hrot _ _ _ _ hc)
          have e4 : (s.run.reord σ).st = s.run.st.reord σ := rfl
          rw [e4, e3]
          cases hx : GivenCfg.step ((s.run.cfg.record ev.2.1 (s.run.st.net.it ev.2.1 + 1) r.2).setRot ev.2.1
                (s.run.st.net.it ev.2.1) (D.rot ev.2.1 r.1.times)) y s.run.st ev with
          | error e => rfl
          | ok u =>
            refine ⟨?_, hwide, step_wide hwide h.st hx, fun k hd' hl' => ?_⟩
            · simp only [AdaptSt.reord, AdaptSt.mk.injEq, true_and]
              funext q
              by_cases hq : q = ev.2.1
              · subst hq; simp
              · simp [Function.update_of_ne hq]
            · by_cases hq : k = ev.2.1
              · subst hq
                simp only [Function.update_self]
                exact h1
              · simp only [Function.update_of_ne hq]
                exact h.node k hd' hl'
  | bc => exact hother (by rw [hty]; simp)
  | fu => exact hother (by rw [hty]; simp)
  | re => exact hother (by rw [hty]; simp)
  | tr => exact hother (by rw [hty]; simp)

theorem danseRun_ord (hs : SensorOrder D.M D.g.refSensor σ) (hf : D.OrderFree) (hu : D.use1st = true ∨ D.EvenStart σ)
    (hrot : D.LocalUnrotated) (hsel : D.StartsAtRef) {y : Nat → List (List K)} (T : Nat) {evs : List (ℚ × Nat × EvType)}
    (hy : ∀ ev ∈ evs, (y ev.2.1).length = D.M ev.2.1 ∧ D.g.refSensor < D.M ev.2.1) :
    RelE (fun s s' => s'.run = s.run.reord σ) (danseRun D y T evs) (danseRun D (fun q => reordered (σ q) (y q)) T evs) := by
  have hst : ∀ k n, D.M k ≤ n → Stable (σ k) n := fun k n hn => hs.stable hn
  have hdim : ∀ k, D.M k ≤ D.dim k := fun k => by change _ ≤ D.M k + _; omega
  have hself : ∀ k m, D.M k ≤ m → reordered (σ k) (selector m D.g.refSensor D.nb : List (List K)) = selector m D.g.refSensor D.nb :=
    fun k m hm => reordered_selector (hst k) hm (hs.ref k)
  have hselL : ∀ m, (selector m D.g.refSensor D.nb : List (List K)).length = m := fun m => by simp [selector]
  have hcfg : D.g.reord σ = D.g := by
    unfold GivenCfg.reord
    have e1 : (fun k i => reordered (σ k) (D.g.wInt k i)) = D.g.wInt := by
      funext k i; rw [hsel.int]; exact hself k _ (hdim k)
    have e2 : (fun k i => reordered (σ k) (D.g.wExt k i)) = D.g.wExt := by
      funext k i; rw [hsel.ext]; exact hself k _ le_rfl
    have e3 : (fun k i => reordered (σ k) (D.g.wLoc k i)) = D.g.wLoc := by
      funext k i; rw [hsel.loc]; exact hself k _ le_rfl
    rw [e1, e2, e3]
  have hwl : ∀ k, ((GivenSt.init D.g.N D.g.refSensor T D.M : GivenSt K).wIR k).length = D.M k := by
    intro k; simp [GivenSt.init]
  have hwIR : ∀ k, reordered (σ k) ((GivenSt.init D.g.N D.g.refSensor T D.M).wIR k) =
      (GivenSt.init D.g.N D.g.refSensor T D.M : GivenSt K).wIR k := by
    intro k
    apply List.ext_getElem?
    intro i
    rw [reordered_get (by rw [hwl]; exact hst k _ le_rfl)]
    simp only [GivenSt.init, List.getElem?_map]
    by_cases hi : i < D.M k
    · rw [List.getElem?_range hi, List.getElem?_range ((hst k _ le_rfl i).2 hi)]
      simp only [Option.map_some]
      have : (σ k i = D.g.refSensor) ↔ i = D.g.refSensor :=
        ⟨fun e => (σ k).injective (e.trans (hs.ref k).symm), fun e => by rw [e, hs.ref]⟩
      simp only [this]
    · rw [hs.fix k i (by omega)]
  have hi : DanseOrd (D.EvenStart σ) σ (DanseSt.init D T) (DanseSt.init D T) := by
    refine ⟨?_, ⟨fun k i => ?_, fun k i => ?_, fun k i => ?_⟩, fun k => (hwl k).ge, fun k hd hl => ?_⟩
    · simp only [DanseSt.init, AdaptSt.init, AdaptSt.reord, AdaptSt.mk.injEq, List.map_nil, and_true, hcfg, true_and]
      unfold GivenSt.reord
      simp only [hwIR]
    · change _ ≤ (D.g.wInt k i).length; rw [hsel.int, hselL]; exact hdim k
    · change _ ≤ (D.g.wExt k i).length; rw [hsel.ext, hselL]
    · change _ ≤ (D.g.wLoc k i).length; rw [hsel.loc, hselL]
    · have hk : ∀ (m : Nat) (w : Nat → List (List K)) (hm : Stable (σ k) m), D.M k ≤ m →
          (∀ j, w j = selector m D.g.refSensor D.nb) →
          NodeOrd (D.EvenStart σ) (finPerm _ _ hm) (Except.map (ordF (finPerm _ _ hm))) (D.kind0 k m w) (D.kind0 k m w) := by
        intro m w hm hle hw
        have hcov : D.EvenStart σ ∨ 0 < 0 → (fun κ : Fin D.nb => (Matrix.of fun (i j : Fin m) => D.cov0 k κ i j : Matrix (Fin m) (Fin m) K)) =
            fun κ : Fin D.nb => (Matrix.of fun (i j : Fin m) => D.cov0 k κ i j : Matrix (Fin m) (Fin m) K).submatrix (finPerm _ _ hm) (finPerm _ _ hm) := by
          intro h
          rcases h with h | h
          · funext κ
            ext i j
            exact (h k κ i j).symm
          · omega
        refine ⟨⟨rfl, rfl, hcov, hcov⟩, rfl, fun j => ?_, rfl, rfl, fun h => by cases h⟩
        change Except.ok _ = Except.ok _
        rw [hw j, ← rowFrame_reordered (by rw [hselL]; exact hm), hself k m hle]
      refine ⟨hk _ _ hd (hdim k) (hsel.int k), hk _ _ hl le_rfl (hsel.loc k), ?_, rfl⟩
      simp only [DanseSt.init, DanseCfg.node0, ExtSt.mk.injEq, and_true]
      rw [hsel.ext, hsel.target, ← rowFrame_reordered (by rw [hselL]; exact hl), hself k _ le_rfl]
      exact ⟨rfl, rfl⟩
  have := RelE.foldlM_mem evs (fun u v e he h => danseStep_ord hs hf hu hrot (hy e he).1 (hy e he).2 h) hi
  unfold danseRun
  revert this
  generalize List.foldlM (danseStep D y) (DanseSt.init D T) evs = x
  generalize List.foldlM (danseStep D fun q => reordered (σ q) (y q)) (DanseSt.init D T) evs = x'
  intro this
  cases x <;> cases x' <;> first | exact this | exact this.elim | exact this.run

end
end Danse
