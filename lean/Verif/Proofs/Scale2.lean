import Verif.Proofs.Scale

/-!
# Helper lemmas for C121: a run with given filters, or with filters that do not depend on the level
-/

set_option linter.unusedSectionVars false

namespace Danse
section
variable {K : Type} [Field K] {a : K}

theorem scaled_localChunk (N : Nat) (x : List K) (e : Int) :
    localChunk (scaled a x) N e = (localChunk x N e).map (fun p => (scaled a p.1, p.2)) := by
  unfold localChunk
  simp only [scaled_pySlice, scaled_length]
  split_ifs
  · rfl
  · simp only [Except.map]
    rw [scaled_append, scaled_zeros]
  · rfl

theorem scaled_chunkForUpdate (x : List K) (t fs : ℚ) (bd : String) (N Ns : Nat) :
    chunkForUpdate (scaled a x) t fs bd N Ns =
      (chunkForUpdate x t fs bd N Ns).map (fun p => (scaled a p.1, p.2)) := by
  unfold chunkForUpdate
  split_ifs
  · exact scaled_localChunk _ _ _
  · exact scaled_localChunk _ _ _
  · rfl

theorem scaled_frameOf (N Ns : Nat) (first : Bool) (zp b : List K) :
    frameOf N Ns first (scaled a zp) (scaled a b) =
      (scaled a (frameOf N Ns first zp b).1, (frameOf N Ns first zp b).2) := by
  unfold frameOf
  simp only [scaled_length]
  split_ifs <;> simp [scaled_append, scaled_zeros, scaled_lastN]

theorem scaled_fillBuffers (nb : Nat → List Nat) (buf : Nat → Nat → List K) (k : Nat) (ch : List K) :
    fillBuffers nb (fun q i => scaled a (buf q i)) k (scaled a ch) =
      (fillBuffers nb buf k ch).map (fun b q i => scaled a (b q i)) := by
  unfold fillBuffers
  refine foldlM_map_comm (f := fun (b : Nat → Nat → List K) q i => scaled a (b q i)) (fun b q => ?_) (nb k) buf
  refine same_bind_comm fun idx => ?_
  change Except.ok _ = Except.ok _
  congr 1
  funext q' i'
  by_cases h : q' = q
  · subst h
    simp only [Function.update_self]
    by_cases h' : i' = idx
    · subst h'
      simp only [Function.update_self, scaled_append]
    · simp only [Function.update_of_ne h']
  · simp only [Function.update_of_ne h]

theorem scaled_netStep_bc (nb : Nat → List Nat) (N Ns : Nat) (s : NetSt K) (k : Nat) (ch : List K) :
    netStep nb N Ns (s.scaled a) (.bc k (scaled a ch)) = (netStep nb N Ns s (.bc k ch)).map (NetSt.scaled a) := by
  unfold netStep
  simp only [NetSt.scaled]
  rw [scaled_fillBuffers]
  exact map_bind_comm fun b => rfl

theorem scaled_netStep_up (nb : Nat → List Nat) (N Ns : Nat) (s : NetSt K) (k : Nat) :
    netStep nb N Ns (s.scaled a) (.up k) = (netStep nb N Ns s (.up k)).map (NetSt.scaled a) := by
  have hp : processBuffers nb N Ns (s.scaled a) k =
      (processBuffers nb N Ns s k).map (fun p => (scaledM a p.1, p.2)) := by
    unfold processBuffers
    have e : ((List.range (nb k).length).map fun idx =>
        frameOf N Ns ((s.scaled a).it k = 0) (((s.scaled a).z k).getD idx []) ((s.scaled a).zBuffer k idx)) =
        ((List.range (nb k).length).map fun idx =>
          frameOf N Ns (s.it k = 0) ((s.z k).getD idx []) (s.zBuffer k idx)).map
          (fun p => (scaled a p.1, p.2)) := by
      rw [List.map_map]
      refine List.map_congr_left fun i _ => ?_
      simp only [NetSt.scaled, Function.comp, scaled_getD]
      exact scaled_frameOf _ _ _ _ _
    simp only [e, List.all_map, Function.comp_def, scaled_length, List.map_map]
    split_ifs
    · simp [scaledM, Except.map]
    · rfl
  unfold netStep
  simp only
  rw [hp]
  refine map_bind_comm fun p => ?_
  obtain ⟨z, fl⟩ := p
  change Except.ok _ = Except.ok _
  congr 1
  simp only [NetSt.scaled, NetSt.mk.injEq, and_true, true_and]
  constructor
  · funext q i
    by_cases h : q = k
    · subst h; simp [scaled]
    · simp [Function.update_of_ne h]
  · funext q
    by_cases h : q = k
    · subst h; simp
    · simp [Function.update_of_ne h]

theorem update_scaled (f : Nat → List K) (k : Nat) (x : List K) :
    Function.update (fun q => scaled a (f q)) k (scaled a x) = fun q => scaled a (Function.update f k x q) := by
  funext q
  by_cases h : q = k
  · subst h; simp
  · simp [Function.update_of_ne h]

variable [StarRing K] [DecidableEq K] {g : GivenCfg K}

/-- With few-sample broadcasts the factor may be zero. -/
theorem scaled_broadcast_of (ha : star a = a) (h0 : g.bc = .whole → a ≠ 0) (y : Nat → List (List K)) (s : GivenSt K) (t : ℚ) (k : Nat) :
    g.broadcast (fun q => scaledM a (y q)) (s.scaled a) t k = (g.broadcast y s t k).map (GivenSt.scaled a) := by
  unfold GivenCfg.broadcast
  have hm : ((scaledM a (y k)).mapM fun ch => chunkForBroadcast ch t (g.fs k) g.N) =
      ((y k).mapM fun ch => chunkForBroadcast ch t (g.fs k) g.N).map
        (List.map fun p => (scaled a p.1, p.2)) :=
    mapM_map_comm (f := scaled a) (g := fun p : List K × Int × Int => (scaled a p.1, p.2))
      (fun ch => scaled_localChunk g.N ch _) (y k)
  rw [hm]
  refine map_bind_comm fun fr => ?_
  have e1 : (fr.map fun p => (scaled a p.1, p.2)).any (fun x => decide (x.1.length < g.N)) =
      fr.any (fun x => decide (x.1.length < g.N)) := by
    simp only [List.any_map, Function.comp_def, scaled_length]
  have e2 : (fr.map fun p => (scaled a p.1, p.2)).map (·.1) = scaledM a (fr.map (·.1)) := by
    simp only [List.map_map, scaledM]; rfl
  simp only [e1]
  by_cases hany : (fr.any fun x => decide (x.1.length < g.N)) = true
  · rw [if_pos hany, if_pos hany]; rfl
  · rw [if_neg hany, if_neg hany]
    simp only [e2]
    cases hb : g.bc with
    | whole =>
      simp only
      change (wholeChunk g.ζ g.N g.Ns g.c g.h g.f _ _ (scaled a (s.zLocal k)) >>= _) = _
      rw [scaled_wholeChunk ha (h0 hb)]
      refine map_bind_comm fun z => ?_
      rw [scaled_chunkOf]
      change (netStep g.nb g.N g.Ns (s.net.scaled a) _ >>= _) = _
      rw [scaled_netStep_bc]
      refine map_bind_comm fun n => ?_
      change Except.ok _ = Except.ok _
      congr 1
      simp only [GivenSt.scaled, update_scaled]
    | few L eff =>
      simp only
      have e3 : g.currL (s.scaled a) L eff t k = g.currL s L eff t k := rfl
      have e4 : g.bcFilter (s.scaled a) (scaledM a (y k)).length t k = g.bcFilter s (y k).length t k := by
        rw [scaledM_length]; rfl
      rw [e3, e4]
      refine same_bind_comm fun l => ?_
      refine same_bind_comm fun w => ?_
      rw [scaled_fewSamples]
      refine map_bind_comm fun z => ?_
      rw [scaled_chunkOf]
      change (netStep g.nb g.N g.Ns (s.net.scaled a) _ >>= _) = _
      rw [scaled_netStep_bc]
      refine map_bind_comm fun n => ?_
      change Except.ok _ = Except.ok _
      congr 1
      simp only [GivenSt.scaled, update_scaled]
      rfl

variable (ha : star a = a) (h0 : a ≠ 0)
include ha h0

theorem scaled_broadcast (y : Nat → List (List K)) (s : GivenSt K) (t : ℚ) (k : Nat) :
    g.broadcast (fun q => scaledM a (y q)) (s.scaled a) t k = (g.broadcast y s t k).map (GivenSt.scaled a) :=
  scaled_broadcast_of ha (fun _ => h0) y s t k

omit ha h0 in
theorem scaled_rotate (k i : Nat) (y : List (List K)) : g.rotate k i (scaledM a y) = scaledM a (g.rotate k i y) := by
  unfold GivenCfg.rotate
  simp only [scaledM, List.zipIdx_map, List.map_map]
  refine List.map_congr_left fun p _ => ?_
  obtain ⟨ch, m⟩ := p
  exact scaled_zipIdx ch (fun v κ => v * g.rot k i m κ) (fun v κ => v * g.rot k i m κ)
    (fun v j => mul_assoc a v _)

omit h0 in
theorem scaled_desired (w yH yT : List (List K)) (d : List K) (b e : Int) :
    g.desired w (scaledM a yH) (scaledM a yT) (scaled a d) b e = (g.desired w yH yT d b e).map (scaled a) := by
  unfold GivenCfg.desired
  split_ifs
  · refine same_bind_comm fun wIR => ?_
    rw [scaled_desiredConv]
    exact map_bind_comm fun ch => scaled_setSlice _ _ _ _
  · rw [scaled_desiredFrame ha]
    refine map_bind_comm fun fr => ?_
    rw [scaled_length]
    exact scaled_addFrame _ _ _ _

omit h0 in
theorem scaled_update (y : Nat → List (List K)) (s : GivenSt K) (t : ℚ) (k : Nat) :
    g.update (fun q => scaledM a (y q)) (s.scaled a) t k = (g.update y s t k).map (GivenSt.scaled a) := by
  unfold GivenCfg.update
  change (netStep g.nb g.N g.Ns (s.net.scaled a) _ >>= _) = _
  rw [scaled_netStep_up]
  refine map_bind_comm fun n => ?_
  have hm : ((scaledM a (y k)).mapM fun ch => chunkForUpdate ch t (g.fs k) g.bc.name g.N g.Ns) =
      ((y k).mapM fun ch => chunkForUpdate ch t (g.fs k) g.bc.name g.N g.Ns).map
        (List.map fun p => (scaled a p.1, p.2)) :=
    mapM_map_comm (f := scaled a) (g := fun p : List K × Int × Int => (scaled a p.1, p.2))
      (fun ch => scaled_chunkForUpdate ch _ _ _ _ _) (y k)
  rw [hm]
  refine map_bind_comm fun fr => ?_
  have e1 : (fr.map fun p => (scaled a p.1, p.2)).any (fun x => decide (x.1.length ≠ g.N)) =
      fr.any (fun x => decide (x.1.length ≠ g.N)) := by
    simp only [List.any_map, Function.comp_def, scaled_length]
  have e2 : (fr.map fun p => (scaled a p.1, p.2)).map (·.1) = scaledM a (fr.map (·.1)) := by
    simp only [List.map_map, scaledM]; rfl
  simp only [e1]
  by_cases hany : (fr.any fun x => decide (x.1.length ≠ g.N)) = true
  · rw [if_pos hany, if_pos hany]; rfl
  · rw [if_neg hany, if_neg hany]
    simp only [e2]
    have e3 : scaledM a (fr.map (·.1)) ++ (n.scaled a).z k = scaledM a (fr.map (·.1) ++ n.z k) := by
      rw [scaledM_append]; rfl
    rw [e3, scaled_analysisM, scaled_analysisM, scaled_rotate, scaledM_length, scaledM_take]
    change (g.desired _ _ _ (scaled a (s.d k)) _ _ >>= _) = _
    rw [scaled_desired ha]
    refine map_bind_comm fun d => ?_
    change (g.desired _ _ _ (scaled a (s.dLoc k)) _ _ >>= _) = _
    rw [scaled_desired ha]
    refine map_bind_comm fun dl => ?_
    change Except.ok _ = Except.ok _
    congr 1
    simp only [GivenSt.scaled, update_scaled]

omit h0 in
theorem scaled_step_of (h0 : g.bc = .whole → a ≠ 0) (y : Nat → List (List K)) (s : GivenSt K) (ev : ℚ × Nat × EvType) :
    g.step (fun q => scaledM a (y q)) (s.scaled a) ev = (g.step y s ev).map (GivenSt.scaled a) := by
  unfold GivenCfg.step
  split
  · exact scaled_broadcast_of ha h0 _ _ _ _
  · exact scaled_update ha _ _ _ _
  · rfl

theorem scaled_step (y : Nat → List (List K)) (s : GivenSt K) (ev : ℚ × Nat × EvType) :
    g.step (fun q => scaledM a (y q)) (s.scaled a) ev = (g.step y s ev).map (GivenSt.scaled a) := by
  unfold GivenCfg.step
  split
  · exact scaled_broadcast ha h0 _ _ _ _
  · exact scaled_update ha _ _ _ _
  · rfl

omit ha h0 in
theorem scaled_observe (y : Nat → List (List K)) (s : GivenSt K) (t : ℚ) (k : Nat) :
    g.observe (fun q => scaledM a (y q)) (s.scaled a) t k = (g.observe y s t k).map (Obs.scaled a) := by
  unfold GivenCfg.observe
  change (netStep g.nb g.N g.Ns (s.net.scaled a) _ >>= _) = _
  rw [scaled_netStep_up]
  refine map_bind_comm fun n => ?_
  have hm : ((scaledM a (y k)).mapM fun ch => chunkForUpdate ch t (g.fs k) g.bc.name g.N g.Ns) =
      ((y k).mapM fun ch => chunkForUpdate ch t (g.fs k) g.bc.name g.N g.Ns).map
        (List.map fun p => (scaled a p.1, p.2)) :=
    mapM_map_comm (f := scaled a) (g := fun p : List K × Int × Int => (scaled a p.1, p.2))
      (fun ch => scaled_chunkForUpdate ch _ _ _ _ _) (y k)
  rw [hm]
  refine map_bind_comm fun fr => ?_
  change Except.ok _ = Except.ok _
  congr 1
  simp only [Obs.scaled, NetSt.scaled, scaledM, List.map_map]
  rfl

/-- A run whose filters and phase factors do not change with the level of the observations. -/
theorem scaled_adaptStep {U : Strategy K} (hU : ∀ k h, U.rows k (h.map (Obs.scaled a)) = U.rows k h ∧
      U.rot k (h.map (Obs.scaled a)) = U.rot k h) (y : Nat → List (List K)) (s : AdaptSt K)
    (ev : ℚ × Nat × EvType) :
    adaptStep U (fun q => scaledM a (y q)) (s.scaled a) ev = (adaptStep U y s ev).map (AdaptSt.scaled a) := by
  unfold adaptStep
  cases ev.2.2 with
  | up =>
    simp only
    change (s.cfg.observe _ (s.st.scaled a) _ _ >>= _) = _
    rw [scaled_observe]
    refine map_bind_comm fun o => ?_
    have e : (s.scaled a).hist ev.2.1 ++ [Obs.scaled a o] = (s.hist ev.2.1 ++ [o]).map (Obs.scaled a) := by
      simp [AdaptSt.scaled]
    rw [e, (hU _ _).1, (hU _ _).2]
    change (GivenCfg.step _ _ (s.st.scaled a) _ >>= _) = _
    rw [scaled_step ha h0]
    refine map_bind_comm fun s' => ?_
    change Except.ok _ = Except.ok _
    congr 1
    simp only [AdaptSt.scaled, AdaptSt.mk.injEq, true_and]
    constructor
    · rfl
    · funext q
      by_cases h : q = ev.2.1
      · subst h; simp
      · simp [Function.update_of_ne h]
  | bc =>
    simp only
    change (GivenCfg.step _ _ (s.st.scaled a) _ >>= _) = _
    rw [scaled_step ha h0]
    exact map_bind_comm fun s' => rfl
  | fu =>
    simp only
    change (GivenCfg.step _ _ (s.st.scaled a) _ >>= _) = _
    rw [scaled_step ha h0]
    exact map_bind_comm fun s' => rfl
  | re =>
    simp only
    change (GivenCfg.step _ _ (s.st.scaled a) _ >>= _) = _
    rw [scaled_step ha h0]
    exact map_bind_comm fun s' => rfl
  | tr =>
    simp only
    change (GivenCfg.step _ _ (s.st.scaled a) _ >>= _) = _
    rw [scaled_step ha h0]
    exact map_bind_comm fun s' => rfl

theorem scaled_adaptRun {U : Strategy K} (hU : ∀ k h, U.rows k (h.map (Obs.scaled a)) = U.rows k h ∧
      U.rot k (h.map (Obs.scaled a)) = U.rot k h) (y : Nat → List (List K)) (s : AdaptSt K)
    (evs : List (ℚ × Nat × EvType)) :
    adaptRun U (fun q => scaledM a (y q)) (s.scaled a) evs = (adaptRun U y s evs).map (AdaptSt.scaled a) :=
  foldlM_map_comm (fun s ev => scaled_adaptStep ha h0 hU y s ev) evs s

omit ha h0 in
theorem scaled_init (T : Nat) (M : Nat → Nat) : (AdaptSt.init g T M).scaled a = AdaptSt.init g T M := by
  simp [AdaptSt.init, AdaptSt.scaled, GivenSt.init, GivenSt.scaled, NetSt.init, NetSt.scaled, scaled, scaledM]

end
end Danse
