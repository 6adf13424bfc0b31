import Verif.Proofs.Scale3
import Verif.Spec.ScaleTI

/-!
# Helper lemmas for C122: a TI-DANSE run at another level
-/

set_option linter.unusedSectionVars false

namespace Danse
section
variable {V K : Type} [DecidableEq V] [Field K] {a : K}

theorem update_scaledV (f : V → List K) (k : V) (x : List K) :
    Function.update (fun q => scaled a (f q)) k (scaled a x) = fun q => scaled a (Function.update f k x q) := by
  funext q
  by_cases h : q = k
  · subst h; simp
  · simp [Function.update_of_ne h]

theorem scaled_npIAdd (x y : List K) : npIAdd (scaled a x) (scaled a y) = (npIAdd x y).map (scaled a) := by
  unfold npIAdd
  simp only [scaled_length, scaled_at0]
  split_ifs
  · simp only [Except.map, scaled, List.zipWith_map, List.map_zipWith, mul_add]
  · simp only [Except.map, scaled, List.map_map]
    exact congrArg _ (List.map_congr_left fun v _ => by simp only [Function.comp, mul_add])
  · rfl

theorem scaled_npSub (x y : List K) : npSub (scaled a x) (scaled a y) = (npSub x y).map (scaled a) := by
  unfold npSub
  simp only [scaled_length, scaled_at0]
  split_ifs
  · simp only [Except.map, scaled, List.zipWith_map, List.map_zipWith, mul_sub]
  · simp only [Except.map, scaled, List.map_map]
    exact congrArg _ (List.map_congr_left fun v _ => by simp only [Function.comp, mul_sub])
  · simp only [Except.map, scaled, List.map_map]
    exact congrArg _ (List.map_congr_left fun v _ => by simp only [Function.comp, mul_sub])
  · rfl

theorem scaled_tiPartialSum (up : V → List V) (root : V) (N Ns : Nat) (s : TIState V K) (k : V) :
    tiPartialSum up root N Ns (s.scaled a) k = (tiPartialSum up root N Ns s k).map (TIState.scaled a) := by
  unfold tiPartialSum
  simp only [TIState.scaled, scaled_pySlice, scaled_length, ← scaled_append, update_scaledV]
  set s1 : TIState V K := { s with
    prime := Function.update s.prime k (pySlice (s.prime k) (-((N : Int) - Ns)) (s.prime k).length ++
      pySlice (s.buf k) 0 Ns)
    zloc := Function.update s.zloc k (pySlice (s.prime k) (-((N : Int) - Ns)) (s.prime k).length ++
      pySlice (s.buf k) 0 Ns) } with hs1
  have hf := foldlM_map_comm (f := TIState.scaled a) (k := fun (s : TIState V K) l =>
      if (s.zloc l).length = 0 then Except.ok s
      else do
        let z ← npIAdd (s.zloc k) (s.zloc l)
        .ok { s with zloc := Function.update s.zloc k z })
    (k' := fun (s : TIState V K) l =>
      if (s.zloc l).length = 0 then Except.ok s
      else do
        let z ← npIAdd (s.zloc k) (s.zloc l)
        .ok { s with zloc := Function.update s.zloc k z }) (fun s l => by
      simp only [TIState.scaled, scaled_length]
      split_ifs
      · rfl
      · rw [scaled_npIAdd]
        refine map_bind_comm fun z => ?_
        simp only [update_scaledV]
        rfl) (up k) s1
  refine Eq.trans (congrArg (· >>= _) hf) (map_bind_comm fun s2 => ?_)
  split_ifs
  · simp only [TIState.scaled, Function.update_self]
    rw [scaled_npSub]
    refine map_bind_comm fun e => ?_
    simp only [update_scaledV]
    rfl
  · rfl

theorem scaled_tiRelay (up : V → List V) (s : TIState V K) (k : V) :
    tiRelay up (s.scaled a) k = (tiRelay up s k).map (TIState.scaled a) := by
  unfold tiRelay
  refine foldlM_map_comm (f := TIState.scaled a) (fun s l => ?_) (up k) s
  simp only [TIState.scaled, update_scaledV, scaled_length]
  split_ifs
  · rw [scaled_npSub]
    refine map_bind_comm fun e => ?_
    simp only [update_scaledV]
    rfl
  · simp only [Except.map]
    have : ([] : List K) = scaled a [] := rfl
    rw [this, update_scaledV]
    rfl
end

section
variable {n : Nat} {K : Type} [Field K] [StarRing K] [DecidableEq K] {a : K} {g : GivenCfg K}

theorem scaled_tiFuse (ha : star a = a) (h0 : g.bc = .whole → a ≠ 0) (yk : List (List K)) (t : ℚ) (k : Nat) (nd : TINode K)
    (buf : List K) : tiFuse g (scaledM a yk) t k (nd.scaled a) (scaled a buf) =
      (tiFuse g yk t k nd buf).map fun p => (p.1.scaled a, scaled a p.2) := by
  unfold tiFuse
  have hm : ((scaledM a yk).mapM fun ch => chunkForBroadcast ch t (g.fs k) g.N) =
      (yk.mapM fun ch => chunkForBroadcast ch t (g.fs k) g.N).map
        (List.map fun p => (scaled a p.1, p.2)) :=
    mapM_map_comm (f := scaled a) (g := fun p : List K × Int × Int => (scaled a p.1, p.2))
      (fun ch => scaled_localChunk g.N ch _) yk
  rw [hm]
  refine map_bind_comm fun fr => ?_
  have e1 : (fr.map fun p => (scaled a p.1, p.2)).any (fun x => decide (x.1.length < g.N)) =
      fr.any (fun x => decide (x.1.length < g.N)) := by
    simp only [List.any_map, Function.comp_def, scaled_length]
  have e2 : (fr.map fun p => (scaled a p.1, p.2)).map (·.1) = scaledM a (fr.map (·.1)) := by
    simp only [List.map_map, scaledM]; rfl
  simp only [e1]
  by_cases hany : (fr.any fun x => decide (x.1.length < g.N)) = true
  · rw [if_pos hany, if_pos hany]; rfl
  · rw [if_neg hany, if_neg hany]
    simp only [e2]
    cases hb : g.bc with
    | whole =>
      simp only
      rw [scaledM_length]
      change (tiFilter yk.length nd.ext nd.started >>= _) = _
      refine same_bind_comm fun p => ?_
      rw [scaled_wholeChunk ha (h0 hb)]
      exact map_bind_comm fun z => rfl
    | few L eff =>
      simp only
      rw [scaledM_length]
      change (tiCurrL g k nd L eff t >>= _) = _
      refine same_bind_comm fun l => ?_
      change (tiBcFilter g yk.length nd t >>= _) = _
      refine same_bind_comm fun w => ?_
      rw [scaled_fewSamples]
      exact map_bind_comm fun z => rfl

theorem scaled_locFrames (yk : List (List K)) (t : ℚ) (k : Nat) :
    ((scaledM a yk).mapM fun ch => chunkForUpdate ch t (g.fs k) g.bc.name g.N g.Ns) =
      (yk.mapM fun ch => chunkForUpdate ch t (g.fs k) g.bc.name g.N g.Ns).map
        (List.map fun p => (scaled a p.1, p.2)) :=
  mapM_map_comm (f := scaled a) (g := fun p : List K × Int × Int => (scaled a p.1, p.2))
    (fun ch => scaled_chunkForUpdate ch _ _ _ _ _) yk

theorem scaled_tiObserve (yk : List (List K)) (t : ℚ) (k : Nat) (bypass : Bool) (eta : List K) :
    tiObserve g (scaledM a yk) t k bypass (scaled a eta) =
      (tiObserve g yk t k bypass eta).map (TIObs.scaled a) := by
  unfold tiObserve
  rw [scaled_locFrames]
  refine map_bind_comm fun fr => ?_
  have e1 : (fr.map fun p => (scaled a p.1, p.2)).any (fun x => decide (x.1.length ≠ g.N)) =
      fr.any (fun x => decide (x.1.length ≠ g.N)) := by
    simp only [List.any_map, Function.comp_def, scaled_length]
  simp only [e1, scaled_length]
  split_ifs
  · rfl
  · simp only [Except.map, TIObs.scaled, scaledM, List.map_map]
    rfl

theorem scaled_tiUpdate (ha : star a = a) (rows : Rows K) (st : Bool)
    (yk : List (List K)) (t : ℚ) (k : Nat) (bypass : Bool) (nd : TINode K) (eta : List K) :
    tiUpdate g (fun _ => rows) (fun _ => st) (scaledM a yk) t k bypass (nd.scaled a) (scaled a eta) =
      (tiUpdate g (fun _ => rows) (fun _ => st) yk t k bypass nd eta).map (TINode.scaled a) := by
  unfold tiUpdate
  rw [scaled_locFrames]
  refine map_bind_comm fun fr => ?_
  have e1 : (fr.map fun p => (scaled a p.1, p.2)).any (fun x => decide (x.1.length ≠ g.N)) =
      fr.any (fun x => decide (x.1.length ≠ g.N)) := by
    simp only [List.any_map, Function.comp_def, scaled_length]
  have e2 : (fr.map fun p => (scaled a p.1, p.2)).map (·.1) = scaledM a (fr.map (·.1)) := by
    simp only [List.map_map, scaledM]; rfl
  simp only [e1, scaled_length]
  by_cases hany : (fr.any fun x => decide (x.1.length ≠ g.N)) = true ∨ eta.length ≠ g.N
  · rw [if_pos hany, if_pos hany]; rfl
  · rw [if_neg hany, if_neg hany]
    simp only [e2]
    have e3 : scaledM a (fr.map (·.1)) ++ [scaled a eta] = scaledM a (fr.map (·.1) ++ [eta]) := by
      rw [scaledM_append]; rfl
    rw [e3, scaled_analysisM, scaled_analysisM]
    change (g.desired _ _ _ (scaled a nd.d) _ _ >>= _) = _
    rw [scaled_desired ha]
    refine map_bind_comm fun d => ?_
    change (g.desired _ _ _ (scaled a nd.dLoc) _ _ >>= _) = _
    rw [scaled_desired ha]
    refine map_bind_comm fun dl => ?_
    simp only [Except.map, TINode.scaled, List.map_append, List.map_cons, List.map_nil, TIObs.scaled]

theorem update_scaledN (f : Fin n → TINode K) (k : Fin n) (x : TINode K) :
    Function.update (fun q => (f q).scaled a) k (x.scaled a) = fun q => (Function.update f k x q).scaled a := by
  funext q
  by_cases h : q = k
  · subst h; simp
  · simp [Function.update_of_ne h]

/-- The events other than updates. -/
theorem scaled_tiStepEv (ha : star a = a) (h0 : g.bc = .whole → a ≠ 0) (U : TIStrategy n K) (y : Fin n → List (List K))
    (trees : List (TreeObj n)) (t : ℚ) (s : TISt n K) (e : OutEv) (he : e.ty ≠ .up) :
    tiStepEv g U (fun k => scaledM a (y k)) trees t (s.scaled a) e =
      (tiStepEv g U y trees t s e).map (TISt.scaled a) := by
  unfold tiStepEv
  cases hty : e.ty with
  | up => exact absurd hty he
  | tr =>
    simp only
    change (match trees[s.formed]? with | none => _ | some T => _) = _
    cases trees[s.formed]? <;> rfl
  | fu =>
    simp only
    split_ifs with h
    · have := scaled_tiFuse (g := g) ha h0 (y ⟨e.node, h⟩) t e.node (s.node ⟨e.node, h⟩) (s.net.buf ⟨e.node, h⟩)
      refine Eq.trans (congrArg (· >>= _) this) (map_bind_comm fun p => ?_)
      simp only [TISt.scaled, TIState.scaled, update_scaledV, update_scaledN]
      rfl
    · rfl
  | bc =>
    simp only
    split_ifs with h
    · change (match s.root with | none => _ | some root => _) = _
      cases hr : s.root with
      | none => rfl
      | some r =>
        simp only
        have := scaled_tiPartialSum (a := a) s.up r g.N g.Ns s.net ⟨e.node, h⟩
        refine Eq.trans (congrArg (· >>= _) this) (map_bind_comm fun p => ?_)
        simp only [TISt.scaled, Except.map, hr]
    · rfl
  | re =>
    simp only
    split_ifs with h
    · have := scaled_tiRelay (a := a) s.up s.net ⟨e.node, h⟩
      exact Eq.trans (congrArg (· >>= _) this) (map_bind_comm fun p => rfl)
    · rfl

variable {D : DanseCfg K}

/-- States of a TI-DANSE node at two levels. -/
structure TDNodeLevel (a : K) (I : Prop) {B M : Nat} (s s' : TDNode B M K) : Prop where
  danse : NodeLevel a I s.danse s'.danse
  loc : NodeLevel a I s.loc s'.loc
  ext : s'.ext = s.ext
  lastNorm : s'.lastNorm = s.lastNorm

theorem tiNodeUpdate_level (ha : star a = a) (hf : D.LevelFree a) {I : Prop} (hu : D.use1st = true ∨ I) {k : Nat}
    {s s' : TDNode D.nb (D.M k) K} (h : TDNodeLevel a I s s') (o : TIObs K) :
    RelE (fun p p' => TDNodeLevel a I p.1 p'.1 ∧ p'.2 = p.2) (D.tiNodeUpdate k s o)
      (D.tiNodeUpdate k s' (o.scaled a)) := by
  unfold DanseCfg.tiNodeUpdate
  simp only
  have e1 : D.spectra (D.M k + 1) ((o.scaled a).loc ++ [(o.scaled a).eta]) =
      fun κ c => a * D.spectra (D.M k + 1) (o.loc ++ [o.eta]) κ c := by
    change D.spectra (D.M k + 1) (scaledM a o.loc ++ scaledM a [o.eta]) = _
    rw [← scaledM_append, spectra_scaled]
  have e2 : D.spectra (D.M k) (o.scaled a).loc = fun κ c => a * D.spectra (D.M k) o.loc κ c := spectra_scaled _ _
  have e4 : (o.scaled a).t = o.t := rfl
  have e5 : (o.scaled a).bypass = o.bypass := rfl
  rw [e1, e2, e4, e5, h.danse.i, h.lastNorm, h.ext]
  have hd := kind_level (k := k) ha hf hu h.danse (D.spectra (D.M k + 1) (o.loc ++ [o.eta])) (D.vad k s.danse.i)
    o.t o.bypass
  have hl := kind_level (k := k) ha hf hu h.loc (D.spectra (D.M k) o.loc) (D.vad k s.danse.i) o.t o.bypass
  refine RelE.bind (R := Eq) ?_ fun w w' hw => ?_
  · rw [hd.w]; exact RelE.refl _
  subst hw
  refine RelE.bind (R := Eq) ?_ fun wl wl' hw => ?_
  · rw [hl.w]; exact RelE.refl _
  subst hw
  refine RelE.bind (R := Eq) (RelE.refl _) fun p p' hp => ?_
  subst hp
  refine ⟨⟨⟨hd.scm, hd.started, ?_, hd.i, hd.nUps, hd.pos⟩, hl, rfl, rfl⟩, rfl⟩
  simp only [hd.w]

/-- States of two runs, the second at level `a` and with other initial matrices. -/
structure TILevel (a : K) (I : Prop) {cov : Nat → Nat → Nat → Nat → K} (s : TIDanseSt n D)
    (s' : TIDanseSt n (D.withCov cov)) : Prop where
  run : s'.run = s.run.scaled a
  node : ∀ k : Fin n, TDNodeLevel a I (B := D.nb) (M := D.M k) (s.node k) (s'.node k)

theorem tiDanseStepEv_level (ha : star a = a) (h0 : a ≠ 0) (hf : D.LevelFree a) {I : Prop}
    (hu : D.use1st = true ∨ I) {cov : Nat → Nat → Nat → Nat → K} (y : Fin n → List (List K))
    (trees : List (TreeObj n)) (t : ℚ) {s : TIDanseSt n D} {s' : TIDanseSt n (D.withCov cov)}
    (h : TILevel a I s s') (e : OutEv) :
    RelE (TILevel a I) (tiDanseStepEv D y trees t s e)
      (tiDanseStepEv (D.withCov cov) (fun q => scaledM a (y q)) trees t s' e) := by
  unfold tiDanseStepEv
  rw [h.run]
  have hother : e.ty ≠ .up → RelE (TILevel a I)
      (tiStepEv D.g ⟨fun _ _ => ⟨[], [], []⟩, fun _ _ => false⟩ y trees t s.run e >>= fun x =>
        .ok { s with run := x })
      (tiStepEv (D.withCov cov).g ⟨fun _ _ => ⟨[], [], []⟩, fun _ _ => false⟩ (fun q => scaledM a (y q)) trees t
        (s.run.scaled a) e >>= fun x => .ok { s' with run := x }) := by
    intro he
    have e1 : tiStepEv (D.withCov cov).g ⟨fun _ _ => ⟨[], [], []⟩, fun _ _ => false⟩ (fun q => scaledM a (y q))
        trees t (s.run.scaled a) e = _ := scaled_tiStepEv (g := D.g) ha (fun _ => h0) _ y trees t s.run e he
    rw [e1]
    refine (RelE.of_map _).bind fun u v hv => ?_
    subst hv
    exact ⟨rfl, h.node⟩
  cases hty : e.ty with
  | up =>
    simp only
    split_ifs with hlt
    · have e1 : tiObserve (D.withCov cov).g (scaledM a (y ⟨e.node, hlt⟩)) t e.node e.bypass
          ((s.run.scaled a).net.etaMk ⟨e.node, hlt⟩) = _ :=
        scaled_tiObserve (g := D.g) (y ⟨e.node, hlt⟩) t e.node e.bypass (s.run.net.etaMk ⟨e.node, hlt⟩)
      rw [e1]
      refine (RelE.of_map _).bind fun o o' ho => ?_
      subst ho
      refine (tiNodeUpdate_level ha hf hu (h.node ⟨e.node, hlt⟩) o).bind fun r r' hr => ?_
      obtain ⟨h1, h2⟩ := hr
      rw [h2]
      have e3 : r'.1.danse.started = r.1.danse.started := h1.danse.started
      rw [e3]
      have e4 : tiUpdate (D.withCov cov).g (fun _ => r.2) (fun _ => r.1.danse.started) (scaledM a (y ⟨e.node, hlt⟩))
          t e.node e.bypass ((s.run.scaled a).node ⟨e.node, hlt⟩) ((s.run.scaled a).net.etaMk ⟨e.node, hlt⟩) = _ :=
        scaled_tiUpdate (g := D.g) ha r.2 r.1.danse.started (y ⟨e.node, hlt⟩) t e.node e.bypass
          (s.run.node ⟨e.node, hlt⟩) (s.run.net.etaMk ⟨e.node, hlt⟩)
      rw [e4]
      refine (RelE.of_map _).bind fun u v hv => ?_
      subst hv
      constructor
      · simp only [TISt.scaled, update_scaledN]
      · intro k
        by_cases hq : k = ⟨e.node, hlt⟩
        · subst hq
          simp only [Function.update_self]
          exact h1
        · simp only [Function.update_of_ne hq]
          exact h.node k
    · rfl
  | bc => exact hother (by rw [hty]; simp)
  | fu => exact hother (by rw [hty]; simp)
  | re => exact hother (by rw [hty]; simp)
  | tr => exact hother (by rw [hty]; simp)

theorem tiDanseRun_level (ha : star a = a) (h0 : a ≠ 0) (hf : D.LevelFree a) {cov : Nat → Nat → Nat → Nat → K}
    (hu : D.use1st = true ∨ ∀ k κ i j, cov k κ i j = a ^ 2 * D.cov0 k κ i j) (T : Nat) (y : Fin n → List (List K))
    (up0 : Fin n → List (Fin n)) (trees : List (TreeObj n)) (out : List (Instant ℚ)) :
    RelE (TILevel a (∀ k κ i j, cov k κ i j = a ^ 2 * D.cov0 k κ i j)) (tiDanseRun D T y up0 trees out)
      (tiDanseRun (D.withCov cov) T (fun q => scaledM a (y q)) up0 trees out) := by
  have hi : TILevel a (∀ k κ i j, cov k κ i j = a ^ 2 * D.cov0 k κ i j) (TIDanseSt.init D T y up0)
      (TIDanseSt.init (D.withCov cov) T (fun q => scaledM a (y q)) up0) := by
    refine ⟨?_, fun k => ?_⟩
    · simp only [TIDanseSt.init, TISt.init, TISt.scaled, TIState.scaled, TINode.init, TINode.scaled, scaled_zeros,
        scaledM_length, scaled_nil, List.map_nil]
      rfl
    have hk : ∀ (m : Nat) (w : Nat → List (List K)), NodeLevel a (∀ k κ i j, cov k κ i j = a ^ 2 * D.cov0 k κ i j)
        (D.kind0 k m w) ((D.withCov cov).kind0 k m w) := by
      intro m w
      refine ⟨⟨rfl, rfl, fun h => ?_, fun h => ?_⟩, rfl, rfl, rfl, rfl, fun h => by cases h⟩ <;>
      · have h := h.resolve_left (by simp [DanseCfg.kind0])
        funext κ
        ext i j
        simp only [DanseCfg.kind0, DanseCfg.withCov, Matrix.smul_apply, Matrix.of_apply, smul_eq_mul]
        exact h k κ i j
    exact ⟨hk _ _, hk _ _, rfl, rfl⟩
  refine RelE.foldlM (fun u v i h => ?_) out hi
  unfold tiDanseInstant
  exact RelE.foldlM (fun u v e h => tiDanseStepEv_level ha h0 hf hu y trees i.t h e) i.evs h

end
end Danse
