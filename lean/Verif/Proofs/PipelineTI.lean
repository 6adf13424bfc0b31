import Verif.Proofs.Pipeline
import Verif.Proofs.Prune2
import Verif.Proofs.ScaleTI
import Verif.Proofs.TIDanse2
import Verif.Props.TIGiven

/-!
# Helper lemmas for C126 in ad-hoc networks
-/

set_option linter.unusedSectionVars false

namespace Danse

/-! ### Pruning a tree -/
section
variable {n : Nat} {mst : SimpleGraph (Fin n) → (Fin n → Fin n → ℝ) → SimpleGraph (Fin n)}
  {A : Fin n → Fin n → ℝ} {p : Fin n → Pt}

/-- A forest has no other spanning forest than itself. -/
theorem SpanningForest.self {V : Type} {G T : SimpleGraph V} (hG : G.IsAcyclic) (h : SpanningForest G T) : T = G := by
  refine le_antisymm h.links fun u v huv => ?_
  by_contra hc
  have hle : T ≤ G.deleteEdges {s(u, v)} := by
    intro x y hxy
    rw [SimpleGraph.deleteEdges_adj]
    refine ⟨h.links hxy, fun he => ?_⟩
    rcases Sym2.eq_iff.mp he with ⟨rfl, rfl⟩ | ⟨rfl, rfl⟩
    · exact hc hxy
    · exact hc hxy.symm
  exact SimpleGraph.isBridge_iff.mp ((SimpleGraph.isAcyclic_iff_forall_adj_isBridge.mp hG) huv)
    ((h.reach u v huv.reachable).mono hle)

/-- Pruning a pruned network changes nothing. -/
theorem prunedMatrix_idem (hm : MstAlgorithm mst) :
    prunedMatrix mst (prunedMatrix mst A p) p = prunedMatrix mst A p := by
  classical
  set w := linkWeight (fun k => some (p k)) (decide (NearlySamePosition p)) with hw
  have e : prunedMatrix mst A p = weightMatrix (mst (linksOf A) w) w := rfl
  set T := mst (linksOf A) w with hT
  have hle : linksOf (weightMatrix T w) ≤ T := by
    intro u v h
    rcases h.2 with h | h
    · by_contra hc
      exact h (by unfold weightMatrix; rw [if_neg hc])
    · by_contra hc
      exact h (by unfold weightMatrix; rw [if_neg fun h => hc h.symm])
  have hac : (linksOf (weightMatrix T w)).IsAcyclic := (hm (linksOf A) w).1.acyclic.anti hle
  have h1 := SpanningForest.self hac (hm (linksOf (weightMatrix T w)) w).1
  rw [e]
  change weightMatrix (mst (linksOf (weightMatrix T w)) w) w = _
  rw [h1]
  funext u v
  have eq : ∀ S : SimpleGraph (Fin n), weightMatrix S w u v = if S.Adj u v then w u v else 0 := fun _ => rfl
  rw [eq, eq]
  by_cases h : T.Adj u v
  · rw [if_pos h]
    by_cases hz : w u v = 0
    · rw [hz, ite_self]
    · rw [if_pos]
      exact ⟨h.ne, Or.inl (by rw [eq, if_pos h]; exact hz)⟩
  · rw [if_neg h, if_neg fun hc => h (hle hc)]

theorem prune_prunedAt [NeZero n] (c : RootCfg n) (k : Fin n) :
    pruneToTree mst A (fun q => some (p q)) c (some k) = .ok (some (prunedAt mst p A k)) := by
  obtain ⟨P, hP⟩ := finishPrune_some (prunedMatrix mst A p) k
  have hk : Fin.ofNat n k.val = k := by
    apply Fin.ext
    simp [Fin.ofNat, Nat.mod_eq_of_lt k.isLt]
  have : prunedAt mst p A k = P := by
    unfold prunedAt
    rw [hk, prune_some, hP]
    rfl
  rw [this, prune_some, hP]

theorem prunedAt_eq [NeZero n] {A' : Fin n → Fin n → ℝ} (h : prunedMatrix mst A p = prunedMatrix mst A' p) :
    prunedAt mst p A = prunedAt mst p A' := by
  funext k
  unfold prunedAt
  rw [prune_some, prune_some, h]

theorem prunedAt_adj [NeZero n] (k : Nat) : (prunedAt mst p A k).adj = prunedMatrix mst A p := by
  have h := finishPrune_some (prunedMatrix mst A p) (Fin.ofNat n k)
  obtain ⟨P, hP⟩ := h
  have : prunedAt mst p A k = P := by
    unfold prunedAt
    rw [prune_some, hP]
    rfl
  rw [this]
  unfold finishPrune at hP
  obtain ⟨o, -, rfl⟩ := Option.map_eq_some_iff.mp hP
  rfl

theorem prunedAt_again [NeZero n] (hm : MstAlgorithm mst) (k : Nat) :
    prunedAt mst p (prunedAt mst p A k).adj = prunedAt mst p A :=
  prunedAt_eq (by rw [prunedAt_adj, prunedMatrix_idem hm])

end

/-! ### The schedule -/

theorem mapM_map' {α β γ : Type} (f : α → β) (k : β → Except PyErr γ) (l : List α) :
    (l.map f).mapM k = l.mapM fun a => k (f a) := by
  induction l with
  | nil => rfl
  | cons a l ih => rw [List.map_cons, List.mapM_cons, List.mapM_cons, ih]

theorem tiInstants_nb {n : Nat} {bc : BcType} (hb : ∀ L, bc ≠ .few L true) (N Ns : Nat) (fs : Fin n → ℚ)
    (st : Fin n → List ℚ) (nb nb' : Fin n → List Nat) (fsInf ttot : List ℚ) :
    tiInstants bc N Ns ((List.finRange n).map fun k => ⟨fs k, st k, nb k⟩) fsInf ttot =
      tiInstants bc N Ns ((List.finRange n).map fun k => ⟨fs k, st k, nb' k⟩) fsInf ttot := by
  unfold tiInstants
  cases bc with
  | whole => simp only [List.zipIdx_map, mapM_map', Prod.map]
  | few L eff =>
    cases eff with
    | true => exact absurd rfl (hb L)
    | false => simp only [List.zipIdx_map, mapM_map', Prod.map, Bool.false_eq_true, if_false]

theorem initEventsTI_nb {n : Nat} {β : Type} {bc : BcType} (hb : ∀ L, bc ≠ .few L true) (N Ns : Nat) (seq keep sim : Bool)
    (r start : Nat) (minF : Int) (fs : Fin n → ℚ)
    (st : Fin n → List ℚ) (nb nb' : Fin n → List Nat) (ordOf : Nat → List Level) (treeOf : Nat → β) :
    initEventsTI bc N Ns seq keep sim r start minF ((List.finRange n).map fun k => ⟨fs k, st k, nb k⟩) ordOf treeOf =
      initEventsTI bc N Ns seq keep sim r start minF ((List.finRange n).map fun k => ⟨fs k, st k, nb' k⟩) ordOf treeOf := by
  unfold initEventsTI
  simp only [List.map_map, Function.comp_def, mapM_map', tiInstants_nb hb N Ns fs st nb nb', List.length_map]

theorem initEventsTI_map {α β : Type} (f : α → β) {bc : BcType} {N Ns : Nat} {seq keep sim : Bool} {r start : Nat} {minF : Int}
    {nodes : List ClockNode} {ordOf : Nat → List Level} {treeOf : Nat → α} {out : List (Instant ℚ)} {fsInf : List ℚ}
    {tr : List α}
    (h : initEventsTI bc N Ns seq keep sim r start minF nodes ordOf treeOf = .ok (out, fsInf, tr)) :
    initEventsTI bc N Ns seq keep sim r start minF nodes ordOf (fun k => f (treeOf k)) = .ok (out, fsInf, tr.map f) := by
  unfold initEventsTI at h ⊢
  obtain ⟨a1, h1, h⟩ := bind_ok_inv h
  obtain ⟨a2, h2, h⟩ := bind_ok_inv h
  obtain ⟨a3, h3, h⟩ := bind_ok_inv h
  obtain ⟨a4, h4, h⟩ := bind_ok_inv h
  obtain ⟨a5, h5, h⟩ := bind_ok_inv h
  injection h with h
  injection h with e1 h
  injection h with e2 e3
  subst e1 e2 e3
  simp only [bind, Except.bind, h1, h2, h3, h4, h5, List.map_map]
  rfl

/-! ### Runs -/
section
variable {n : Nat} {K : Type} [Field K] [StarRing K] [DecidableEq K] {g : GivenCfg K} {F : Fin n → Nat → Rows K}

theorem tiStepEv_shape {L : Nat} {eff : Bool} (hb : g.bc = .few L eff) (y : Fin n → List (List K)) (trees : List (TreeObj n))
    (t : ℚ) (s : TISt n K) (e : OutEv) :
    tiStepEv g (.given F) (fun k => scaledM 0 (y k)) trees t (s.scaled 0) e =
      (tiStepEv g (.given F) y trees t s e).map (TISt.scaled 0) := by
  by_cases he : e.ty = .up
  · unfold tiStepEv
    simp only [he]
    split_ifs with h
    · have hu : ∀ (yk : List (List K)) (nd : TINode K) (eta : List K),
          tiUpdate g ((TIStrategy.given F).rows ⟨e.node, h⟩) ((TIStrategy.given F).started ⟨e.node, h⟩) yk t e.node e.bypass
            nd eta = tiUpdate g (fun _ => F ⟨e.node, h⟩ (nd.hist.length + 1)) (fun _ => false) yk t e.node e.bypass nd eta := by
        intro yk nd eta
        unfold tiUpdate TIStrategy.given
        simp only [List.length_append, List.length_singleton]
      have := scaled_tiUpdate (g := g) (a := 0) (star_zero _) (F ⟨e.node, h⟩ ((s.node ⟨e.node, h⟩).hist.length + 1)) false
        (y ⟨e.node, h⟩) t e.node e.bypass (s.node ⟨e.node, h⟩) (s.net.etaMk ⟨e.node, h⟩)
      have e1 : (((s.scaled 0).node ⟨e.node, h⟩).hist.length) = (s.node ⟨e.node, h⟩).hist.length := by
        simp [TISt.scaled, TINode.scaled]
      simp only [hu, e1]
      refine Eq.trans (congrArg (· >>= _) this) (map_bind_comm fun p => ?_)
      simp only [TISt.scaled, update_scaledN]
      rfl
    · rfl
  · exact scaled_tiStepEv (star_zero _) (fun h => by rw [hb] at h; cases h) _ y trees t s e he

theorem tiRun_shape {L : Nat} {eff : Bool} (hb : g.bc = .few L eff) (y : Fin n → List (List K)) (trees : List (TreeObj n))
    (s : TISt n K) (out : List (Instant ℚ)) :
    tiRun g (.given F) (fun k => scaledM 0 (y k)) trees (s.scaled 0) out =
      (tiRun g (.given F) y trees s out).map (TISt.scaled 0) := by
  unfold tiRun
  refine foldlM_map_comm (f := TISt.scaled 0) (fun s i => ?_) out s
  unfold tiStepInstant
  exact foldlM_map_comm (f := TISt.scaled 0) (fun s e => tiStepEv_shape hb y trees i.t s e) i.evs s

theorem tiInit_shape (N r T : Nat) {y y' : Fin n → List (List K)} (h : ∀ k, SameShape (y k) (y' k))
    (ext : Fin n → List (List K)) (up : Fin n → List (Fin n)) :
    (TISt.init N r T y ext up).scaled 0 = (TISt.init N r T y' ext up).scaled 0 := by
  have hl : ∀ k, (y k).length = (y' k).length := fun k => by
    have := congrArg List.length (h k)
    simpa using this
  unfold TISt.init TISt.scaled
  simp only [hl]

/-- Two recordings of the same shape: one run with given filters ends normally iff the other does. -/
theorem tiRun_ok_of_shape {L : Nat} {eff : Bool} (hb : g.bc = .few L eff) {y y' : Fin n → List (List K)}
    (h : ∀ k, SameShape (y k) (y' k)) {trees : List (TreeObj n)} {N r T : Nat} {ext : Fin n → List (List K)}
    {up : Fin n → List (Fin n)} {out : List (Instant ℚ)} {s : TISt n K}
    (hs : tiRun g (.given F) y trees (.init N r T y ext up) out = .ok s) :
    ∃ s', tiRun g (.given F) y' trees (.init N r T y' ext up) out = .ok s' := by
  have h1 := tiRun_shape (F := F) hb y trees (.init N r T y ext up) out
  have h2 := tiRun_shape (F := F) hb y' trees (.init N r T y' ext up) out
  have e : (fun k => scaledM (0 : K) (y k)) = fun k => scaledM 0 (y' k) := funext fun k => shape_of_same (h k)
  rw [← tiInit_shape N r T h, ← e, h1, hs] at h2
  cases h3 : tiRun g (.given F) y' trees (.init N r T y' ext up) out with
  | ok s' => exact ⟨s', rfl⟩
  | error e => rw [h3] at h2; cases h2

/-- A schedule that starts with a tree formation: the upstream neighbours before it are not read. -/
theorem tiRun_up {U : TIStrategy n K} {y : Fin n → List (List K)} {trees : List (TreeObj n)} {N r T : Nat}
    {ext : Fin n → List (List K)} {up up' : Fin n → List (Fin n)} {t : ℚ} {e : OutEv} {es : List OutEv}
    {rest : List (Instant ℚ)} (he : e.ty = .tr) :
    tiRun g U y trees (.init N r T y ext up) (⟨t, e :: es⟩ :: rest) =
      tiRun g U y trees (.init N r T y ext up') (⟨t, e :: es⟩ :: rest) := by
  unfold tiRun
  rw [List.foldlM_cons, List.foldlM_cons]
  have : tiStepInstant g U y trees (.init N r T y ext up) ⟨t, e :: es⟩ =
      tiStepInstant g U y trees (.init N r T y ext up') ⟨t, e :: es⟩ := by
    unfold tiStepInstant
    simp only [List.foldlM_cons]
    have : tiStepEv g U y trees t (.init N r T y ext up) e = tiStepEv g U y trees t (.init N r T y ext up') e := by
      unfold tiStepEv
      simp only [he, TISt.init]
    rw [this]
  rw [this]

end

theorem sums_zipWith {K : Type} [Add K] : ∀ {a b : List K}, a.length = b.length → Sums a b (List.zipWith (· + ·) a b)
  | [], [], _ => All3.nil
  | _ :: _, _ :: _, h => All3.cons rfl (sums_zipWith (by simpa using h))

/-! ### The first event -/

theorem starts_with_tree {n : Nat} {a : EvArgs ℚ} {ex : List ℚ} {out : List (Instant ℚ)} (h : TITimes n a ex)
    (hb : buildEvents a = .ok out) (hcov : ∀ o ∈ a.orderings, CoversNodes n o) : StartsWithTree out := by
  have hcov' : ∀ o ∈ a.orderings, CoversNodes a.up_t.length o := by rw [h.nodes]; exact hcov
  obtain ⟨hsort, hne, -, hdel⟩ := C01_exactly_once hb (fun _ => hcov')
  obtain ⟨t0, h0, h1, h2⟩ := h.first
  obtain ⟨k, hk⟩ := scheduled_tr_mem h h0
  obtain ⟨i, hi, hit, e0, he0, -, hty0⟩ := mem_delivered.mp ((hdel _ _ _).mpr hk)
  cases out with
  | nil => cases hi
  | cons j rest =>
    obtain ⟨t, evs⟩ := j
    cases evs with
    | nil => exact absurd rfl (hne _ (List.mem_cons_self ..))
    | cons e es =>
      refine ⟨t, e, es, rest, rfl, ?_⟩
      by_contra hty
      have hs : Scheduled a a.tiFlag t e.node e.ty :=
        (hdel _ _ _).mp (mem_delivered.mpr ⟨_, List.mem_cons_self .., rfl, e, List.mem_cons_self .., rfl, rfl⟩)
      have hle : t0 ≤ t := by
        by_cases hx : e.ty ∈ [EvType.fu, .bc, .re]
        · exact h1 _ ((scheduled_ex h hx).mp hs).2
        · cases hc : e.ty with
          | tr => exact absurd hc hty
          | up =>
            rw [hc] at hs
            obtain ⟨_, ts, e1, e2⟩ := hs
            exact h2 _ (List.mem_flatten.mpr ⟨ts, List.mem_of_getElem? e1, e2⟩)
          | fu => simp [hc] at hx
          | bc => simp [hc] at hx
          | re => simp [hc] at hx
      have hij : i = ⟨t, e :: es⟩ := by
        rcases List.mem_cons.mp hi with hi | hi
        · exact hi
        · exfalso
          rw [List.map_cons, List.pairwise_cons] at hsort
          have := hsort.1 i.t (List.mem_map.mpr ⟨i, hi, rfl⟩)
          rw [hit] at this
          exact absurd this (not_lt.mpr hle)
      subst hij
      obtain ⟨order, -, hord⟩ := C03_tree_dependencies hb h.ti hcov' (List.mem_cons_self ..)
      rcases List.mem_cons.mp he0 with rfl | he0
      · exact hty hty0
      · have := (List.pairwise_cons.mp hord).1 e0 he0
        unfold TreeOrder at this
        rw [hty0] at this
        rcases this with h3 | h3
        · simp [evRank] at h3
        · exact hty h3.1

end Danse
