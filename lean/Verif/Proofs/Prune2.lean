import Verif.Proofs.Prune
import Verif.Props.TISched

/-! # What happens to nodes that the pruned network does not connect to the root -/

namespace Danse

section
variable {V : Type} [DecidableEq V]

theorem visitNbr_next {nbr : V → List V} {v : V} {passed : List V} (acc : List V × Orient V) (q : V) :
    ∀ x ∈ (visitNbr nbr v passed acc q).1, x ∈ acc.1 ∨ x = q := by
  obtain ⟨next, s⟩ := acc
  intro x hx
  unfold visitNbr at hx
  simp only at hx
  split at hx
  · split at hx
    · simp only [List.mem_append, List.mem_singleton] at hx
      exact hx
    · exact Or.inl hx
  · exact Or.inl hx

theorem identify_next {nbr : V → List V} {v : V} {passed : List V} (s : Orient V) :
    ∀ x ∈ (identifyUpDown nbr v s passed).1, x ∈ nbr v := by
  unfold identifyUpDown
  have key : ∀ (l : List V) (acc : List V × Orient V), (∀ x ∈ l, x ∈ nbr v) → (∀ x ∈ acc.1, x ∈ nbr v) →
      ∀ x ∈ (l.foldl (visitNbr nbr v passed) acc).1, x ∈ nbr v := by
    intro l
    induction l with
    | nil => intro acc _ h; exact h
    | cons q l ih =>
      intro acc hl hacc
      rw [List.foldl_cons]
      refine ih _ (fun x hx => hl x (by simp [hx])) ?_
      intro x hx
      rcases visitNbr_next acc q x hx with h | rfl
      · exact hacc x h
      · exact hl _ (by simp)
  exact key _ _ (fun x hx => hx) (by simp)

theorem orientLevel_next {nbr : V → List V} (R : V → Prop) (hR : ∀ v, R v → ∀ q ∈ nbr v, R q)
    (level : List V) (s : Orient V) (passed : List V) (hl : ∀ v ∈ level, R v) :
    ∀ x ∈ (orientLevel nbr level s passed).2.2, R x := by
  unfold orientLevel
  have key : ∀ (l : List V) (st : Orient V × List V × List V), (∀ x ∈ l, R x) → (∀ x ∈ st.2.2, R x) →
      ∀ x ∈ (l.foldl (fun (st : Orient V × List V × List V) k =>
        let (foo, s') := identifyUpDown nbr k st.1 st.2.1
        (s', st.2.1 ++ [k], st.2.2 ++ foo)) st).2.2, R x := by
    intro l
    induction l with
    | nil => intro st _ h; exact h
    | cons q l ih =>
      intro st hl' hst
      rw [List.foldl_cons]
      refine ih _ (fun x hx => hl' x (by simp [hx])) ?_
      intro x hx
      rcases List.mem_append.mp hx with h | h
      · exact hst x h
      · exact hR q (hl' q (by simp)) x (identify_next _ x h)
  exact key _ _ hl (by simp)

theorem orientLoop_reach {nbr : V → List V} (R : V → Prop) (hR : ∀ v, R v → ∀ q ∈ nbr v, R q) :
    ∀ (fuel : Nat) (level : List V) (s : Orient V) (passed : List V) (order : List (TreeLevel V)),
      (∀ v ∈ level, R v) → (∀ l ∈ order, ∀ v ∈ l.nodes, R v) →
      ∀ o, orientLoop nbr fuel level s passed order = some o → ∀ l ∈ o.2, ∀ v ∈ l.nodes, R v := by
  intro fuel
  induction fuel with
  | zero => intro level s passed order _ _ o ho; cases ho
  | succ fuel ih =>
    intro level s passed order hl ho o h
    unfold orientLoop at h
    split at h
    · injection h with h
      subst h
      exact ho
    · have hn := orientLevel_next R hR level s passed hl
      refine ih _ _ _ _ hn ?_ o h
      split
      · exact ho
      · intro l hl'
        rcases List.mem_append.mp hl' with h' | h'
        · exact ho l h'
        · rw [List.mem_singleton] at h'
          subst h'
          exact hn

/-- `orientate` lists only nodes that it reaches from the root along neighbour lists. -/
theorem orientate_reach {nbr : V → List V} (R : V → Prop) (hR : ∀ v, R v → ∀ q ∈ nbr v, R q) {root : V}
    (hr : R root) {fuel : Nat} {o : Orient V × List (TreeLevel V)} (h : orientate nbr root fuel = some o) :
    ∀ l ∈ o.2, ∀ v ∈ l.nodes, R v := by
  unfold orientate at h
  obtain ⟨p, hp, rfl⟩ := Option.map_eq_some_iff.mp h
  intro l hl
  exact orientLoop_reach R hR fuel [root] _ [] [.one root] (by simpa using hr)
    (by simpa [TreeLevel.nodes] using hr) p hp l (by simpa using hl)

end

section
variable {τ : Type} [LinearOrder τ]

theorem loopGroups_unlisted {c : LoopCfg τ} (hti : c.ti = true) {k : Nat}
    (hk : ∀ o ∈ c.orderings, k ∉ o.flatMap Level.nodes) :
    ∀ (gs : List (τ × List (Ev τ))) (b : BypassSt) (s : TreeSt τ) (out : List (Instant τ)),
      loopGroups c b s gs = .ok out → ∀ i ∈ out, ∀ e ∈ i.evs, e.node ≠ k := by
  intro gs
  induction gs with
  | nil =>
    intro b s out h
    injection h with h
    subst h
    simp
  | cons g gs ih =>
    intro b s out h
    unfold loopGroups at h
    cases ht : treeStep c s g.1 with
    | error e => rw [ht] at h; cases h
    | ok p =>
      obtain ⟨order, s'⟩ := p
      rw [ht] at h
      simp only at h
      have ho : order ∈ c.orderings := by
        unfold treeStep at ht
        rw [hti, if_pos rfl] at ht
        simp only at ht
        split at ht
        · rename_i o hg
          injection ht with ht
          have e : o = order := congrArg Prod.fst ht
          subst e
          exact pyGet_mem hg
        · cases ht
      cases hr : loopGroups c (bypassStep c.byp b (sortSimultaneous c.ti order g.2)).2 s' gs with
      | error e => rw [hr] at h; cases h
      | ok rest =>
        rw [hr] at h
        injection h with h
        subst h
        intro i hi
        rcases List.mem_cons.mp hi with rfl | hi
        · intro e he hek
          have hm : (e.node, e.ty) ∈ (bypassStep c.byp b (sortSimultaneous c.ti order g.2)).1.map
              fun o => (o.node, o.ty) := List.mem_map.mpr ⟨e, he, rfl⟩
          rw [bypassStep_keys] at hm
          obtain ⟨x, hx, hxe⟩ := List.mem_map.mp hm
          have := (mem_sortSimultaneous.mp hx).2 hti
          have hn : x.node = e.node := congrArg Prod.fst hxe
          rw [hn, hek] at this
          exact hk order ho this
        · exact ih _ _ _ hr i hi

/-- A node that no leaf-to-root ordering lists gets no event at all. -/
theorem unlisted_no_event {a : EvArgs τ} (hti : a.tiFlag = true) {k : Nat}
    (hk : ∀ o ∈ a.orderings, k ∉ o.flatMap Level.nodes) {out : List (Instant τ)}
    (h : buildEvents a = .ok out) : ∀ t ty, (t, k, ty) ∉ delivered out := by
  unfold buildEvents at h
  obtain ⟨rows, _, h⟩ := bind_ok_inv h
  unfold processRows at h
  rw [groupLoop_eq] at h
  intro t ty hm
  obtain ⟨i, hi, hm⟩ := List.mem_flatMap.mp hm
  obtain ⟨e, he, hm⟩ := List.mem_map.mp hm
  refine loopGroups_unlisted (c := _) hti hk _ _ _ _ h i hi e he ?_
  exact congrArg (fun x => x.2.1) hm

end

section
variable {n : Nat} {mst : SimpleGraph (Fin n) → (Fin n → Fin n → ℝ) → SimpleGraph (Fin n)}
  {A : Fin n → Fin n → ℝ} {p : Fin n → Pt} {c : RootCfg n}

open Classical in
/-- The weights of the pruned network's links. -/
noncomputable def prunedMatrix (mst : SimpleGraph (Fin n) → (Fin n → Fin n → ℝ) → SimpleGraph (Fin n))
    (A : Fin n → Fin n → ℝ) (p : Fin n → Pt) : Fin n → Fin n → ℝ :=
  weightMatrix (mst (linksOf A) (linkWeight (fun k => some (p k)) (decide (NearlySamePosition p))))
    (linkWeight (fun k => some (p k)) (decide (NearlySamePosition p)))

theorem prune_some (r : Fin n) : pruneToTree mst A (fun k => some (p k)) c (some r) =
    .ok (finishPrune (prunedMatrix mst A p) r) := by
  unfold pruneToTree
  rw [allAtSamePosition_some]
  rfl

theorem prune_none : pruneToTree mst A (fun k => some (p k)) c none =
    (setTreeRoot (prunedMatrix mst A p) c >>= fun r => match r with
      | none => .error .valueError
      | some i => if h : i < n then .ok (finishPrune (prunedMatrix mst A p) ⟨i, h⟩)
        else .error .indexError) := by
  unfold pruneToTree
  rw [allAtSamePosition_some]
  rfl

/-- The pruned network is never fully connected with itself: the early return does not happen. -/
theorem setTreeRoot_tree (hn : 0 < n) : setTreeRoot (prunedMatrix mst A p) c =
    if c.measure = "snr" then
      .ok (some (npArgmax ((List.finRange n).map fun k => (snrEstimate (c.data k) (c.vad k)).key)))
    else if c.measure = "user-defined" then
      match c.userRoot with
      | some r => .ok (some r)
      | none => .error .valueError
    else .error .valueError := by
  have hne : ¬ ∀ u v, prunedMatrix mst A p u v = 1 := by
    intro h
    have := h ⟨0, hn⟩ ⟨0, hn⟩
    unfold prunedMatrix weightMatrix at this
    rw [if_neg (fun h => SimpleGraph.irrefl _ h)] at this
    norm_num at this
  unfold setTreeRoot
  rw [if_neg hne]
  split
  · rfl
  · split
    · cases c.userRoot <;> rfl
    · rfl

end

/-- With one tree only, one tree is handed to the run. -/
theorem keep_one_tree {β : Type} {bc : BcType} {N Ns : Nat} {seq sim : Bool} {refSensor start : Nat}
    {minF : Int} {nodes : List ClockNode} {ordOf : Nat → List Level} {treeOf : Nat → β}
    {r : List (Instant ℚ) × List ℚ × List β}
    (h : initEventsTI bc N Ns seq true sim refSensor start minF nodes ordOf treeOf = .ok r) :
    r.2.2.length = 1 := by
  unfold initEventsTI at h
  obtain ⟨fsInf, _, h⟩ := bind_ok_inv h
  obtain ⟨ttot, _, h⟩ := bind_ok_inv h
  obtain ⟨ub, _, h⟩ := bind_ok_inv h
  obtain ⟨tr, ht, h⟩ := bind_ok_inv h
  obtain ⟨out, _, h⟩ := bind_ok_inv h
  injection h with h
  subst h
  unfold tiTrees at ht
  rw [if_neg (by simp)] at ht
  injection ht with ht
  subst ht
  simp

end Danse
