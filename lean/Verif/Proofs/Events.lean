import Verif.Spec.Events
import Mathlib.Data.List.Sort
import Mathlib.Data.List.Nodup
import Mathlib.Data.List.Flatten
import Mathlib.Tactic.Linarith

/-! # Helper lemmas for the event schedule -/

set_option linter.unusedSectionVars false

namespace Danse

section
variable {τ : Type} [LinearOrder τ]

theorem groupCheck_eq (curr : Ev τ) (l : List (Ev τ)) :
    groupCheck curr l = (l.takeWhile (fun e => decide (e.t = curr.t)),
      l.dropWhile (fun e => decide (e.t = curr.t))) := by
  induction l generalizing curr with
  | nil => simp [groupCheck]
  | cons nxt rest ih =>
    unfold groupCheck
    split
    · rename_i h
      rw [ih nxt]
      simp [h]
    · rename_i h
      have h' : ¬ nxt.t = curr.t := fun h2 => h h2.symm
      simp [h']

/-- Rows are sorted by time. -/
abbrev RowsSorted (l : List (Ev τ)) : Prop := l.Pairwise (fun a b => a.t ≤ b.t)

theorem dropWhile_gt {e : Ev τ} {l : List (Ev τ)} (h : RowsSorted (e :: l)) :
    ∀ x ∈ l.dropWhile (fun x => decide (x.t = e.t)), e.t < x.t := by
  intro x hx
  have h1 := List.pairwise_cons.mp h
  cases hd : l.dropWhile (fun x => decide (x.t = e.t)) with
  | nil => simp [hd] at hx
  | cons y ys =>
    have hsub : (y :: ys).Sublist l := hd ▸ List.dropWhile_sublist _
    have hy : ¬ y.t = e.t := by
      have := List.head_dropWhile_not (fun x : Ev τ => decide (x.t = e.t)) (l := l)
        (by simp [hd])
      simp only [hd, List.head_cons, decide_eq_false_iff_not] at this
      exact this
    have hye : e.t < y.t := lt_of_le_of_ne (h1.1 y (hsub.subset (by simp))) (fun h => hy h.symm)
    rw [hd] at hx
    rcases List.mem_cons.mp hx with rfl | hx'
    · exact hye
    · have := (h1.2.sublist hsub)
      exact lt_of_lt_of_le hye ((List.pairwise_cons.mp this).1 x hx')

theorem takeWhile_eq {e : Ev τ} {l : List (Ev τ)} :
    ∀ x ∈ l.takeWhile (fun x => decide (x.t = e.t)), x.t = e.t := by
  intro x hx
  have h := List.all_takeWhile (p := fun x : Ev τ => decide (x.t = e.t)) (l := l)
  have := List.all_eq_true.mp h x hx
  simpa using this

/-- Grouping of time-sorted rows into simultaneous events. -/
def groupRows : List (Ev τ) → List (τ × List (Ev τ))
  | [] => []
  | e :: rest =>
    (e.t, e :: rest.takeWhile (fun x => decide (x.t = e.t))) ::
      groupRows (rest.dropWhile (fun x => decide (x.t = e.t)))
termination_by l => l.length
decreasing_by
  have := (List.dropWhile_sublist (l := rest) (fun x : Ev τ => decide (x.t = e.t))).length_le
  simp only [List.length_cons]
  omega

/-- The grouping loop over already grouped events. -/
def loopGroups (c : LoopCfg τ) (b : BypassSt) (s : TreeSt τ) :
    List (τ × List (Ev τ)) → Except PyErr (List (Instant τ))
  | [] => .ok []
  | g :: rest =>
    match treeStep c s g.1 with
    | .error err => .error err
    | .ok (order, s') =>
      let r := bypassStep c.byp b (sortSimultaneous c.ti order g.2)
      match loopGroups c r.2 s' rest with
      | .error err => .error err
      | .ok out => .ok (⟨g.1, r.1⟩ :: out)

theorem groupLoop_eq (c : LoopCfg τ) (b : BypassSt) (s : TreeSt τ) (l : List (Ev τ)) :
    groupLoop c b s l = loopGroups c b s (groupRows l) := by
  induction hl : l.length using Nat.strong_induction_on generalizing l b s with
  | _ n ih =>
    cases l with
    | nil => simp [groupLoop, groupRows, loopGroups]
    | cons e rest =>
      rw [groupLoop, groupRows, loopGroups]
      simp only [groupCheck_eq]
      cases treeStep c s e.t with
      | error err => rfl
      | ok p =>
        obtain ⟨order, s'⟩ := p
        simp only
        rw [ih _ (by
          have := (List.dropWhile_sublist (l := rest) (fun x : Ev τ => decide (x.t = e.t))).length_le
          simp only [List.length_cons] at hl
          omega) _ _ _ rfl]
        generalize loopGroups c _ s' _ = r
        cases r <;> rfl

/-- Facts about the groups of sorted rows. -/
theorem groupRows_spec (l : List (Ev τ)) (h : RowsSorted l) :
    ((groupRows l).map (·.1)).Pairwise (· < ·) ∧
    (∀ g ∈ groupRows l, g.2 ≠ [] ∧ ∀ e ∈ g.2, e.t = g.1) ∧
    (groupRows l).flatMap (·.2) = l := by
  induction hl : l.length using Nat.strong_induction_on generalizing l with
  | _ n ih =>
    cases l with
    | nil => simp [groupRows]
    | cons e rest =>
      have hlen := (List.dropWhile_sublist (l := rest) (fun x : Ev τ => decide (x.t = e.t))).length_le
      have hs : RowsSorted (rest.dropWhile (fun x => decide (x.t = e.t))) :=
        ((List.pairwise_cons.mp h).2).sublist (List.dropWhile_sublist _)
      have hrec := ih _ (by simp only [List.length_cons] at hl; omega) _ hs rfl
      obtain ⟨h1, h2, h3⟩ := hrec
      rw [groupRows]
      refine ⟨?_, ?_, ?_⟩
      · simp only [List.map_cons, List.pairwise_cons]
        refine ⟨?_, h1⟩
        intro t ht
        obtain ⟨g, hg, rfl⟩ := List.mem_map.mp ht
        obtain ⟨hne, hall⟩ := h2 g hg
        obtain ⟨x, hx⟩ := List.exists_mem_of_ne_nil _ hne
        rw [← hall x hx]
        apply dropWhile_gt h
        rw [← h3]
        exact List.mem_flatMap.mpr ⟨g, hg, hx⟩
      · intro g hg
        rcases List.mem_cons.mp hg with rfl | hg
        · refine ⟨by simp, ?_⟩
          intro x hx
          rcases List.mem_cons.mp hx with rfl | hx
          · rfl
          · exact takeWhile_eq x hx
        · exact h2 g hg
      · simp only [List.flatMap_cons, h3, List.cons_append, List.takeWhile_append_dropWhile]

/-- An event without its time. -/
abbrev Ev.key (e : Ev τ) : Nat × EvType := (e.node, e.ty)

theorem evTypes_mem (ty : EvType) : ty ∈ evTypes := by cases ty <;> simp [evTypes]
theorem evTypes_nodup : evTypes.Nodup := by decide

theorem mem_compileOrder {order : List Level} {evs : List (Ev τ)} {e : Ev τ} :
    e ∈ compileOrder order evs ↔ e ∈ evs ∧ e.node ∈ order.flatMap Level.nodes := by
  unfold compileOrder
  simp only [List.mem_flatMap]
  constructor
  · rintro ⟨l, hl, he⟩
    cases l with
    | one n =>
      simp only [List.mem_filter, decide_eq_true_eq] at he
      exact ⟨he.1, .one n, hl, by simp [Level.nodes, he.2]⟩
    | many ns =>
      simp only [List.mem_flatMap, List.mem_mergeSort, List.mem_filter, decide_eq_true_eq] at he
      obtain ⟨k, hk, he, hek⟩ := he
      exact ⟨he, .many ns, hl, by simpa [Level.nodes, hek] using hk⟩
  · rintro ⟨he, l, hl, hn⟩
    refine ⟨l, hl, ?_⟩
    cases l with
    | one n =>
      simp only [Level.nodes, List.mem_singleton] at hn
      simp [he, hn]
    | many ns =>
      simp only [Level.nodes] at hn
      simp only [List.mem_flatMap, List.mem_mergeSort, List.mem_filter, decide_eq_true_eq]
      exact ⟨e.node, hn, he, rfl⟩

theorem mem_sortSimultaneous {ti : Bool} {order : List Level} {evs : List (Ev τ)} {e : Ev τ} :
    e ∈ sortSimultaneous ti order evs ↔
      e ∈ evs ∧ (ti = true → e.node ∈ order.flatMap Level.nodes) := by
  unfold sortSimultaneous
  cases ti with
  | true =>
    simp only [if_true, List.mem_append, List.mem_flatMap, List.mem_filter, mem_compileOrder,
      List.mem_reverse, decide_eq_true_eq, forall_const]
    constructor
    · rintro (⟨ty, _, ⟨he, _⟩, h⟩ | ⟨ty, _, ⟨he, _⟩, h⟩)
      · exact ⟨he, h⟩
      · exact ⟨he, h⟩
    · rintro ⟨he, h⟩
      cases hds : e.ty.isDs with
      | true => exact .inl ⟨e.ty, ⟨evTypes_mem _, hds⟩, ⟨he, rfl⟩, h⟩
      | false => exact .inr ⟨e.ty, ⟨evTypes_mem _, by simp [hds]⟩, ⟨he, rfl⟩, h⟩
  | false =>
    simp only [List.mem_flatMap, List.mem_mergeSort, List.mem_filter, decide_eq_true_eq,
      Bool.false_eq_true, if_false, false_implies, and_true]
    constructor
    · rintro ⟨_, _, he, _⟩; exact he
    · intro he; exact ⟨e.ty, evTypes_mem _, he, rfl⟩

theorem nodup_flatMap_of_disjoint_keys {α β κ : Type} (f : α → List β) (key : β → κ)
    (l : List α) (hn : ∀ a ∈ l, (f a).Nodup)
    (hk : l.Pairwise (fun a b => ∀ x ∈ f a, ∀ y ∈ f b, key x ≠ key y)) :
    (l.flatMap f).Nodup := by
  rw [List.nodup_flatMap]
  refine ⟨hn, hk.imp ?_⟩
  intro a b h x hx hy
  exact h x hx x hy rfl

theorem filter_node_nodup {evs : List (Ev τ)} (h : evs.Nodup) (k : Nat) :
    (evs.filter (fun e => e.node = k)).Nodup := h.filter _

/-- A covering ordering lists each node once also after `treeLevel.sort()`. -/
theorem compileOrder_nodup {order : List Level} {evs : List (Ev τ)}
    (h : evs.Nodup) (ho : (order.flatMap Level.nodes).Nodup) :
    (compileOrder order evs).Nodup := by
  unfold compileOrder
  rw [List.nodup_flatMap] at ho
  apply nodup_flatMap_of_disjoint_keys _ id
  · intro l hl
    cases l with
    | one n => exact h.filter _
    | many ns =>
      simp only
      rw [List.nodup_flatMap]
      refine ⟨fun k _ => h.filter _, ?_⟩
      have hns : ns.Nodup := ho.1 _ hl
      have hns' : (ns.mergeSort (fun a b => decide (a ≤ b))).Nodup :=
        (List.mergeSort_perm ns _).nodup_iff.mpr hns
      refine hns'.imp ?_
      intro a b hab x hx hy
      simp only [List.mem_filter, decide_eq_true_eq] at hx hy
      exact hab (hx.2.symm.trans hy.2)
  · refine ho.2.imp ?_
    intro l1 l2 hd x hx y hy hxy
    simp only [id] at hxy
    subst hxy
    have key : ∀ (l : Level), (x ∈ (match l with
        | .one n => evs.filter (fun e : Ev τ => e.node = n)
        | .many ns => (ns.mergeSort (fun a b => decide (a ≤ b))).flatMap
            fun k => evs.filter (fun e : Ev τ => e.node = k))) → x.node ∈ l.nodes := by
      intro l hx
      cases l with
      | one n =>
        simp only [List.mem_filter, decide_eq_true_eq] at hx
        simp [Level.nodes, hx.2]
      | many ns =>
        simp only [List.mem_flatMap, List.mem_mergeSort, List.mem_filter,
          decide_eq_true_eq] at hx
        obtain ⟨k, hk, _, hek⟩ := hx
        simpa [Level.nodes, hek] using hk
    exact hd (key l1 hx) (key l2 hy)

theorem sortSimultaneous_nodup {ti : Bool} {order : List Level} {evs : List (Ev τ)}
    (h : evs.Nodup) (ho : ti = true → (order.flatMap Level.nodes).Nodup) :
    (sortSimultaneous ti order evs).Nodup := by
  unfold sortSimultaneous
  cases ti with
  | true =>
    have ho := ho rfl
    have hor : (order.reverse.flatMap Level.nodes).Nodup := by
      have : (order.reverse.flatMap Level.nodes).Perm (order.flatMap Level.nodes) :=
        (List.reverse_perm order).flatMap_right _
      exact this.nodup_iff.mpr ho
    have hpt : ∀ (tys : List EvType) (o : List Level), tys.Nodup →
        (o.flatMap Level.nodes).Nodup →
        (tys.flatMap (fun ty => compileOrder o (evs.filter (·.ty = ty)))).Nodup := by
      intro tys o htys ho
      apply nodup_flatMap_of_disjoint_keys _ (fun e => e.ty)
      · intro ty _; exact compileOrder_nodup (h.filter _) ho
      · refine htys.imp ?_
        intro a b hab x hx y hy hxy
        simp only [mem_compileOrder, List.mem_filter, decide_eq_true_eq] at hx hy
        exact hab (hx.1.2.symm.trans (hxy.trans hy.1.2))
    simp only [if_true]
    rw [List.nodup_append]
    refine ⟨hpt _ _ (evTypes_nodup.filter _) ho, hpt _ _ (evTypes_nodup.filter _) hor, ?_⟩
    intro x hx y hy hxy
    subst hxy
    simp only [List.mem_flatMap, List.mem_filter, mem_compileOrder, decide_eq_true_eq] at hx hy
    obtain ⟨a, ⟨_, ha⟩, ⟨_, hxa⟩, _⟩ := hx
    obtain ⟨b, ⟨_, hb⟩, ⟨_, hxb⟩, _⟩ := hy
    have : a = b := hxa.symm.trans hxb
    subst this
    simp [ha] at hb
  | false =>
    simp only [Bool.false_eq_true, if_false]
    apply nodup_flatMap_of_disjoint_keys _ (fun e => e.ty)
    · intro ty _
      exact (List.mergeSort_perm _ _).nodup_iff.mpr (h.filter _)
    · refine evTypes_nodup.imp ?_
      intro a b hab x hx y hy hxy
      simp only [List.mem_mergeSort, List.mem_filter, decide_eq_true_eq] at hx hy
      exact hab (hx.2.symm.trans (hxy.trans hy.2))

theorem bypassStep_keys (c : BypassCfg) (s : BypassSt) (evs : List (Ev τ)) :
    (bypassStep c s evs).1.map (fun o => (o.node, o.ty)) = evs.map (fun e => (e.node, e.ty)) := by
  unfold bypassStep
  split <;> simp [List.map_map, Function.comp_def]

/-- Rows are pairwise different as (time, node, type). -/
theorem Ev.ext_iff' {a b : Ev τ} : a = b ↔ a.t = b.t ∧ a.node = b.node ∧ a.ty = b.ty := by
  cases a; cases b; simp

theorem map_triple_of_group {t : τ} {evs : List (Ev τ)} (h : ∀ e ∈ evs, e.t = t) :
    evs.map (fun e => (t, e.node, e.ty)) = evs.map (fun e => (e.t, e.node, e.ty)) := by
  apply List.map_congr_left
  intro e he
  rw [h e he]

theorem triple_injective : Function.Injective (fun e : Ev τ => (e.t, e.node, e.ty)) := by
  intro a b h
  cases a; cases b; simp_all

theorem pyGet_mem {α : Type _} {l : List α} {i : Int} {x : α} (h : pyGet l i = .ok x) : x ∈ l := by
  unfold pyGet at h
  simp only at h
  generalize (if i < 0 then i + (l.length : Int) else i) = j at h
  split at h
  · simp at h
  · split at h
    · rename_i y hy
      simp only [Except.ok.injEq] at h
      subst h
      exact List.mem_of_getElem? hy
    · simp at h

theorem treeStep_mem {c : LoopCfg τ} {s s' : TreeSt τ} {t : τ} {order : List Level}
    (hti : c.ti = true) (h : treeStep c s t = .ok (order, s')) : order ∈ c.orderings := by
  unfold treeStep at h
  simp only [hti, if_true] at h
  split at h
  · rename_i o ho
    simp only [Except.ok.injEq, Prod.mk.injEq] at h
    rw [← h.1]
    exact pyGet_mem ho
  · simp at h

/-- Delivered triples of the loop over groups. -/
theorem loopGroups_spec (c : LoopCfg τ)
    (n : Nat) (hcov : c.ti = true → ∀ o ∈ c.orderings, CoversNodes n o)
    (gs : List (τ × List (Ev τ))) (b : BypassSt) (s : TreeSt τ) (out : List (Instant τ))
    (hnode : ∀ g ∈ gs, ∀ e ∈ g.2, e.node < n)
    (hg : ∀ g ∈ gs, g.2 ≠ [] ∧ ∀ e ∈ g.2, e.t = g.1)
    (hnd : ∀ g ∈ gs, g.2.Nodup)
    (h : loopGroups c b s gs = .ok out) :
    out.map (·.t) = gs.map (·.1) ∧ (∀ i ∈ out, i.evs ≠ []) ∧
    (∀ x, x ∈ delivered out ↔ x ∈ (gs.flatMap (·.2)).map (fun e => (e.t, e.node, e.ty))) ∧
    (∀ i ∈ out, (i.evs.map (fun e => (e.node, e.ty))).Nodup) := by
  induction gs generalizing b s out with
  | nil =>
    simp only [loopGroups, Except.ok.injEq] at h
    subst h
    simp [delivered]
  | cons g rest ih =>
    rw [loopGroups] at h
    cases hts : treeStep c s g.1 with
    | error err => simp [hts] at h
    | ok p =>
      obtain ⟨order, s'⟩ := p
      simp only [hts] at h
      cases hrest : loopGroups c (bypassStep c.byp b (sortSimultaneous c.ti order g.2)).2 s' rest with
      | error err => simp [hrest] at h
      | ok out' =>
        simp only [hrest, Except.ok.injEq] at h
        subst h
        obtain ⟨i1, i2, i3, i4⟩ := ih _ _ _ (fun g hg => hnode g (List.mem_cons_of_mem _ hg))
          (fun g h => hg g (List.mem_cons_of_mem _ h))
          (fun g h => hnd g (List.mem_cons_of_mem _ h)) hrest
        obtain ⟨gne, gt⟩ := hg g (by simp)
        have hord : c.ti = true → CoversNodes n order := by
          intro hti
          exact hcov hti order (treeStep_mem hti hts)
        have hmem : ∀ e, e ∈ sortSimultaneous c.ti order g.2 ↔ e ∈ g.2 := by
          intro e
          rw [mem_sortSimultaneous]
          constructor
          · exact fun h => h.1
          · intro he
            exact ⟨he, fun hti => (hord hti).2 _ (hnode g (by simp) e he)⟩
        have hkeys := bypassStep_keys c.byp b (sortSimultaneous c.ti order g.2)
        refine ⟨by simp [i1], ?_, ?_, ?_⟩
        · intro i hi
          rcases List.mem_cons.mp hi with rfl | hi
          · obtain ⟨x, hx⟩ := List.exists_mem_of_ne_nil _ gne
            intro hcon
            simp only at hcon
            rw [hcon] at hkeys
            simp only [List.map_nil] at hkeys
            have := (hmem x).mpr hx
            have h0 := List.map_eq_nil_iff.mp hkeys.symm
            simp [h0] at this
          · exact i2 i hi
        · intro x
          have : delivered (⟨g.1, (bypassStep c.byp b (sortSimultaneous c.ti order g.2)).1⟩ :: out')
              = ((bypassStep c.byp b (sortSimultaneous c.ti order g.2)).1.map
                  (fun o => (o.node, o.ty))).map (fun p => (g.1, p.1, p.2)) ++ delivered out' := by
            simp [delivered, List.map_map, Function.comp_def]
          rw [this, hkeys]
          simp only [List.map_map, Function.comp_def, List.mem_append, List.flatMap_cons,
            List.map_append, i3 x]
          rw [map_triple_of_group (fun e he => gt e ((hmem e).mp he))]
          constructor
          · rintro (h | h)
            · left
              obtain ⟨e, he, rfl⟩ := List.mem_map.mp h
              exact List.mem_map.mpr ⟨e, (hmem e).mp he, rfl⟩
            · right; exact h
          · rintro (h | h)
            · left
              obtain ⟨e, he, rfl⟩ := List.mem_map.mp h
              exact List.mem_map.mpr ⟨e, (hmem e).mpr he, rfl⟩
            · right; exact h
        · intro i hi
          rcases List.mem_cons.mp hi with rfl | hi
          · simp only
            rw [hkeys]
            have hsn := sortSimultaneous_nodup (ti := c.ti) (order := order) (hnd g (by simp))
              (fun hti => (hord hti).1)
            have hinj : ∀ x ∈ sortSimultaneous c.ti order g.2,
                ∀ y ∈ sortSimultaneous c.ti order g.2,
                (x.node, x.ty) = (y.node, y.ty) → x = y := by
              intro x hx y hy hxy
              rw [Ev.ext_iff']
              simp only [Prod.mk.injEq] at hxy
              exact ⟨(gt x ((hmem x).mp hx)).trans (gt y ((hmem y).mp hy)).symm, hxy.1, hxy.2⟩
            exact List.Nodup.map_on hinj hsn
          · exact i4 i hi

end
end Danse
