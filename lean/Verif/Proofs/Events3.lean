import Verif.Proofs.Events2

/-! # Helper lemmas for the event schedule, part 3: ordering and bypass logic -/

set_option linter.unusedSectionVars false

namespace Danse

section
variable {τ : Type} [LinearOrder τ]

/-- The loop once the events of each instant are ordered. -/
def runBypass (c : BypassCfg) (b : BypassSt) : List (τ × List (Ev τ)) → List (Instant τ)
  | [] => []
  | g :: r => ⟨g.1, (bypassStep c b g.2).1⟩ :: runBypass c (bypassStep c b g.2).2 r

/-- Number of trees formed strictly before the remaining groups. -/
def treesBefore (c : LoopCfg τ) (gs : List (τ × List (Ev τ))) : Nat :=
  (c.trTimes.dedup.filter fun t => decide (∀ g ∈ gs, t < g.1)).length

def treesUpTo (c : LoopCfg τ) (t : τ) : Nat :=
  (c.trTimes.dedup.filter fun x => decide (x ≤ t)).length

theorem loopGroups_run (c : LoopCfg τ) (gs : List (τ × List (Ev τ))) (b : BypassSt)
    (s : TreeSt τ) (out : List (Instant τ))
    (hsort : (gs.map (·.1)).Pairwise (· < ·))
    (htr : ∀ t ∈ c.trTimes, t ∈ gs.map (·.1) ∨ ∀ g ∈ gs, t < g.1)
    (hcnt : s.counter + 1 = treesBefore c gs)
    (hlast : ∀ t, s.last = some t → ∀ g ∈ gs, t < g.1)
    (h : loopGroups c b s gs = .ok out) :
    ∃ evss : List (τ × List (Ev τ)), out = runBypass c.byp b evss ∧
      List.Forall₂ (fun g e => e.1 = g.1 ∧ ∃ order,
        (c.ti = true → pyGet c.orderings ((treesUpTo c g.1 : Int) - 1) = .ok order) ∧
        e.2 = sortSimultaneous c.ti order g.2) gs evss := by
  induction gs generalizing b s out with
  | nil =>
    simp only [loopGroups, Except.ok.injEq] at h
    exact ⟨[], by simp [runBypass, h.symm], List.Forall₂.nil⟩
  | cons g rest ih =>
    rw [loopGroups] at h
    cases hts : treeStep c s g.1 with
    | error err => simp [hts] at h
    | ok p =>
      obtain ⟨order, s'⟩ := p
      simp only [hts] at h
      cases hrest : loopGroups c (bypassStep c.byp b (sortSimultaneous c.ti order g.2)).2 s' rest with
      | error err => simp [hrest] at h
      | ok out' =>
        simp only [hrest, Except.ok.injEq] at h
        simp only [List.map_cons, List.pairwise_cons] at hsort
        have hgt : ∀ g' ∈ rest, g.1 < g'.1 :=
          fun g' hg' => hsort.1 g'.1 (List.mem_map.mpr ⟨g', hg', rfl⟩)
        have htr' : ∀ t ∈ c.trTimes, t ∈ rest.map (·.1) ∨ ∀ g ∈ rest, t < g.1 := by
          intro t ht
          rcases htr t ht with h | h
          · rcases List.mem_cons.mp h with h | h
            · right; intro g' hg'; rw [h]; exact hgt g' hg'
            · left; exact h
          · right; exact fun g' hg' => h g' (List.mem_cons_of_mem _ hg')
        -- trees formed up to the current instant
        have hup : treesBefore c (g :: rest) + (if g.1 ∈ c.trTimes then 1 else 0)
            = treesUpTo c g.1 := by
          unfold treesBefore treesUpTo
          have e1 : c.trTimes.dedup.filter (fun t => decide (∀ g' ∈ g :: rest, t < g'.1)) =
              c.trTimes.dedup.filter (fun t => decide (t < g.1)) := by
            apply List.filter_congr
            intro t _
            simp only [List.mem_cons, forall_eq_or_imp, decide_eq_decide]
            exact ⟨fun h => h.1, fun h => ⟨h, fun g' hg' => h.trans (hgt g' hg')⟩⟩
          rw [e1, ← List.countP_eq_length_filter, ← List.countP_eq_length_filter]
          have e2 : List.countP (fun x => decide (x ≤ g.1)) c.trTimes.dedup =
              List.countP (fun x => decide (x < g.1)) c.trTimes.dedup +
              List.count g.1 c.trTimes.dedup := by
            induction c.trTimes.dedup with
            | nil => simp
            | cons x xs ih =>
              simp only [List.countP_cons, List.count_cons, ih, decide_eq_true_eq, beq_iff_eq]
              rcases lt_trichotomy x g.1 with h | h | h
              · simp [h, h.le, h.ne]; omega
              · subst h; simp; omega
              · simp [not_lt.mpr h.le, not_le.mpr h, h.ne']
          rw [e2]
          congr 1
          by_cases hm : g.1 ∈ c.trTimes
          · rw [if_pos hm, List.count_eq_one_of_mem (List.nodup_dedup _) (List.mem_dedup.mpr hm)]
          · rw [if_neg hm, List.count_eq_zero_of_not_mem (by simpa using hm)]
        have hnext : rest ≠ [] → treesBefore c rest = treesUpTo c g.1 := by
          intro hne
          unfold treesBefore treesUpTo
          congr 1
          apply List.filter_congr
          intro t ht
          rw [List.mem_dedup] at ht
          simp only [decide_eq_decide]
          constructor
          · intro hall
            rcases htr t ht with h | h
            · rcases List.mem_cons.mp h with h | h
              · exact h.le
              · obtain ⟨g', hg', rfl⟩ := List.mem_map.mp h
                exact absurd (hall g' hg') (lt_irrefl _)
            · exact (h g (by simp)).le
          · intro hle g' hg'
            exact lt_of_le_of_lt hle (hgt g' hg')
        have hlast' : s.last ≠ some g.1 :=
          fun h => absurd (hlast _ h g (by simp)) (lt_irrefl _)
        have hs' : (c.ti = true → s'.counter + 1 = treesUpTo c g.1 ∧
            pyGet c.orderings ((treesUpTo c g.1 : Int) - 1) = .ok order) ∧
            (∀ t, s'.last = some t → ∀ g ∈ rest, t < g.1) ∧ (c.ti = false → s' = s) := by
          unfold treeStep at hts
          cases hti : c.ti with
          | false =>
            simp only [hti, Bool.false_eq_true, if_false, Except.ok.injEq, Prod.mk.injEq] at hts
            refine ⟨by simp, ?_, fun _ => hts.2.symm⟩
            rw [← hts.2]
            exact fun t ht g' hg' => hlast t ht g' (List.mem_cons_of_mem _ hg')
          | true =>
            simp only [hti, if_true] at hts
            by_cases hm : g.1 ∈ c.trTimes
            · rw [if_pos ⟨hm, hlast'⟩] at hts
              rw [if_pos hm] at hup
              simp only at hts
              split at hts
              · rename_i o ho
                simp only [Except.ok.injEq, Prod.mk.injEq] at hts
                obtain ⟨rfl, rfl⟩ := hts
                have e : s.counter + 1 = (treesUpTo c g.1 : Int) - 1 := by omega
                refine ⟨fun _ => ⟨by simp only; omega, by rw [← e]; exact ho⟩, ?_, by simp⟩
                intro t ht g' hg'
                simp only [Option.some.injEq] at ht
                rw [← ht]; exact hgt g' hg'
              · simp at hts
            · rw [if_neg (fun h => hm h.1)] at hts
              rw [if_neg hm] at hup
              split at hts
              · rename_i o ho
                simp only [Except.ok.injEq, Prod.mk.injEq] at hts
                obtain ⟨rfl, rfl⟩ := hts
                have e : s.counter = (treesUpTo c g.1 : Int) - 1 := by omega
                refine ⟨fun _ => ⟨by omega, by rw [← e]; exact ho⟩, ?_, by simp⟩
                exact fun t ht g' hg' => hlast t ht g' (List.mem_cons_of_mem _ hg')
              · simp at hts
        -- recursive call; if not a tree network, the counter is irrelevant
        by_cases hti : c.ti = true
        · by_cases hrn : rest = []
          · subst hrn
            simp only [loopGroups, Except.ok.injEq] at hrest
            subst hrest
            refine ⟨[(g.1, sortSimultaneous c.ti order g.2)], ?_, ?_⟩
            · rw [← h]; simp [runBypass]
            · exact List.Forall₂.cons ⟨rfl, order, fun _ => (hs'.1 hti).2, rfl⟩ List.Forall₂.nil
          · obtain ⟨evss, he1, he2⟩ := ih _ s' out' hsort.2 htr'
              (by rw [(hs'.1 hti).1, hnext hrn]) hs'.2.1 hrest
            refine ⟨(g.1, sortSimultaneous c.ti order g.2) :: evss, ?_, ?_⟩
            · rw [← h, he1]; simp [runBypass]
            · exact List.Forall₂.cons ⟨rfl, order, fun _ => (hs'.1 hti).2, rfl⟩ he2
        · -- not TI: restart the induction with an adjusted counter
          have hti' : c.ti = false := by simpa using hti
          have hindep : ∀ s1 s2 b (l : List (τ × List (Ev τ))),
              loopGroups c b s1 l = loopGroups c b s2 l := by
            intro s1 s2 b l
            induction l generalizing s1 s2 b with
            | nil => rfl
            | cons x xs ihx =>
              rw [loopGroups, loopGroups]
              simp only [treeStep, hti', Bool.false_eq_true, if_false]
              rw [ihx s1 s2]
          rw [hindep s' ⟨(treesBefore c rest : Int) - 1, none⟩] at hrest
          obtain ⟨evss, he1, he2⟩ := ih _ ⟨(treesBefore c rest : Int) - 1, none⟩ out' hsort.2 htr'
              (by simp) (by simp) hrest
          refine ⟨(g.1, sortSimultaneous c.ti order g.2) :: evss, ?_, ?_⟩
          · rw [← h, he1]; simp [runBypass]
          · exact List.Forall₂.cons ⟨rfl, order, fun h => absurd h hti, rfl⟩ he2

theorem forall₂_mem_right {α β : Type} {R : α → β → Prop} {l1 : List α} {l2 : List β}
    (h : List.Forall₂ R l1 l2) {b : β} (hb : b ∈ l2) : ∃ a ∈ l1, R a b := by
  induction h with
  | nil => simp at hb
  | @cons x y xs ys hr _ ih =>
    rcases List.mem_cons.mp hb with rfl | hb
    · exact ⟨x, by simp, hr⟩
    · obtain ⟨a, ha, hab⟩ := ih hb
      exact ⟨a, List.mem_cons_of_mem _ ha, hab⟩

/-- Ordered event lists behind a successful `build_events_matrix`. -/
theorem buildEvents_run {a : EvArgs τ} {out : List (Instant τ)} (h : buildEvents a = .ok out)
    (hcov : a.tiFlag = true → ∀ o ∈ a.orderings, CoversNodes a.up_t.length o) :
    ∃ evss : List (τ × List (Ev τ)),
      out = runBypass ⟨a.up_t.length, a.seq, a.minFrames⟩ ⟨a.firstUpdatingNode - 1, 0⟩ evss ∧
      ∀ e ∈ evss,
        (e.2.map (fun x => (x.node, x.ty))).Nodup ∧ (∀ x ∈ e.2, x.node < a.up_t.length) ∧
        ∃ order evs, (a.tiFlag = true →
            pyGet a.orderings ((treesFormedUpTo a e.1 : Int) - 1) = .ok order ∧
            CoversNodes a.up_t.length order) ∧
          e.2 = sortSimultaneous a.tiFlag order evs ∧ evs.Nodup ∧
          (∀ x ∈ evs, ∀ y ∈ evs, x.node = y.node → x.ty = y.ty → x = y) ∧
          (∀ x ∈ evs, x.node < a.up_t.length) := by
  unfold buildEvents at h
  obtain ⟨rows, hr, h⟩ := Except.bind_ok h
  set sorted := rows.mergeSort (fun x y => decide (x.t ≤ y.t)) with hsd
  have hp : sorted.Perm rows := List.mergeSort_perm _ _
  have hs : RowsSorted sorted := rowsSort_sorted rows
  obtain ⟨hnd, hmem⟩ := flatRows_spec hr
  have hnd' : sorted.Nodup := hp.nodup_iff.mpr hnd
  have hmem' : ∀ e, e ∈ sorted ↔ Scheduled a a.tiFlag e.t e.node e.ty :=
    fun e => (hp.mem_iff).trans (hmem e)
  rw [processRows_eq] at h
  obtain ⟨g1, g2, g3⟩ := groupRows_spec sorted hs
  have htrmem : ∀ t, t ∈ (loopCfg a sorted).trTimes → ∃ e ∈ sorted, e.t = t ∧ e.ty = .tr := by
    intro t ht
    unfold loopCfg at ht
    simp only at ht
    split at ht
    · obtain ⟨e, he, rfl⟩ := List.mem_map.mp ht
      simp only [List.mem_filter, decide_eq_true_eq] at he
      exact ⟨e, he.1, rfl, he.2⟩
    · simp at ht
  have hin : ∀ t ∈ (loopCfg a sorted).trTimes, t ∈ (groupRows sorted).map (·.1) := by
    intro t ht
    obtain ⟨e, he, rfl, _⟩ := htrmem t ht
    rw [← g3] at he
    obtain ⟨g, hg, heg⟩ := List.mem_flatMap.mp he
    exact List.mem_map.mpr ⟨g, hg, ((g2 g hg).2 e heg).symm⟩
  by_cases hnil : groupRows sorted = []
  · rw [hnil] at h
    simp only [loopGroups, Except.ok.injEq] at h
    exact ⟨[], by rw [← h]; rfl, by simp⟩
  have hcnt0 : treesBefore (loopCfg a sorted) (groupRows sorted) = 0 := by
    unfold treesBefore
    rw [List.length_eq_zero_iff, List.filter_eq_nil_iff]
    intro t ht
    rw [List.mem_dedup] at ht
    obtain ⟨g, hg, hgt⟩ := List.mem_map.mp (hin t ht)
    simp only [decide_eq_true_eq, not_forall, not_lt]
    exact ⟨g, hg, hgt.le⟩
  obtain ⟨evss, he, hf⟩ := loopGroups_run (loopCfg a sorted) (groupRows sorted) _ _ out g1
    (fun t ht => .inl (hin t ht)) (by rw [hcnt0]; simp) (by simp) h
  refine ⟨evss, he, ?_⟩
  intro e hev
  obtain ⟨g, hg, hge, order, hord, hes⟩ := forall₂_mem_right hf hev
  have hgm : ∀ x ∈ g.2, x.node < a.up_t.length :=
    fun x hx => ((hmem' x).mp (mem_groupRows hs hg x hx)).1
  have hgu : ∀ x ∈ g.2, ∀ y ∈ g.2, x.node = y.node → x.ty = y.ty → x = y := by
    intro x hx y hy h1 h2
    rw [Ev.ext_iff']
    exact ⟨((g2 g hg).2 x hx).trans ((g2 g hg).2 y hy).symm, h1, h2⟩
  have hgn := groupRows_nodup hs hnd' hg
  have hti : (loopCfg a sorted).ti = a.tiFlag := rfl
  have hord' : a.tiFlag = true →
      pyGet a.orderings ((treesFormedUpTo a e.1 : Int) - 1) = .ok order ∧
      CoversNodes a.up_t.length order := by
    intro ht
    have h1 := hord ht
    have h2 : treesUpTo (loopCfg a sorted) g.1 = treesFormedUpTo a e.1 := by
      unfold treesUpTo treesFormedUpTo
      apply List.Perm.length_eq
      rw [hge]
      apply List.Perm.filter
      rw [List.perm_ext_iff_of_nodup (List.nodup_dedup _) (List.nodup_dedup _)]
      intro t
      simp only [List.mem_dedup]
      constructor
      · intro h
        obtain ⟨x, hx, rfl, hty⟩ := htrmem t h
        have := (hmem' x).mp hx
        unfold Scheduled at this
        rw [hty] at this
        obtain ⟨hlt, _, ts, hts, htm⟩ := this
        rw [List.mem_flatten]
        refine ⟨ts, ?_, htm⟩
        apply List.mem_of_getElem? (i := x.node)
        rw [List.getElem?_take]; simp [hlt, hts]
      · intro h
        rw [List.mem_flatten] at h
        obtain ⟨ts, hts, htm⟩ := h
        obtain ⟨k, hk⟩ := List.mem_iff_getElem?.mp hts
        rw [List.getElem?_take] at hk
        split at hk
        · rename_i hlt
          have : (⟨t, k, .tr⟩ : Ev τ) ∈ sorted :=
            (hmem' _).mpr ⟨hlt, ht, ts, hk, htm⟩
          unfold loopCfg
          simp only [ht, if_true, List.mem_map, List.mem_filter, decide_eq_true_eq]
          exact ⟨_, ⟨this, rfl⟩, rfl⟩
        · simp at hk
    rw [h2] at h1
    exact ⟨h1, hcov ht _ (pyGet_mem h1)⟩
  refine ⟨?_, ?_, order, g.2, hord', hes, hgn, hgu, hgm⟩
  · rw [hes]
    have hsn := sortSimultaneous_nodup (ti := a.tiFlag) (order := order) hgn
      (fun ht => (hord' ht).2.1)
    refine List.Nodup.map_on ?_ hsn
    intro x hx y hy hxy
    simp only [Prod.mk.injEq] at hxy
    exact hgu x (mem_sortSimultaneous.mp hx).1 y (mem_sortSimultaneous.mp hy).1 hxy.1 hxy.2
  · intro x hx
    rw [hes] at hx
    exact hgm x (mem_sortSimultaneous.mp hx).1

/-! ### Ordering inside an instant -/

theorem sortSimultaneous_fc_order {evs : List (Ev τ)} (hn : evs.Nodup)
    (hu : ∀ x ∈ evs, ∀ y ∈ evs, x.node = y.node → x.ty = y.ty → x = y) (order : List Level) :
    (sortSimultaneous false order evs).Pairwise
      (fun x y => evRank x.ty < evRank y.ty ∨ (x.ty = y.ty ∧ x.node < y.node)) := by
  unfold sortSimultaneous
  simp only [Bool.false_eq_true, if_false]
  rw [List.pairwise_flatMap]
  constructor
  · intro ty _
    have h1 : ((evs.filter (fun e => decide (e.ty = ty))).mergeSort
        (fun a b => decide (a.node ≤ b.node))).Pairwise (fun a b => a.node ≤ b.node) :=
      (List.pairwise_mergeSort (le := fun a b : Ev τ => decide (a.node ≤ b.node))
        (fun a b c h1 h2 => by simp only [decide_eq_true_eq] at *; exact h1.trans h2)
        (fun a b => by simp only [Bool.or_eq_true, decide_eq_true_eq]; exact le_total _ _) _).imp
        (fun h => by simpa using h)
    have h2 : ((evs.filter (fun e => decide (e.ty = ty))).mergeSort
        (fun a b => decide (a.node ≤ b.node))).Nodup :=
      (List.mergeSort_perm _ _).nodup_iff.mpr (hn.filter _)
    refine (h1.and h2).imp_of_mem ?_
    intro x y hx hy h
    simp only [List.mem_mergeSort, List.mem_filter, decide_eq_true_eq] at hx hy
    right
    refine ⟨hx.2.trans hy.2.symm, lt_of_le_of_ne h.1 ?_⟩
    intro hxy
    exact h.2 (hu x hx.1 y hy.1 hxy (hx.2.trans hy.2.symm))
  · have : evTypes.Pairwise (fun a b => evRank a < evRank b) := by decide
    refine this.imp ?_
    intro a b hab x hx y hy
    simp only [List.mem_mergeSort, List.mem_filter, decide_eq_true_eq] at hx hy
    left
    rw [hx.2, hy.2]; exact hab

theorem compileOrder_pairwise {P : Nat → Nat → Prop} {order : List Level} {evs : List (Ev τ)}
    (hn : evs.Nodup) (hu : ∀ x ∈ evs, ∀ y ∈ evs, x.node = y.node → x = y)
    (hlev : ∀ l ∈ order, l.nodes.Nodup ∧ ∀ a ∈ l.nodes, ∀ b ∈ l.nodes, a < b → P a b)
    (hord : order.Pairwise (fun la lb => ∀ a ∈ la.nodes, ∀ b ∈ lb.nodes, P a b)) :
    (compileOrder order evs).Pairwise (fun x y => P x.node y.node) := by
  have hsingle : ∀ k, (evs.filter (fun e => decide (e.node = k))).Pairwise
      (fun x y => P x.node y.node) := by
    intro k
    have h2 : (evs.filter (fun e => decide (e.node = k))).Nodup := hn.filter _
    refine h2.imp_of_mem ?_
    intro x y hx hy hne
    simp only [List.mem_filter, decide_eq_true_eq] at hx hy
    exact absurd (hu x hx.1 y hy.1 (hx.2.trans hy.2.symm)) hne
  unfold compileOrder
  rw [List.pairwise_flatMap]
  constructor
  · intro l hl
    cases l with
    | one n => exact hsingle n
    | many ns =>
      simp only
      rw [List.pairwise_flatMap]
      refine ⟨fun k _ => hsingle k, ?_⟩
      obtain ⟨hnd, hP⟩ := hlev _ hl
      simp only [Level.nodes] at hnd hP
      have h1 : (ns.mergeSort (fun a b => decide (a ≤ b))).Pairwise (fun a b => a ≤ b) :=
        (List.pairwise_mergeSort (le := fun a b : Nat => decide (a ≤ b))
          (fun a b c h1 h2 => by simp only [decide_eq_true_eq] at *; exact h1.trans h2)
          (fun a b => by simp only [Bool.or_eq_true, decide_eq_true_eq]; exact le_total _ _) _).imp
          (fun h => by simpa using h)
      have h2 : (ns.mergeSort (fun a b => decide (a ≤ b))).Nodup :=
        (List.mergeSort_perm _ _).nodup_iff.mpr hnd
      refine (h1.and h2).imp_of_mem ?_
      intro a b ha hb hab x hx y hy
      simp only [List.mem_filter, decide_eq_true_eq] at hx hy
      rw [hx.2, hy.2]
      exact hP a (List.mem_mergeSort.mp ha) b (List.mem_mergeSort.mp hb)
        (lt_of_le_of_ne hab.1 hab.2)
  · have key : ∀ (x : Ev τ) (l : Level), (x ∈ (match l with
        | .one n => evs.filter (fun e : Ev τ => e.node = n)
        | .many ns => (ns.mergeSort (fun a b => decide (a ≤ b))).flatMap
            fun k => evs.filter (fun e : Ev τ => e.node = k))) → x.node ∈ l.nodes := by
      intro x l hx
      cases l with
      | one n =>
        simp only [List.mem_filter, decide_eq_true_eq] at hx
        simp [Level.nodes, hx.2]
      | many ns =>
        simp only [List.mem_flatMap, List.mem_mergeSort, List.mem_filter,
          decide_eq_true_eq] at hx
        obtain ⟨k, hk, _, hek⟩ := hx
        simpa [Level.nodes, hek] using hk
    refine hord.imp ?_
    intro la lb h x hx y hy
    exact h _ (key x la hx) _ (key y lb hy)

theorem levelIdx_eq {order : List Level} (hn : (order.flatMap Level.nodes).Nodup) {i : Nat}
    (hi : i < order.length) {k : Nat} (hk : k ∈ order[i].nodes) : levelIdx order k = i := by
  unfold levelIdx
  rw [List.findIdx_eq hi]
  refine ⟨by simpa using hk, ?_⟩
  intro j hj
  rw [List.nodup_flatMap] at hn
  have := List.pairwise_iff_getElem.mp hn.2 j i (by omega) hi hj
  simp only [decide_eq_false_iff_not]
  intro h
  exact this h hk

theorem pairwise_levels {order : List Level} (hn : (order.flatMap Level.nodes).Nodup) :
    order.Pairwise (fun la lb => ∀ a ∈ la.nodes, ∀ b ∈ lb.nodes,
      levelIdx order a < levelIdx order b) := by
  rw [List.pairwise_iff_getElem]
  intro i j hi hj hij a ha b hb
  rw [levelIdx_eq hn hi ha, levelIdx_eq hn hj hb]
  exact hij

theorem same_level {order : List Level} (hn : (order.flatMap Level.nodes).Nodup) {l : Level}
    (hl : l ∈ order) {a b : Nat} (ha : a ∈ l.nodes) (hb : b ∈ l.nodes) :
    levelIdx order a = levelIdx order b := by
  obtain ⟨i, hi, rfl⟩ := List.getElem_of_mem hl
  rw [levelIdx_eq hn hi ha, levelIdx_eq hn hi hb]

theorem sortSimultaneous_ti_order {evs : List (Ev τ)} {order : List Level} (hn : evs.Nodup)
    (hu : ∀ x ∈ evs, ∀ y ∈ evs, x.node = y.node → x.ty = y.ty → x = y)
    (ho : (order.flatMap Level.nodes).Nodup) :
    (sortSimultaneous true order evs).Pairwise
      (fun x y => TreeOrder order ⟨x.node, x.ty, false⟩ ⟨y.node, y.ty, false⟩) := by
  have hu' : ∀ ty : EvType, ∀ x ∈ evs.filter (fun e => decide (e.ty = ty)),
      ∀ y ∈ evs.filter (fun e => decide (e.ty = ty)), x.node = y.node → x = y := by
    intro ty x hx y hy hxy
    simp only [List.mem_filter, decide_eq_true_eq] at hx hy
    exact hu x hx.1 y hy.1 hxy (hx.2.trans hy.2.symm)
  have hlev := (List.nodup_flatMap.mp ho).1
  have hds : ∀ ty, (compileOrder order (evs.filter (fun e => decide (e.ty = ty)))).Pairwise
      (fun x y => (levelIdx order x.node = levelIdx order y.node ∧ x.node < y.node) ∨
        levelIdx order x.node < levelIdx order y.node) := by
    intro ty
    apply compileOrder_pairwise (P := fun a b => (levelIdx order a = levelIdx order b ∧ a < b) ∨
        levelIdx order a < levelIdx order b) (hn.filter _) (hu' ty)
    · intro l hl
      exact ⟨hlev l hl, fun a ha b hb hab => .inl ⟨same_level ho hl ha hb, hab⟩⟩
    · exact (pairwise_levels ho).imp (fun h a ha b hb => .inr (h a ha b hb))
  have hus : ∀ ty, (compileOrder order.reverse (evs.filter (fun e => decide (e.ty = ty)))).Pairwise
      (fun x y => (levelIdx order x.node = levelIdx order y.node ∧ x.node < y.node) ∨
        levelIdx order y.node < levelIdx order x.node) := by
    intro ty
    apply compileOrder_pairwise (P := fun a b => (levelIdx order a = levelIdx order b ∧ a < b) ∨
        levelIdx order b < levelIdx order a) (hn.filter _) (hu' ty)
    · intro l hl
      have hl := List.mem_reverse.mp hl
      exact ⟨hlev l hl, fun a ha b hb hab => .inl ⟨same_level ho hl ha hb, hab⟩⟩
    · rw [List.pairwise_reverse]
      exact (pairwise_levels ho).imp (fun h a ha b hb => .inr (h b hb a ha))
  have hty : ∀ {o : List Level} {ty : EvType} {x : Ev τ},
      x ∈ compileOrder o (evs.filter (fun e => decide (e.ty = ty))) → x.ty = ty := by
    intro o ty x hx
    have := (mem_compileOrder.mp hx).1
    simp only [List.mem_filter, decide_eq_true_eq] at this
    exact this.2
  unfold sortSimultaneous
  simp only [if_true]
  rw [List.pairwise_append]
  refine ⟨?_, ?_, ?_⟩
  · rw [List.pairwise_flatMap]
    constructor
    · intro ty hmem
      refine (hds ty).imp_of_mem ?_
      intro x y hx hy h
      have h1 := hty hx
      have h2 := hty hy
      right
      refine ⟨h1.trans h2.symm, ?_⟩
      rcases h with h | h
      · exact .inl h
      · refine .inr (.inl ⟨?_, h⟩)
        simp only [evTypes, List.mem_filter] at hmem
        simp only [h1]
        revert hmem
        cases ty <;> simp [EvType.isDs]
    · have : (evTypes.filter (·.isDs)).Pairwise (fun a b => evRank a < evRank b) := by decide
      refine this.imp ?_
      intro a b hab x hx y hy
      left
      simp only [hty hx, hty hy]; exact hab
  · rw [List.pairwise_flatMap]
    constructor
    · intro ty hmem
      refine (hus ty).imp_of_mem ?_
      intro x y hx hy h
      have h1 := hty hx
      have h2 := hty hy
      right
      refine ⟨h1.trans h2.symm, ?_⟩
      rcases h with h | h
      · exact .inl h
      · refine .inr (.inr ⟨?_, h⟩)
        simp only [evTypes, List.mem_filter] at hmem
        simp only [h1]
        revert hmem
        cases ty <;> simp [EvType.isDs]
    · have : (evTypes.filter (fun ty => !ty.isDs)).Pairwise (fun a b => evRank a < evRank b) := by
        decide
      refine this.imp ?_
      intro a b hab x hx y hy
      left
      simp only [hty hx, hty hy]; exact hab
  · intro x hx y hy
    obtain ⟨a, ha, hxa⟩ := List.mem_flatMap.mp hx
    obtain ⟨b, hb, hyb⟩ := List.mem_flatMap.mp hy
    left
    simp only [hty hxa, hty hyb]
    simp only [List.mem_filter] at ha hb
    revert ha hb
    cases a <;> cases b <;> simp [EvType.isDs, evRank]

/-- Ordering facts only depend on node and type, so they carry over to the output events. -/
theorem pairwise_bypassStep {R : OutEv → OutEv → Prop}
    (hR : ∀ x y x' y' : OutEv, x.node = x'.node → x.ty = x'.ty → y.node = y'.node →
      y.ty = y'.ty → R x y → R x' y')
    (c : BypassCfg) (s : BypassSt) (evs : List (Ev τ))
    (h : evs.Pairwise (fun x y => R ⟨x.node, x.ty, false⟩ ⟨y.node, y.ty, false⟩)) :
    (bypassStep c s evs).1.Pairwise R := by
  unfold bypassStep
  split
  · simp only
    rw [List.pairwise_map]
    refine h.imp ?_
    intro a b hxy
    exact hR ⟨a.node, a.ty, false⟩ ⟨b.node, b.ty, false⟩ _ _ rfl rfl rfl rfl hxy
  · rw [List.pairwise_map]
    exact h

theorem mem_runBypass {c : BypassCfg} {b : BypassSt} {evss : List (τ × List (Ev τ))}
    {i : Instant τ} (h : i ∈ runBypass c b evss) :
    ∃ e ∈ evss, ∃ b', i = ⟨e.1, (bypassStep c b' e.2).1⟩ := by
  induction evss generalizing b with
  | nil => simp [runBypass] at h
  | cons g r ih =>
    rw [runBypass] at h
    rcases List.mem_cons.mp h with h | h
    · exact ⟨g, by simp, b, h⟩
    · obtain ⟨e, he, b', hb⟩ := ih h
      exact ⟨e, List.mem_cons_of_mem _ he, b', hb⟩

end
end Danse
