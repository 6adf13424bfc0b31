import Verif.Proofs.Events

/-! # Helper lemmas for the event schedule, part 2: rows, totality, tie breaking -/

set_option linter.unusedSectionVars false

namespace Danse

section
variable {τ : Type} [LinearOrder τ]

theorem mem_npUnique {l : List τ} {x : τ} : x ∈ npUnique l ↔ x ∈ l := by
  simp [npUnique]

theorem npUnique_nodup (l : List τ) : (npUnique l).Nodup :=
  (List.mergeSort_perm _ _).nodup_iff.mpr (List.nodup_dedup l)

theorem npUnique_sorted (l : List τ) : (npUnique l).Pairwise (· < ·) := by
  have h1 : (npUnique l).Pairwise (fun a b => decide (a ≤ b) = true) :=
    List.pairwise_mergeSort (fun a b c hab hbc => by
      simp only [decide_eq_true_eq] at *; exact hab.trans hbc)
      (fun a b => by simp only [Bool.or_eq_true, decide_eq_true_eq]; exact le_total a b) _
  have h2 := npUnique_nodup l
  exact (h1.and h2).imp (fun ⟨h, hne⟩ => lt_of_le_of_ne (by simpa using h) hne)

theorem flattenInstants_spec {K : Nat} {t : List (List τ)} {ty : EvType} {rows : List (Ev τ)}
    (h : flattenInstants K t ty = .ok rows) :
    rows.Nodup ∧ ∀ e, e ∈ rows ↔
      e.ty = ty ∧ e.node < K ∧ ∃ ts, t[e.node]? = some ts ∧ e.t ∈ ts := by
  unfold flattenInstants at h
  split at h
  · rename_i h0
    simp only [Except.ok.injEq] at h
    subst h
    have : t = [] := List.length_eq_zero_iff.mp h0
    simp [this]
  · split at h
    · simp at h
    · simp only [Except.ok.injEq] at h
      subst h
      constructor
      · apply nodup_flatMap_of_disjoint_keys _ (fun e => e.node)
        · rintro ⟨ts, k⟩ _
          exact (npUnique_nodup ts).map (fun a b hab => by simpa using hab)
        · have hnd : ((t.take K).zipIdx.map Prod.snd).Nodup := by
            rw [List.zipIdx_map_snd]; exact List.nodup_range'
          rw [List.Nodup, List.pairwise_map] at hnd
          refine hnd.imp ?_
          rintro ⟨ts, k⟩ ⟨ts', k'⟩ hkk x hx y hy hxy
          simp only [List.mem_map] at hx hy
          obtain ⟨_, _, rfl⟩ := hx
          obtain ⟨_, _, rfl⟩ := hy
          exact hkk hxy
      · intro e
        simp only [List.mem_flatMap, List.mem_map, mem_npUnique, Prod.exists,
          List.mem_zipIdx_iff_getElem?]
        constructor
        · rintro ⟨ts, k, hk, x, hx, rfl⟩
          rw [List.getElem?_take] at hk
          simp only at hk ⊢
          split at hk
          · exact ⟨trivial, by assumption, ts, hk, hx⟩
          · simp at hk
        · rintro ⟨hty, hlt, ts, hts, hx⟩
          refine ⟨ts, e.node, ?_, e.t, hx, ?_⟩
          · rw [List.getElem?_take]; simp [hlt, hts]
          · cases e; simp_all

theorem Except.bind_ok {ε α β : Type} {x : Except ε α} {f : α → Except ε β} {b : β}
    (h : (x >>= f) = .ok b) : ∃ a, x = .ok a ∧ f a = .ok b := by
  cases x with
  | error e => simp [bind, Except.bind] at h
  | ok a => exact ⟨a, rfl, h⟩

theorem flatRows_spec {a : EvArgs τ} {rows : List (Ev τ)} (h : flatRows a = .ok rows) :
    rows.Nodup ∧ ∀ e, e ∈ rows ↔ Scheduled a a.tiFlag e.t e.node e.ty := by
  unfold flatRows at h
  simp only at h
  obtain ⟨up, hup, h⟩ := Except.bind_ok h
  obtain ⟨bc, hbc, h⟩ := Except.bind_ok h
  obtain ⟨up1, up2⟩ := flattenInstants_spec hup
  obtain ⟨bc1, bc2⟩ := flattenInstants_spec hbc
  have hdisj : ∀ {l1 l2 : List (Ev τ)} {ty1 ty2 : EvType} {P1 P2 : Ev τ → Prop}, ty1 ≠ ty2 →
      (∀ e, e ∈ l1 ↔ e.ty = ty1 ∧ P1 e) → (∀ e, e ∈ l2 ↔ e.ty = ty2 ∧ P2 e) →
      ∀ x ∈ l1, ∀ y ∈ l2, x ≠ y := by
    intro l1 l2 ty1 ty2 P1 P2 hne h1 h2 x hx y hy hxy
    subst hxy
    exact hne (((h1 x).mp hx).1.symm.trans ((h2 x).mp hy).1)
  cases hti : a.tiFlag with
  | false =>
    simp only [hti, Bool.false_eq_true, if_false, Except.ok.injEq] at h
    subst h
    constructor
    · rw [List.nodup_append]
      exact ⟨up1, bc1, hdisj (by decide) up2 bc2⟩
    · intro e
      rw [List.mem_append, up2, bc2]
      obtain ⟨t, k, ty⟩ := e
      cases ty <;> simp [Scheduled]
  | true =>
    simp only [hti, if_true] at h
    obtain ⟨fu, hfu, h⟩ := Except.bind_ok h
    obtain ⟨re, hre, h⟩ := Except.bind_ok h
    obtain ⟨tr, htr, h⟩ := Except.bind_ok h
    simp only [Except.ok.injEq] at h
    subst h
    obtain ⟨fu1, fu2⟩ := flattenInstants_spec hfu
    obtain ⟨re1, re2⟩ := flattenInstants_spec hre
    obtain ⟨tr1, tr2⟩ := flattenInstants_spec htr
    constructor
    · simp only [List.append_assoc, List.nodup_append]
      refine ⟨tr1, ⟨up1, ⟨bc1, ⟨fu1, re1, hdisj (by decide) fu2 re2⟩, ?_⟩, ?_⟩, ?_⟩
      · intro x hx y hy
        rcases List.mem_append.mp hy with hy | hy
        · exact hdisj (by decide) bc2 fu2 x hx y hy
        · exact hdisj (by decide) bc2 re2 x hx y hy
      · intro x hx y hy
        rcases List.mem_append.mp hy with hy | hy
        · exact hdisj (by decide) up2 bc2 x hx y hy
        · rcases List.mem_append.mp hy with hy | hy
          · exact hdisj (by decide) up2 fu2 x hx y hy
          · exact hdisj (by decide) up2 re2 x hx y hy
      · intro x hx y hy
        rcases List.mem_append.mp hy with hy | hy
        · exact hdisj (by decide) tr2 up2 x hx y hy
        · rcases List.mem_append.mp hy with hy | hy
          · exact hdisj (by decide) tr2 bc2 x hx y hy
          · rcases List.mem_append.mp hy with hy | hy
            · exact hdisj (by decide) tr2 fu2 x hx y hy
            · exact hdisj (by decide) tr2 re2 x hx y hy
    · intro e
      simp only [List.mem_append, up2, bc2, fu2, re2, tr2]
      obtain ⟨t, k, ty⟩ := e
      cases ty <;> simp [Scheduled]

theorem rowsSort_sorted (rows : List (Ev τ)) :
    RowsSorted (rows.mergeSort (fun x y => decide (x.t ≤ y.t))) := by
  have := List.pairwise_mergeSort (le := fun x y : Ev τ => decide (x.t ≤ y.t))
    (fun a b c hab hbc => by simp only [decide_eq_true_eq] at *; exact hab.trans hbc)
    (fun a b => by simp only [Bool.or_eq_true, decide_eq_true_eq]; exact le_total a.t b.t) rows
  exact this.imp (fun h => by simpa using h)

/-- Configuration of the loop used by `processRows`. -/
def loopCfg (a : EvArgs τ) (rows : List (Ev τ)) : LoopCfg τ :=
  { byp := ⟨a.up_t.length, a.seq, a.minFrames⟩
    ti := a.tiFlag
    trTimes := if a.tiFlag then (rows.filter (·.ty = .tr)).map (·.t) else []
    orderings := a.orderings }

theorem processRows_eq (a : EvArgs τ) (rows : List (Ev τ)) :
    processRows a rows =
      loopGroups (loopCfg a rows) ⟨a.firstUpdatingNode - 1, 0⟩ ⟨-1, none⟩ (groupRows rows) := by
  unfold processRows loopCfg
  rw [groupLoop_eq]

theorem mem_groupRows {l : List (Ev τ)} (hs : RowsSorted l) {g : τ × List (Ev τ)}
    (hg : g ∈ groupRows l) : ∀ e ∈ g.2, e ∈ l := by
  intro e he
  rw [← (groupRows_spec l hs).2.2]
  exact List.mem_flatMap.mpr ⟨g, hg, he⟩

theorem groupRows_nodup {l : List (Ev τ)} (hs : RowsSorted l) (hn : l.Nodup)
    {g : τ × List (Ev τ)} (hg : g ∈ groupRows l) : g.2.Nodup := by
  have h := (groupRows_spec l hs).2.2
  rw [← h, List.nodup_flatMap] at hn
  exact hn.1 g hg

/-- Core of C01 for any correctly sorted permutation of the rows. -/
theorem processRows_spec {a : EvArgs τ} {rows sorted : List (Ev τ)} {out : List (Instant τ)}
    (hr : flatRows a = .ok rows) (hp : sorted.Perm rows) (hs : RowsSorted sorted)
    (hcov : a.tiFlag = true → ∀ o ∈ a.orderings, CoversNodes a.up_t.length o)
    (h : processRows a sorted = .ok out) :
    (out.map (·.t)).Pairwise (· < ·) ∧ (∀ i ∈ out, i.evs ≠ []) ∧ (delivered out).Nodup ∧
    ∀ t k ty, (t, k, ty) ∈ delivered out ↔ Scheduled a a.tiFlag t k ty := by
  obtain ⟨hnd, hmem⟩ := flatRows_spec hr
  have hnd' : sorted.Nodup := hp.nodup_iff.mpr hnd
  have hmem' : ∀ e, e ∈ sorted ↔ Scheduled a a.tiFlag e.t e.node e.ty :=
    fun e => (hp.mem_iff).trans (hmem e)
  rw [processRows_eq] at h
  obtain ⟨g1, g2, g3⟩ := groupRows_spec sorted hs
  obtain ⟨i1, i2, i3, i4⟩ := loopGroups_spec (loopCfg a sorted) a.up_t.length
    (fun hti => hcov hti) (groupRows sorted) _ _ out
    (fun g hg e he => ((hmem' e).mp (mem_groupRows hs hg e he)).1) g2
    (fun g hg => groupRows_nodup hs hnd' hg) h
  have hpw : (out.map (·.t)).Pairwise (· < ·) := by rw [i1]; exact g1
  refine ⟨hpw, i2, ?_, ?_⟩
  · unfold delivered
    apply nodup_flatMap_of_disjoint_keys _ (fun x => x.1)
    · intro i hi
      have := i4 i hi
      have h2 : (i.evs.map fun e => (i.t, e.node, e.ty)) =
          (i.evs.map (fun e => (e.node, e.ty))).map (fun p => (i.t, p.1, p.2)) := by
        simp [List.map_map, Function.comp_def]
      rw [h2]
      exact this.map (fun a b hab => by
        simp only [Prod.mk.injEq, true_and] at hab
        exact Prod.ext hab.1 hab.2)
    · rw [List.pairwise_map] at hpw
      refine hpw.imp ?_
      intro i j hij x hx y hy hxy
      obtain ⟨_, _, rfl⟩ := List.mem_map.mp hx
      obtain ⟨_, _, rfl⟩ := List.mem_map.mp hy
      exact absurd hxy (ne_of_lt hij)
  · intro t k ty
    rw [i3, g3]
    constructor
    · intro hx
      obtain ⟨e, he, heq⟩ := List.mem_map.mp hx
      simp only [Prod.mk.injEq] at heq
      obtain ⟨rfl, rfl, rfl⟩ := heq
      exact (hmem' e).mp he
    · intro hx
      exact List.mem_map.mpr ⟨⟨t, k, ty⟩, (hmem' _).mpr hx, rfl⟩

/-! ### Totality -/

theorem pyGet_ok {α : Type _} {l : List α} {i : Int} (h1 : -(l.length : Int) ≤ i)
    (h2 : i < l.length) : ∃ x, pyGet l i = .ok x := by
  unfold pyGet
  simp only
  have hj : 0 ≤ (if i < 0 then i + (l.length : Int) else i) ∧
      (if i < 0 then i + (l.length : Int) else i) < l.length := by split <;> omega
  generalize (if i < 0 then i + (l.length : Int) else i) = j at hj
  have : j.toNat < l.length := by omega
  refine ⟨l[j.toNat], ?_⟩
  have h0 : ¬ j < 0 := by omega
  simp [h0, List.getElem?_eq_getElem this]

theorem loopGroups_total (c : LoopCfg τ) (gs : List (τ × List (Ev τ))) (b : BypassSt)
    (s : TreeSt τ) (hc : -1 ≤ s.counter) (hne : c.ti = true → c.orderings ≠ [])
    (hlen : c.ti = true →
      s.counter + 1 + ((gs.filter (fun g => decide (g.1 ∈ c.trTimes))).length : Int)
        ≤ c.orderings.length) :
    ∃ out, loopGroups c b s gs = .ok out := by
  induction gs generalizing b s with
  | nil => exact ⟨[], rfl⟩
  | cons g rest ih =>
    have hts : ∃ o s', treeStep c s g.1 = .ok (o, s') ∧ -1 ≤ s'.counter ∧
        (c.ti = true →
          s'.counter + 1 + ((rest.filter (fun g => decide (g.1 ∈ c.trTimes))).length : Int)
          ≤ c.orderings.length) := by
      unfold treeStep
      cases hti : c.ti with
      | false => exact ⟨[], s, by simp, hc, by simp⟩
      | true =>
        have hlen := hlen hti
        have hpos : 0 < c.orderings.length := List.length_pos_iff.mpr (hne hti)
        simp only [if_true]
        by_cases hcond : g.1 ∈ c.trTimes ∧ s.last ≠ some g.1
        · simp only [hcond, if_true, ne_eq, not_false_eq_true, and_self]
          simp only [List.filter_cons, hcond.1, decide_true, if_true, List.length_cons] at hlen
          push_cast at hlen
          obtain ⟨o, ho⟩ := pyGet_ok (l := c.orderings) (i := s.counter + 1)
            (by omega) (by omega)
          rw [ho]
          exact ⟨o, _, rfl, by simp only; omega, fun _ => by simp only; omega⟩
        · rw [if_neg hcond]
          have hle : ((rest.filter (fun g => decide (g.1 ∈ c.trTimes))).length : Int) ≤
              (((g :: rest).filter (fun g => decide (g.1 ∈ c.trTimes))).length : Int) := by
            rw [List.filter_cons]; split
            · simp
            · simp
          obtain ⟨o, ho⟩ := pyGet_ok (l := c.orderings) (i := s.counter)
            (by omega) (by omega)
          rw [ho]
          exact ⟨o, s, rfl, hc, fun _ => by omega⟩
    obtain ⟨o, s', h1, h2, h3⟩ := hts
    obtain ⟨out, hout⟩ := ih (bypassStep c.byp b (sortSimultaneous c.ti o g.2)).2 s' h2 h3
    exact ⟨⟨g.1, (bypassStep c.byp b (sortSimultaneous c.ti o g.2)).1⟩ :: out, by
      rw [loopGroups, h1]; simp only [hout]⟩

theorem flattenInstants_total {K : Nat} {t : List (List τ)} {ty : EvType}
    (h : t = [] ∨ K ≤ t.length) : ∃ rows, flattenInstants K t ty = .ok rows := by
  unfold flattenInstants
  split
  · exact ⟨[], rfl⟩
  · rename_i h0
    rcases h with rfl | h
    · simp at h0
    · rw [if_neg (by omega)]; exact ⟨_, rfl⟩

theorem flatRows_total {a : EvArgs τ} (hbc : a.bc_t = [] ∨ a.up_t.length ≤ a.bc_t.length)
    (hre : a.tiFlag = true → a.re_t = [] ∨ a.up_t.length ≤ a.re_t.length)
    (htr : a.tiFlag = true → a.tr_t = [] ∨ a.up_t.length ≤ a.tr_t.length) :
    ∃ rows, flatRows a = .ok rows := by
  obtain ⟨up, hup⟩ := flattenInstants_total (K := a.up_t.length) (t := a.up_t) (ty := .up)
    (.inr le_rfl)
  obtain ⟨bc, hbc⟩ := flattenInstants_total (ty := .bc) hbc
  unfold flatRows
  simp only [hup, hbc, bind, Except.bind]
  cases hti : a.tiFlag with
  | false => exact ⟨_, rfl⟩
  | true =>
    have hfl : a.fuse_t.length = a.up_t.length := by
      unfold EvArgs.tiFlag at hti
      simp only [Bool.and_eq_true, decide_eq_true_eq] at hti
      exact hti.2
    obtain ⟨fu, hfu⟩ := flattenInstants_total (K := a.up_t.length) (t := a.fuse_t) (ty := .fu)
      (.inr hfl.ge)
    obtain ⟨re, hre⟩ := flattenInstants_total (ty := .re) (hre hti)
    obtain ⟨tr, htr⟩ := flattenInstants_total (ty := .tr) (htr hti)
    simp only [if_true, hfu, hre, htr]
    exact ⟨_, rfl⟩

theorem processRows_total {a : EvArgs τ} {rows sorted : List (Ev τ)}
    (hr : flatRows a = .ok rows) (hp : sorted.Perm rows) (hs : RowsSorted sorted)
    (hne : a.tiFlag = true → a.orderings ≠ [])
    (hlen : a.tiFlag = true → a.tr_t.flatten.dedup.length ≤ a.orderings.length) :
    ∃ out, processRows a sorted = .ok out := by
  rw [processRows_eq]
  apply loopGroups_total
  · simp
  · intro hti; exact hne hti
  · intro hti
    have hti' : a.tiFlag = true := hti
    have hlen := hlen hti'
    obtain ⟨g1, g2, g3⟩ := groupRows_spec sorted hs
    have hsub : ((groupRows sorted).filter
        (fun g => decide (g.1 ∈ (loopCfg a sorted).trTimes))).length
        ≤ a.tr_t.flatten.dedup.length := by
      rw [← List.length_map (f := fun g : τ × List (Ev τ) => g.1)]
      apply List.Subperm.length_le
      apply List.subperm_of_subset
      · have : ((groupRows sorted).map (·.1)).Nodup := g1.imp (fun h => ne_of_lt h)
        exact this.sublist ((List.filter_sublist).map _)
      · intro t ht
        obtain ⟨g, hg, rfl⟩ := List.mem_map.mp ht
        rw [List.mem_filter] at hg
        have h2 : g.1 ∈ (loopCfg a sorted).trTimes := by simpa using hg.2
        unfold loopCfg at h2
        simp only [hti', if_true, List.mem_map, List.mem_filter, decide_eq_true_eq] at h2
        obtain ⟨e, ⟨he, hty⟩, het⟩ := h2
        have := ((flatRows_spec hr).2 e).mp (hp.mem_iff.mp he)
        unfold Scheduled at this
        rw [hty] at this
        obtain ⟨_, _, ts, hts, htm⟩ := this
        rw [List.mem_dedup, List.mem_flatten]
        exact ⟨ts, List.mem_of_getElem? hts, het ▸ htm⟩
    have : (loopCfg a sorted).orderings = a.orderings := rfl
    rw [this]
    simp only
    omega

/-! ### Independence of tie breaking -/

/-- Two groupings that only differ by the order inside groups. -/
def SameGroups (g1 g2 : List (τ × List (Ev τ))) : Prop :=
  List.Forall₂ (fun a b => a.1 = b.1 ∧ a.2.Perm b.2) g1 g2

theorem perm_of_sorted_takeWhile {e1 e2 : Ev τ} {r1 r2 : List (Ev τ)}
    (h : (e1 :: r1).Perm (e2 :: r2)) (s1 : RowsSorted (e1 :: r1)) (s2 : RowsSorted (e2 :: r2)) :
    e1.t = e2.t ∧
    (e1 :: r1.takeWhile (fun x => decide (x.t = e1.t))).Perm
      (e2 :: r2.takeWhile (fun x => decide (x.t = e2.t))) ∧
    (r1.dropWhile (fun x => decide (x.t = e1.t))).Perm
      (r2.dropWhile (fun x => decide (x.t = e2.t))) := by
  have ht : e1.t = e2.t := by
    apply le_antisymm
    · have : e2 ∈ e1 :: r1 := h.mem_iff.mpr (by simp)
      rcases List.mem_cons.mp this with h | h
      · rw [h]
      · exact (List.pairwise_cons.mp s1).1 _ h
    · have : e1 ∈ e2 :: r2 := h.mem_iff.mp (by simp)
      rcases List.mem_cons.mp this with h | h
      · rw [h]
      · exact (List.pairwise_cons.mp s2).1 _ h
  have key : ∀ {e : Ev τ} {r : List (Ev τ)}, RowsSorted (e :: r) →
      (e :: r.takeWhile (fun x => decide (x.t = e.t))) =
        (e :: r).filter (fun x => decide (x.t = e.t)) ∧
      r.dropWhile (fun x => decide (x.t = e.t)) =
        (e :: r).filter (fun x => !decide (x.t = e.t)) := by
    intro e r hs
    have hr : r = r.takeWhile (fun x => decide (x.t = e.t)) ++
        r.dropWhile (fun x => decide (x.t = e.t)) := (List.takeWhile_append_dropWhile).symm
    have ha : ∀ x ∈ r.takeWhile (fun x => decide (x.t = e.t)), decide (x.t = e.t) = true :=
      fun x hx => by simpa using takeWhile_eq x hx
    have hb : ∀ x ∈ r.dropWhile (fun x => decide (x.t = e.t)), ¬ decide (x.t = e.t) = true :=
      fun x hx => by
        have := dropWhile_gt hs x hx
        simpa using (ne_of_gt this)
    have hb' : ∀ x ∈ r.dropWhile (fun x => decide (x.t = e.t)), (!decide (x.t = e.t)) = true :=
      fun x hx => by simpa using hb x hx
    have ha' : ∀ x ∈ r.takeWhile (fun x => decide (x.t = e.t)), ¬ (!decide (x.t = e.t)) = true :=
      fun x hx => by simpa using ha x hx
    constructor
    · conv_rhs => rw [hr]
      rw [List.filter_cons_of_pos (by simp), List.filter_append, List.filter_eq_self.mpr ha,
        List.filter_eq_nil_iff.mpr hb, List.append_nil]
    · conv_rhs => rw [hr]
      rw [List.filter_cons_of_neg (by simp), List.filter_append, List.filter_eq_self.mpr hb',
        List.filter_eq_nil_iff.mpr ha', List.nil_append]
  refine ⟨ht, ?_, ?_⟩
  · rw [(key s1).1, (key s2).1, ht]
    exact h.filter _
  · rw [(key s1).2, (key s2).2, ht]
    exact h.filter _

theorem sameGroups_of_perm (l1 l2 : List (Ev τ)) (h : l1.Perm l2) (s1 : RowsSorted l1)
    (s2 : RowsSorted l2) : SameGroups (groupRows l1) (groupRows l2) := by
  induction hl : l1.length using Nat.strong_induction_on generalizing l1 l2 with
  | _ n ih =>
    cases l1 with
    | nil =>
      have : l2 = [] := by simpa using h.symm
      subst this
      simp only [groupRows]
      exact List.Forall₂.nil
    | cons e1 r1 =>
      cases l2 with
      | nil => simp at h
      | cons e2 r2 =>
        obtain ⟨ht, hp1, hp2⟩ := perm_of_sorted_takeWhile h s1 s2
        rw [groupRows, groupRows]
        refine List.Forall₂.cons ⟨ht, hp1⟩ ?_
        have hlen := (List.dropWhile_sublist (l := r1)
          (fun x : Ev τ => decide (x.t = e1.t))).length_le
        exact ih _ (by simp only [List.length_cons] at hl; omega) _ _ hp2
          (((List.pairwise_cons.mp s1).2).sublist (List.dropWhile_sublist _))
          (((List.pairwise_cons.mp s2).2).sublist (List.dropWhile_sublist _)) rfl

/-- In a group without repeated (node, type), filtering a type and a node leaves at most one
event. -/
theorem filter_perm_eq {evs1 evs2 : List (Ev τ)} (hp : evs1.Perm evs2)
    (p : Ev τ → Bool) (hu : ∀ x ∈ evs1, ∀ y ∈ evs1, p x = true → p y = true → x = y)
    (hn : evs1.Nodup) :
    evs1.filter p = evs2.filter p := by
  have hpf : (evs1.filter p).Perm (evs2.filter p) := hp.filter p
  have hlen : (evs1.filter p).length ≤ 1 := by
    have hnf := hn.filter p
    match hm : evs1.filter p with
    | [] => simp
    | [x] => simp
    | x :: y :: l =>
      exfalso
      have hx : x ∈ evs1.filter p := by rw [hm]; simp
      have hy : y ∈ evs1.filter p := by rw [hm]; simp
      rw [List.mem_filter] at hx hy
      have := hu x hx.1 y hy.1 hx.2 hy.2
      rw [hm] at hnf
      simp [this] at hnf
  match hm1 : evs1.filter p, hpf, hlen with
  | [], hpf, _ =>
    have := hpf.symm
    simp only [List.perm_nil] at this
    exact this.symm
  | [x], hpf, _ =>
    have := hpf.symm
    simp only [List.perm_singleton] at this
    exact this.symm
  | x :: y :: l, _, hl => simp at hl

theorem compileOrder_congr {order : List Level} {evs1 evs2 : List (Ev τ)} (hp : evs1.Perm evs2)
    (hn : evs1.Nodup)
    (hu : ∀ x ∈ evs1, ∀ y ∈ evs1, x.node = y.node → x = y) :
    compileOrder order evs1 = compileOrder order evs2 := by
  have hf : ∀ k : Nat, evs1.filter (fun e => decide (e.node = k)) =
      evs2.filter (fun e => decide (e.node = k)) := by
    intro k
    apply filter_perm_eq hp _ _ hn
    intro x hx y hy h1 h2
    simp only [decide_eq_true_eq] at h1 h2
    exact hu x hx y hy (h1.trans h2.symm)
  unfold compileOrder
  congr 1
  funext l
  cases l with
  | one n => exact hf n
  | many ns => simp only [hf]

theorem sortSimultaneous_congr {ti : Bool} {order : List Level} {evs1 evs2 : List (Ev τ)}
    (hp : evs1.Perm evs2) (hn : evs1.Nodup)
    (hu : ∀ x ∈ evs1, ∀ y ∈ evs1, x.node = y.node → x.ty = y.ty → x = y) :
    sortSimultaneous ti order evs1 = sortSimultaneous ti order evs2 := by
  have hu' : ∀ ty : EvType, ∀ x ∈ evs1.filter (fun e => decide (e.ty = ty)),
      ∀ y ∈ evs1.filter (fun e => decide (e.ty = ty)), x.node = y.node → x = y := by
    intro ty x hx y hy hxy
    simp only [List.mem_filter, decide_eq_true_eq] at hx hy
    exact hu x hx.1 y hy.1 hxy (hx.2.trans hy.2.symm)
  have hc : ∀ (o : List Level) (ty : EvType),
      compileOrder o (evs1.filter (fun e => decide (e.ty = ty))) =
      compileOrder o (evs2.filter (fun e => decide (e.ty = ty))) :=
    fun o ty => compileOrder_congr (hp.filter _) (hn.filter _) (hu' ty)
  unfold sortSimultaneous
  cases ti with
  | true => simp only [if_true, hc]
  | false =>
    simp only [Bool.false_eq_true, if_false]
    congr 1
    funext ty
    have hpm : ((evs1.filter (fun e => decide (e.ty = ty))).mergeSort
        (fun a b => decide (a.node ≤ b.node))).Perm
        ((evs2.filter (fun e => decide (e.ty = ty))).mergeSort
        (fun a b => decide (a.node ≤ b.node))) :=
      (List.mergeSort_perm _ _).trans ((hp.filter _).trans (List.mergeSort_perm _ _).symm)
    have hst : ∀ l : List (Ev τ), (l.mergeSort (fun a b => decide (a.node ≤ b.node))).Pairwise
        (fun a b => a.node ≤ b.node) := fun l =>
      (List.pairwise_mergeSort (le := fun a b : Ev τ => decide (a.node ≤ b.node))
        (fun a b c h1 h2 => by simp only [decide_eq_true_eq] at *; exact h1.trans h2)
        (fun a b => by simp only [Bool.or_eq_true, decide_eq_true_eq]; exact le_total _ _) l).imp
        (fun h => by simpa using h)
    refine hpm.eq_of_pairwise ?_ (hst _) (hst _)
    intro x y hx hy h1 h2
    have hx' := List.mem_mergeSort.mp hx
    have hy' : y ∈ evs1.filter (fun e => decide (e.ty = ty)) :=
      (hp.filter _).mem_iff.mpr (List.mem_mergeSort.mp hy)
    exact hu' ty x hx' y hy' (le_antisymm h1 h2)

theorem loopGroups_congr (c1 c2 : LoopCfg τ) (hb : c1.byp = c2.byp) (ht : c1.ti = c2.ti)
    (ho : c1.orderings = c2.orderings) (hm : ∀ t, t ∈ c1.trTimes ↔ t ∈ c2.trTimes)
    (gs1 gs2 : List (τ × List (Ev τ))) (h : SameGroups gs1 gs2)
    (hn : ∀ g ∈ gs1, g.2.Nodup ∧ ∀ x ∈ g.2, x.t = g.1) (b : BypassSt) (s : TreeSt τ) :
    loopGroups c1 b s gs1 = loopGroups c2 b s gs2 := by
  have hts : ∀ s t, treeStep c1 s t = treeStep c2 s t := by
    intro s t
    unfold treeStep
    simp only [ht, ho, hm]
  induction h generalizing b s with
  | nil => rfl
  | @cons g1 g2 r1 r2 hg hr ih =>
    rw [loopGroups, loopGroups, hts, hg.1]
    cases treeStep c2 s g2.1 with
    | error e => rfl
    | ok p =>
      obtain ⟨o, s'⟩ := p
      have hng := hn g1 (by simp)
      have : sortSimultaneous c1.ti o g1.2 = sortSimultaneous c2.ti o g2.2 := by
        rw [ht]
        apply sortSimultaneous_congr hg.2 hng.1
        intro x hx y hy h1 h2
        rw [Ev.ext_iff']
        exact ⟨(hng.2 x hx).trans (hng.2 y hy).symm, h1, h2⟩
      simp only [this, hb]
      rw [ih (fun g hg => hn g (List.mem_cons_of_mem _ hg))]

theorem processRows_perm {a : EvArgs τ} {l1 l2 : List (Ev τ)} (h : l1.Perm l2) (hn : l1.Nodup)
    (s1 : RowsSorted l1) (s2 : RowsSorted l2) : processRows a l1 = processRows a l2 := by
  rw [processRows_eq, processRows_eq]
  apply loopGroups_congr
  · rfl
  · rfl
  · rfl
  · intro t
    unfold loopCfg
    simp only
    split
    · simp only [List.mem_map, List.mem_filter, h.mem_iff]
    · rfl
  · exact sameGroups_of_perm l1 l2 h s1 s2
  · intro g hg
    exact ⟨groupRows_nodup s1 hn hg, ((groupRows_spec l1 s1).2.1 g hg).2⟩

end
end Danse
