import Verif.Proofs.TIRun3

/-! # TI-DANSE runs: instants with tree formation, and whole runs -/

set_option linter.unusedSectionVars false

namespace Danse

theorem workOf_noTr {t : ℚ} {evs : List OutEv} :
    workOf ⟨t, evs.filter fun e => decide (e.ty ≠ .tr)⟩ = workOf ⟨t, evs⟩ := by
  unfold workOf
  congr 1
  · simp only [List.any_filter]
    congr 1
    funext e
    cases e.ty <;> simp
  · funext k
    simp only [List.find?_filter]
    congr 2
    funext e
    cases e.ty <;> simp

theorem ofTy_filter {evs : List OutEv} {ty : EvType} (h : ty ≠ .tr) :
    ofTy (evs.filter fun e => decide (e.ty ≠ .tr)) ty = ofTy evs ty := by
  unfold ofTy
  rw [List.filter_filter]
  apply List.filter_congr
  intro e _
  by_cases he : e.ty = ty <;> simp [he, h]

section
variable {n : Nat} {K : Type} [Field K] [StarRing K] [DecidableEq K]
variable {g : GivenCfg K} {U : TIStrategy n K} {y : Fin n → List (List K)} {trees : List (TreeObj n)}

/-- One instant of a run; `T` is the tree in force after a possible tree formation. -/
theorem instant_run {T : TreeObj n} {lev : List Level} (hT : OrientedTree T lev) {i : Instant ℚ}
    (hord : i.evs.Pairwise (TreeOrder lev)) (hnode : ∀ e ∈ i.evs, e.node < n)
    (hall : AllExchange n i.evs) (hNs : g.Ns < g.N)
    {s : TISt n K}
    (hbuf : (∃ e ∈ i.evs, e.ty = .fu) → ∀ (k : Fin n) r, tiFuse g (y k) i.t k (s.node k) (s.net.buf k) = .ok r →
      g.Ns ≤ r.2.length) (hp : ∀ v, (s.net.prime v).length = g.N)
    (htree : (ofTy i.evs .tr = [] ∧ s.up = T.up ∧ s.root = some T.root) ∨
      ((∃ e, ofTy i.evs .tr = [e]) ∧ trees[s.formed]? = some T)) :
    (∀ s', tiStepInstant g U y trees s i = .ok s' →
      DirectStep g U y (workOf i) s.view s'.view ∧ s'.up = T.up ∧ s'.root = some T.root ∧
      s'.formed = s.formed + (ofTy i.evs .tr).length ∧ ∀ v, (s'.net.prime v).length = g.N) ∧
    ∀ b, DirectStep g U y (workOf i) s.view b →
      ∃ s', tiStepInstant g U y trees s i = .ok s' ∧ s'.view = b := by
  unfold tiStepInstant
  have hsplit := split_rank (hord.imp fun h => h.rank_le)
  set rest := i.evs.filter fun e => decide (e.ty ≠ .tr) with hrest
  have hrord : rest.Pairwise (TreeOrder lev) := hord.filter _
  have hrsplit := split_rank (hrord.imp fun h => h.rank_le)
  have hrtr : ofTy rest .tr = [] := by
    unfold ofTy
    rw [List.filter_eq_nil_iff, hrest]
    intro e he h
    simp only [List.mem_filter, decide_eq_true_eq] at he h
    exact he.2 h
  have hevs : i.evs = ofTy i.evs .tr ++ rest := by
    rw [hrtr, List.nil_append] at hrsplit
    rw [hrsplit]
    simp only [hrest]
    rw [ofTy_filter (by simp), ofTy_filter (by simp), ofTy_filter (by simp), ofTy_filter (by simp)]
    exact hsplit
  have hrnode : ∀ e ∈ rest, e.node < n := fun e he => hnode e (List.mem_of_mem_filter he)
  have hrall : AllExchange n rest := by
    rcases hall with h | h
    · left
      intro ty hty v
      obtain ⟨e, he, h1, h2⟩ := h ty hty v
      refine ⟨e, List.mem_filter.mpr ⟨he, ?_⟩, h1, h2⟩
      simp only [List.mem_cons, List.not_mem_nil, or_false] at hty
      rcases hty with rfl | rfl | rfl <;> simp [h1]
    · right
      intro e he
      exact h e (List.mem_of_mem_filter he)
  have hrbuf : (∃ e ∈ rest, e.ty = .fu) → ∀ (k : Fin n) r,
      tiFuse g (y k) i.t k (s.node k) (s.net.buf k) = .ok r →
      g.Ns ≤ r.2.length := by
    rintro ⟨e, he, h⟩
    exact hbuf ⟨e, List.mem_of_mem_filter he, h⟩
  have hwork : workOf ⟨i.t, rest⟩ = workOf i := workOf_noTr
  have key : ∀ s1 : TISt n K, s1.up = T.up → s1.root = some T.root → s1.net = s.net → s1.node = s.node →
      s1.formed = s.formed + (ofTy i.evs .tr).length →
      (∀ s', rest.foldlM (tiStepEv g U y trees i.t) s1 = .ok s' →
        DirectStep g U y (workOf i) s.view s'.view ∧ s'.up = T.up ∧ s'.root = some T.root ∧
        s'.formed = s.formed + (ofTy i.evs .tr).length ∧ ∀ v, (s'.net.prime v).length = g.N) ∧
      ∀ b, DirectStep g U y (workOf i) s.view b →
        ∃ s', rest.foldlM (tiStepEv g U y trees i.t) s1 = .ok s' ∧ s'.view = b := by
    intro s1 h1 h2 h3 h4 h5
    have hv : s1.view = s.view := by simp [TISt.view, h3, h4]
    obtain ⟨k1, k2⟩ := instant_direct (g := g) (U := U) (trees := trees) hT hrord hrnode hrtr hrall hNs
      (s := s1) (by rw [h3, h4]; exact hrbuf) h1 h2 (by rw [h3]; exact hp)
    rw [hwork, hv] at k1 k2
    refine ⟨fun s' h => ?_, k2⟩
    obtain ⟨m1, m2, m3, m4, m5⟩ := k1 s' h
    exact ⟨m1, m2.trans h1, m3.trans h2, m4.trans h5, m5⟩
  rcases htree with ⟨t1, t2, t3⟩ | ⟨⟨e, t1⟩, t2⟩
  · have h0 : i.evs.foldlM (tiStepEv g U y trees i.t) s = rest.foldlM (tiStepEv g U y trees i.t) s := by
      conv_lhs => rw [hevs, t1, List.nil_append]
    rw [h0]
    exact key s t2 t3 rfl rfl (by rw [t1]; rfl)
  · have hety : e.ty = .tr := by
      have : e ∈ ofTy i.evs .tr := by rw [t1]; simp
      exact (mem_ofTy.mp this).2
    have h0 : i.evs.foldlM (tiStepEv g U y trees i.t) s = rest.foldlM (tiStepEv g U y trees i.t)
        { s with up := T.up, root := some T.root, formed := s.formed + 1 } := by
      conv_lhs => rw [hevs, t1]
      rw [List.singleton_append, List.foldlM_cons]
      have : tiStepEv g U y trees i.t s e =
          .ok { s with up := T.up, root := some T.root, formed := s.formed + 1 } := by
        unfold tiStepEv
        rw [hety]
        simp only [t2]
      rw [this]
      rfl
    rw [h0]
    exact key _ rfl rfl rfl rfl (by rw [t1]; rfl)

/-- An instant at which only a tree is formed has no work. -/
theorem direct_idle {w : Work} (h1 : w.exchange = false) (h2 : ∀ k, w.ups k = none) (a b : TIView n K) :
    DirectStep g U y w a b ↔ b = a := by
  constructor
  · rintro ⟨m, hm, hb1, hb2, hb3, hb4⟩
    rw [h1] at hm
    have hm : m = a := hm
    subst hm
    rw [TIView.ext_iff']
    refine ⟨funext fun k => ?_, hb1, hb2, hb3⟩
    have := hb4 k
    rw [h2 k] at this
    exact this
  · rintro rfl
    refine ⟨b, by rw [h1]; rfl, rfl, rfl, rfl, ?_⟩
    intro k
    rw [h2 k]

theorem idle_work {i : Instant ℚ} (h : (i.evs.any fun e => decide (e.ty ≠ .tr)) = false) :
    (workOf i).exchange = false ∧ ∀ k, (workOf i).ups k = none := by
  rw [List.any_eq_false] at h
  unfold workOf
  constructor
  · simp only [List.any_eq_false, decide_eq_true_eq]
    intro e he h1
    have := h e he
    simp [h1] at this
  · intro k
    simp only [Option.map_eq_none_iff, List.find?_eq_none, decide_eq_true_eq]
    rintro e he ⟨h1, _⟩
    have := h e he
    simp [h1] at this

/-- Instants at which only trees are formed can be left out. -/
theorem directRun_works (out : List (Instant ℚ)) (a b : TIView n K) :
    DirectRun g U y a (out.map workOf) b ↔ DirectRun g U y a (worksOf out) b := by
  induction out generalizing a with
  | nil => rfl
  | cons i out ih =>
    unfold worksOf at ih ⊢
    by_cases h : (i.evs.any fun e => decide (e.ty ≠ .tr)) = true
    · rw [List.filter_cons_of_pos (by simpa using h), List.map_cons, List.map_cons]
      constructor
      · intro hr
        cases hr with
        | cons h1 h2 => exact .cons h1 ((ih _).mp h2)
      · intro hr
        cases hr with
        | cons h1 h2 => exact .cons h1 ((ih _).mpr h2)
    · rw [List.filter_cons_of_neg (by simpa using h), List.map_cons, ← ih]
      obtain ⟨w1, w2⟩ := idle_work (by simpa using h)
      constructor
      · intro hr
        cases hr with
        | cons h1 h2 =>
          rw [direct_idle w1 w2] at h1
          exact h1 ▸ h2
      · intro hr
        exact .cons ((direct_idle w1 w2 _ _).mpr rfl) hr

theorem directRun_append {a b : TIView n K} {w1 w2 : List Work} :
    DirectRun g U y a (w1 ++ w2) b ↔ ∃ m, DirectRun g U y a w1 m ∧ DirectRun g U y m w2 b := by
  induction w1 generalizing a with
  | nil =>
    constructor
    · intro h
      exact ⟨a, .nil a, h⟩
    · rintro ⟨m, h1, h2⟩
      cases h1
      exact h2
  | cons w ws ih =>
    constructor
    · intro h
      cases h with
      | cons h1 h2 =>
        obtain ⟨m, h3, h4⟩ := ih.mp h2
        exact ⟨m, .cons h1 h3, h4⟩
    · rintro ⟨m, h1, h2⟩
      cases h1 with
      | cons h3 h4 => exact .cons h3 (ih.mpr ⟨m, h4, h2⟩)

/-- Number of trees formed by the events of some instants. -/
def treeCount (out : List (Instant ℚ)) : Nat := (out.map fun i => (ofTy i.evs .tr).length).sum

/-- A whole run, for a schedule whose instants are in tree order for the tree in force. -/
theorem run_direct {levs : List (List Level)} (htrees : List.Forall₂ OrientedTree trees levs)
    (hNs : g.Ns < g.N) {out : List (Instant ℚ)}
    (hinst : ∀ pre i post, out = pre ++ i :: post →
      (∀ e ∈ i.evs, e.node < n) ∧ AllExchange n i.evs ∧ (ofTy i.evs .tr).length ≤ 1 ∧
      ∃ j lev, treeCount (pre ++ [i]) = j + 1 ∧ levs[j]? = some lev ∧ i.evs.Pairwise (TreeOrder lev))
    {s0 : TISt n K}
    (hbuf : ∀ pre i post, out = pre ++ i :: post → (∃ e ∈ i.evs, e.ty = .fu) → ∀ s,
      tiRun g U y trees s0 pre = .ok s → ∀ (k : Fin n) r,
      tiFuse g (y k) i.t k (s.node k) (s.net.buf k) = .ok r → g.Ns ≤ r.2.length) (h0 : ∀ v, (s0.net.prime v).length = g.N) (hf0 : s0.formed = 0) :
    (∀ s, tiRun g U y trees s0 out = .ok s → DirectRun g U y s0.view (out.map workOf) s.view ∧
      s.formed = treeCount out ∧ (∀ v, (s.net.prime v).length = g.N) ∧
      ∀ j, treeCount out = j + 1 → ∃ T, trees[j]? = some T ∧ s.up = T.up ∧ s.root = some T.root) ∧
    ∀ b, DirectRun g U y s0.view (out.map workOf) b → ∃ s, tiRun g U y trees s0 out = .ok s ∧ s.view = b := by
  induction out using List.reverseRecOn with
  | nil =>
    constructor
    · intro s h
      injection h with h
      subst h
      exact ⟨.nil _, hf0, h0, fun j hj => by simp [treeCount] at hj⟩
    · intro b h
      cases h
      exact ⟨s0, rfl, rfl⟩
  | append_singleton out i ih =>
    obtain ⟨ih1, ih2⟩ := ih (by
      intro pre x post h
      exact hinst pre x (post ++ [i]) (by rw [h]; simp)) (fun pre x post h => hbuf pre x (post ++ [i]) (by rw [h]; simp))
    obtain ⟨i1, i2, i3, j, lev, i4, i5, i6⟩ := hinst out i [] rfl
    have hlen : treeCount (out ++ [i]) = treeCount out + (ofTy i.evs .tr).length := by
      simp [treeCount]
    obtain ⟨T, hTj, hT⟩ : ∃ T, trees[j]? = some T ∧ OrientedTree T lev := by
      have hlt : j < levs.length := by
        by_contra hc
        rw [List.getElem?_eq_none (by omega)] at i5
        cases i5
      have hl := htrees.length_eq
      refine ⟨trees[j], List.getElem?_eq_getElem (by omega), ?_⟩
      have := List.forall₂_iff_get.mp htrees
      have h2 := this.2 j (by omega) hlt
      rw [List.getElem?_eq_getElem hlt] at i5
      injection i5 with i5
      rw [← i5]
      exact h2
    have hstep : ∀ s : TISt n K, tiRun g U y trees s0 out = .ok s → _ := fun s hs =>
      instant_run (g := g) (U := U) (y := y) (trees := trees) hT i6 i1 i2 hNs (s := s)
        (fun he => hbuf out i [] rfl he s hs)
        ((ih1 s hs).2.2.1) (by
        obtain ⟨_, m2, _, m4⟩ := ih1 s hs
        by_cases hz : (ofTy i.evs .tr).length = 0
        · left
          obtain ⟨T', h1, h2, h3⟩ := m4 j (by omega)
          rw [hTj] at h1
          injection h1 with h1
          subst h1
          exact ⟨List.length_eq_zero_iff.mp hz, h2, h3⟩
        · right
          refine ⟨List.length_eq_one_iff.mp (by omega), ?_⟩
          rw [m2, show treeCount out = j by omega]
          exact hTj)
    constructor
    · intro s h
      unfold tiRun at h
      rw [List.foldlM_append] at h
      obtain ⟨s1, h1, h⟩ := Except.bind_ok h
      rw [List.foldlM_cons] at h
      obtain ⟨s2, h2, h⟩ := Except.bind_ok h
      injection h with h
      subst h
      obtain ⟨m1, m2, _, _⟩ := ih1 s1 h1
      obtain ⟨k1, k2, k3, k4, k5⟩ := (hstep s1 h1).1 s2 h2
      refine ⟨?_, ?_, k5, ?_⟩
      · rw [List.map_append, directRun_append]
        exact ⟨_, m1, .cons k1 (.nil _)⟩
      · rw [k4, m2, hlen]
      · intro j' hj'
        have : j' = j := by omega
        subst this
        exact ⟨T, hTj, k2, k3⟩
    · intro b h
      rw [List.map_append, directRun_append] at h
      obtain ⟨m, h1, h2⟩ := h
      cases h2 with
      | cons h2 h3 =>
        cases h3
        obtain ⟨s1, e1, e2⟩ := ih2 _ h1
        rw [← e2] at h2
        obtain ⟨s2, f1, f2⟩ := (hstep s1 e1).2 _ h2
        refine ⟨s2, ?_, f2⟩
        have e1' : out.foldlM (tiStepInstant g U y trees) s0 = .ok s1 := e1
        unfold tiRun
        rw [List.foldlM_append, e1']
        show List.foldlM (tiStepInstant g U y trees) s1 [i] = _
        rw [List.foldlM_cons, f1]
        rfl

end
end Danse
