import Verif.Proofs.TI
import Verif.Spec.Tree
import Mathlib.Combinatorics.SimpleGraph.Star

/-!
# Properties C21-C22: tree orientation and in-network sums

`G.dist root v` is the number of links between `v` and the root.
-/

namespace Danse
section
variable {V : Type} [DecidableEq V] [Fintype V] {G : SimpleGraph V} {nbr : V → List V}

/-! ## C21 -/

/-- C21: orientating a tree network terminates (within as many turns as there are nodes, plus one);
the root has no downstream neighbour, every other node exactly one, its neighbour that is one link
closer to the root; the upstream neighbours are exactly the neighbours one link further away;
the levels, read from the last to the first, list the nodes at distance 0, 1, 2, ... of the
root, each once. -/
theorem C21_orientation (hG : G.IsTree) (hn : NeighboursOf G nbr) (root : V) :
    ∃ o : Orient V × List (TreeLevel V),
      (∀ fuel, Fintype.card V < fuel → orientate nbr root fuel = some o) ∧
      o.1.down root = [] ∧
      (∀ v, v ≠ root → ∃ p, o.1.down v = [p] ∧ G.Adj v p ∧
        G.dist root v = G.dist root p + 1) ∧
      (∀ v, (o.1.up v).Nodup) ∧
      (∀ v q, q ∈ o.1.up v ↔ G.Adj v q ∧ G.dist root q = G.dist root v + 1) ∧
      (∀ v q, q ∈ o.1.up v ↔ v ∈ o.1.down q) ∧
      (∀ v, (o.1.up v ++ o.1.down v).Perm (nbr v)) ∧
      o.2.getLast? = some (.one root) ∧
      (∀ v, G.dist root v < o.2.length) ∧
      (∀ i l, o.2[i]? = some l → l.nodes.Nodup ∧
        ∀ v, v ∈ l.nodes ↔ G.dist root v + i + 1 = o.2.length) := by
  obtain ⟨par, h, hpar⟩ := tree_RT hG hn root
  obtain ⟨M, hM, ho⟩ := orientate_rt h
  refine ⟨_, ho, ?_, ?_, ?_, ?_, ?_, ?_, ?_, ?_, ?_⟩
  · simp
  · intro v hv
    exact ⟨par v, by simp [hv], hpar v hv⟩
  · intro v; exact (h.nodup v).filter _
  · intro v q
    simp only [mem_kidsIn]
    constructor
    · rintro ⟨h1, h2, h3⟩
      refine ⟨((hn v).2 q).mp h1, ?_⟩
      rw [h.depS q h2, h3]
    · rintro ⟨h1, h2⟩
      refine ⟨((hn v).2 q).mpr h1, ?_⟩
      have hq : q ≠ root := by rintro rfl; simp at h2
      exact ⟨hq, tree_parent_unique hG (hpar q hq).1 (hpar q hq).2 h1.symm h2⟩
  · intro v q
    simp only [mem_kidsIn]
    constructor
    · rintro ⟨h1, h2, h3⟩; simp [h2, h3]
    · intro hv
      by_cases hq : q = root
      · simp [hq] at hv
      · simp only [hq, if_false, List.mem_singleton] at hv
        exact ⟨(h.mem v q).mpr (.inl ⟨hq, hv.symm⟩), hq, hv.symm⟩
  · intro v
    rw [List.perm_ext_iff_of_nodup _ (h.nodup v)]
    · intro q
      simp only [List.mem_append, mem_kidsIn]
      rw [h.mem v q]
      constructor
      · rintro (⟨_, h1⟩ | h1)
        · exact .inl h1
        · by_cases hv : v = root
          · simp [hv] at h1
          · simp only [hv, if_false, List.mem_singleton] at h1
            exact .inr ⟨hv, h1.symm⟩
      · rintro (h1 | ⟨hv, h1⟩)
        · exact .inl ⟨.inl h1, h1⟩
        · right; simp [hv, h1]
    · rw [List.nodup_append]
      refine ⟨(h.nodup v).filter _, by simp only; split <;> simp, ?_⟩
      intro a ha b hb hab
      subst hab
      rw [mem_kidsIn] at ha
      by_cases hv : v = root
      · simp [hv] at hb
      · simp only [hv, if_false, List.mem_singleton] at hb
        subst hb
        exact h.not_kid_of_par hv ha.2.1 ha.2.2
  · simp
  · intro v
    simp only [List.length_reverse, List.length_cons, List.length_map, List.length_range]
    by_contra hc
    have h1 := (hM (G.dist root v)).mpr (by omega)
    have h2 := (mem_lvl h _).mpr (rfl : G.dist root v = _)
    rw [h1] at h2; cases h2
  · intro i l hl
    have hi : i < M + 1 := by
      have := (List.getElem?_eq_some_iff.mp hl).1
      simpa using this
    rw [List.getElem?_reverse (by simpa using hi)] at hl
    simp only [List.length_cons, List.length_map, List.length_range, Nat.add_sub_cancel] at hl
    simp only [List.length_reverse, List.length_cons, List.length_map, List.length_range]
    rcases Nat.eq_zero_or_pos (M - i) with h0 | h0
    · rw [h0] at hl
      simp only [List.getElem?_cons_zero, Option.some.injEq] at hl
      subst hl
      refine ⟨by simp [TreeLevel.nodes], ?_⟩
      intro v
      simp only [TreeLevel.nodes, List.mem_singleton]
      rw [← h.dep_zero]; omega
    · obtain ⟨j, hj⟩ : ∃ j, M - i = j + 1 := ⟨M - i - 1, by omega⟩
      rw [hj, List.getElem?_cons_succ, List.getElem?_map] at hl
      rw [List.getElem?_range (by omega)] at hl
      simp only [Option.map_some, Option.some.injEq] at hl
      subst hl
      refine ⟨nodup_lvl h _, ?_⟩
      intro v
      simp only [TreeLevel.nodes]
      rw [mem_lvl h]; omega

omit [Fintype V] in
/-- C21 (termination): orientating stops on every finite network, tree or not, whatever the
neighbour lists. -/
theorem C21_terminates [Fintype V] (nbr : V → List V) (root : V) {fuel : Nat}
    (hf : Fintype.card V * Fintype.card V + 2 ≤ fuel) : ∃ o, orientate nbr root fuel = some o := by
  unfold orientate
  obtain ⟨r, hr⟩ := orientLoop_terminates (nbr := nbr) fuel [root] ⟨fun _ => [], fun _ => []⟩ []
    [.one root] (by
      refine le_trans ?_ hf
      have : openPairs (⟨fun _ => [], fun _ => []⟩ : Orient V) ≤ Fintype.card (V × V) := by
        unfold openPairs; exact Finset.card_le_univ _
      rw [Fintype.card_prod] at this
      omega)
  rw [hr]
  exact ⟨_, rfl⟩

/-- C21 (levels as the scheduler sees them): the resulting leaf-to-root ordering lists every node
exactly once, which is what the event scheduler (C01, C03) needs. -/
theorem C21_ordering_covers {n : Nat} {G : SimpleGraph (Fin n)} {nbr : Fin n → List (Fin n)}
    (hG : G.IsTree) (hn : NeighboursOf G nbr) (root : Fin n) {fuel : Nat} (hf : n < fuel)
    {o : Orient (Fin n) × List (TreeLevel (Fin n))} (ho : orientate nbr root fuel = some o) :
    CoversNodes n (o.2.map TreeLevel.toLevel) ∧
      ∀ v : Fin n, levelIdx (o.2.map TreeLevel.toLevel) v + G.dist root v + 1 = o.2.length := by
  obtain ⟨o', h1, _, _, _, _, _, _, _, h2, h3⟩ := C21_orientation hG hn root
  rw [h1 fuel (by simpa using hf)] at ho
  cases ho
  have hnodes : ∀ l : TreeLevel (Fin n), l.toLevel.nodes = l.nodes.map Fin.val := by
    intro l; cases l <;> rfl
  have hmem : ∀ (l : TreeLevel (Fin n)) (v : Fin n), (v : Nat) ∈ l.toLevel.nodes ↔ v ∈ l.nodes := by
    intro l v
    rw [hnodes, List.mem_map]
    constructor
    · rintro ⟨u, hu, e⟩; rw [← Fin.ext e]; exact hu
    · intro hv; exact ⟨v, hv, rfl⟩
  refine ⟨⟨?_, ?_⟩, ?_⟩
  · rw [List.flatMap_map, List.nodup_flatMap]
    refine ⟨?_, ?_⟩
    · intro l hl
      obtain ⟨i, hi, rfl⟩ := List.getElem_of_mem hl
      rw [hnodes]
      exact (h3 i _ (List.getElem?_eq_getElem hi)).1.map (fun a b e => Fin.ext e)
    · rw [List.pairwise_iff_getElem]
      intro i j hi hj hij x hx hy
      simp only [hnodes, List.mem_map] at hx hy
      obtain ⟨a, ha, rfl⟩ := hx
      obtain ⟨b, hb, hab⟩ := hy
      have hab' : b = a := Fin.ext hab
      subst hab'
      have e1 := ((h3 i _ (List.getElem?_eq_getElem hi)).2 b).mp ha
      have e2 := ((h3 j _ (List.getElem?_eq_getElem hj)).2 b).mp hb
      omega
  · intro k hk
    have hlt := h2 ⟨k, hk⟩
    rw [List.flatMap_map, List.mem_flatMap]
    have hi : o.2.length - 1 - G.dist root ⟨k, hk⟩ < o.2.length := by omega
    refine ⟨_, List.getElem_mem hi, (hmem _ ⟨k, hk⟩).mpr ?_⟩
    rw [(h3 _ _ (List.getElem?_eq_getElem hi)).2]; omega
  · intro v
    have hlt := h2 v
    have key : levelIdx (o.2.map TreeLevel.toLevel) v = o.2.length - 1 - G.dist root v := by
      unfold levelIdx
      have hi : o.2.length - 1 - G.dist root v < (o.2.map TreeLevel.toLevel).length := by
        rw [List.length_map]; omega
      rw [List.findIdx_eq hi]
      constructor
      · rw [List.getElem_map, decide_eq_true_iff, hmem,
          (h3 _ _ (List.getElem?_eq_getElem (by omega))).2]
        omega
      · intro j hj
        rw [List.getElem_map, decide_eq_false_iff_not, hmem,
          (h3 _ _ (List.getElem?_eq_getElem (by omega))).2]
        omega
    rw [key]; omega

/-! ## C22 -/

variable {K : Type} [Field K]

/-- C22: at an instant at which all nodes first fuse, then compute partial sums from the leaves
to the root, then relay from the root to the leaves, the root obtains the sum of all fused frames
and every node ends up with that sum and with the sum of all the other nodes' frames. -/
theorem C22_in_network_sum (hG : G.IsTree) (hn : NeighboursOf G nbr) (root : V) {fuel : Nat}
    (hf : Fintype.card V < fuel) {o : Orient V × List (TreeLevel V)}
    (ho : orientate nbr root fuel = some o) {N Ns : Nat} (hNs : Ns < N) {s : TIState V K}
    (hp : ∀ v, (s.prime v).length = N) {fused : V → List K} (hfu : ∀ v, Ns ≤ (fused v).length)
    {fus bcs res : List V} (hfus : ∀ v, v ∈ fus) (hbcs : ∀ v, v ∈ bcs) (hbn : bcs.Nodup)
    (hbo : bcs.Pairwise fun a b => G.dist root b ≤ G.dist root a) (hres : ∀ v, v ∈ res)
    (hro : res.Pairwise fun a b => G.dist root a ≤ G.dist root b) :
    ∃ s', tiInstant o.1.up root N Ns fused s
        (fus.map TIEv.fu ++ bcs.map TIEv.bc ++ res.map TIEv.re) = .ok s' ∧
      ∀ k, s'.prime k = newFrame Ns s.prime fused k ∧
        (s'.eta k).length = N ∧ (s'.etaMk k).length = N ∧
        ∀ t < N, at0 (s'.eta k) t = ∑ v, at0 (newFrame Ns s.prime fused v) t ∧
          at0 (s'.etaMk k) t =
            ∑ v ∈ Finset.univ.erase k, at0 (newFrame Ns s.prime fused v) t := by
  obtain ⟨par, h, hpar⟩ := tree_RT hG hn root
  obtain ⟨M, hM, ho'⟩ := orientate_rt h
  rw [ho' fuel hf] at ho
  cases ho
  have hkid : ∀ a b, b ∈ kidsIn root par a (nbr a) → G.dist root b = G.dist root a + 1 := by
    intro a b hb
    rw [mem_kidsIn] at hb
    rw [h.depS b hb.2.1, hb.2.2]
  have hself : ∀ v, v ∉ kidsIn root par v (nbr v) := by
    intro v hv
    have := hkid v v hv
    omega
  unfold tiInstant
  obtain ⟨s1, e1, e2, e3⟩ := fuseRun (up := fun q => kidsIn root par q (nbr q)) (root := root)
    (N := N) (Ns := Ns) (fused := fused) fus s
  rw [List.append_assoc, foldlM_append_ok e1]
  have hframe : ∀ v, fusedFrame Ns s1.prime s1.buf v = newFrame Ns s.prime fused v := by
    intro v
    unfold fusedFrame newFrame
    rw [e2, e3 v (hfus v)]
  obtain ⟨s2, g1, g2, g3⟩ := partialRun (fused := fused) (root := root) hNs
    (up := fun q => kidsIn root par q (nbr q)) bcs [] s1 (newFrame Ns s.prime fused)
    (by simpa using hbn)
    (by
      intro k _
      refine ⟨hself k, by rw [e2]; exact hp k, by rw [e3 k (hfus k)]; exact hfu k,
        (hframe k).symm⟩)
    (by
      intro a b l1 l2 hl hb
      have hd := hkid a b hb
      have hmem := hbcs b
      rw [hl] at hmem
      rcases List.mem_append.mp hmem with h1 | h1
      · simpa using h1
      · exfalso
        rcases List.mem_cons.mp h1 with h2 | h2
        · rw [h2] at hd; omega
        · rw [hl, List.pairwise_append] at hbo
          have := List.rel_of_pairwise_cons hbo.2.1 h2
          omega)
    (by intro k hk; cases hk) (by intro hr; cases hr)
  rw [foldlM_append_ok g1]
  simp only [List.nil_append] at g2 g3
  obtain ⟨r1, r2, r3⟩ := g3 (hbcs root)
  have hfl : ∀ v, (newFrame Ns s.prime fused v).length = N := by
    intro v
    have h1 := hp v
    have h2 := hfu v
    unfold newFrame; simp; omega
  have htot : ∀ t < N, at0 (s2.zloc root) t = ∑ v, at0 (newFrame Ns s.prime fused v) t := by
    intro t ht
    exact rt_total h (Z := fun v => at0 (s2.zloc v) t)
      (f := fun v => at0 (newFrame Ns s.prime fused v) t) (fun v => (g2 v (hbcs v)).2.2 t ht)
  have hE : (s2.zloc root).length = N := (g2 root (hbcs root)).2.1
  have hEM : s2.etaMk root =
      List.zipWith (· - ·) (s2.zloc root) (newFrame Ns s.prime fused root) := by
    have hlen : (List.zipWith (· - ·) (s2.zloc root) (newFrame Ns s.prime fused root)).length = N := by
      rw [List.length_zipWith, hE, hfl]; simp
    apply List.ext_getElem (by rw [r2, hlen])
    intro i h1 h2
    have := r3 i (by omega)
    unfold at0 at this
    rw [getD_lt h1, getD_lt (by omega), getD_lt (by rw [hfl]; omega)] at this
    rw [this, List.getElem_zipWith]
  obtain ⟨s3, k1, k2, k3⟩ := relayRun (Ns := Ns) (fused := fused) (root := root)
    (by omega : 0 < N) hself res []
    s2 (s2.zloc root) (newFrame Ns s.prime fused) hE
    (fun v => ⟨(g2 v (hbcs v)).1, hfl v⟩)
    (by
      intro k l1 l2 hl
      by_cases hk : k = root
      · exact .inl hk
      · right
        refine ⟨par k, ?_, by rw [mem_kidsIn]; exact ⟨(h.mem _ _).mpr (.inl ⟨hk, rfl⟩), hk, rfl⟩⟩
        have hd := h.depS k hk
        have hmem := hres (par k)
        rw [hl] at hmem
        rcases List.mem_append.mp hmem with h1 | h1
        · simpa using h1
        · exfalso
          rcases List.mem_cons.mp h1 with h2 | h2
          · rw [h2] at hd; omega
          · rw [hl, List.pairwise_append] at hro
            have := List.rel_of_pairwise_cons hro.2.1 h2
            omega)
    (by
      rintro v (hv | ⟨b, hb, _⟩)
      · subst hv; exact ⟨r1, hEM⟩
      · cases hb)
  refine ⟨s3, k1, ?_⟩
  intro k
  obtain ⟨m1, m2⟩ := k3 k (by
    by_cases hk : k = root
    · exact .inl hk
    · right
      exact ⟨par k, by simpa using hres _,
        by rw [mem_kidsIn]; exact ⟨(h.mem _ _).mpr (.inl ⟨hk, rfl⟩), hk, rfl⟩⟩)
  refine ⟨k2 k, by rw [m1]; exact hE, by rw [m2, List.length_zipWith, hE, hfl]; simp, ?_⟩
  intro t ht
  rw [m1, m2]
  refine ⟨htot t ht, ?_⟩
  rw [at0_zipWith' (by omega) (by rw [hfl]; exact ht), htot t ht,
    ← Finset.sum_erase_add Finset.univ _ (Finset.mem_univ k), add_sub_cancel_right]

/-- Sequence of in-network-sum events ordered by type. -/
private def tiRank {V : Type} : TIEv V → Nat
  | .fu _ => 0
  | .bc _ => 1
  | .re _ => 2

private theorem tiSplit {V : Type} : ∀ (l : List (TIEv V)),
    l.Pairwise (fun a b => tiRank a ≤ tiRank b) →
    ∃ a b c : List V, l = a.map TIEv.fu ++ b.map TIEv.bc ++ c.map TIEv.re := by
  intro l
  induction l with
  | nil => intro _; exact ⟨[], [], [], rfl⟩
  | cons x l ih =>
    intro h
    obtain ⟨h1, h2⟩ := List.pairwise_cons.mp h
    obtain ⟨a, b, c, rfl⟩ := ih h2
    cases x with
    | fu k => exact ⟨k :: a, b, c, rfl⟩
    | bc k =>
      have ha : a = [] := by
        cases a with
        | nil => rfl
        | cons y a => have := h1 (TIEv.fu y) (by simp); simp [tiRank] at this
      subst ha
      exact ⟨[], k :: b, c, rfl⟩
    | re k =>
      have ha : a = [] := by
        cases a with
        | nil => rfl
        | cons y a => have := h1 (TIEv.fu y) (by simp); simp [tiRank] at this
      have hb : b = [] := by
        cases b with
        | nil => rfl
        | cons y b => have := h1 (TIEv.bc y) (by simp); simp [tiRank] at this
      subst ha hb
      exact ⟨[], [], k :: c, rfl⟩

/-- C22 for the schedule actually used: if the events of an instant are in the order guaranteed by
C03 for the leaf-to-root ordering computed by the orientation, and every node fuses, sums
and relays in that instant, then every node obtains the sums. -/
theorem C22_scheduled {n : Nat} {G : SimpleGraph (Fin n)} {nbr : Fin n → List (Fin n)}
    (hG : G.IsTree) (hn : NeighboursOf G nbr) (root : Fin n) {fuel : Nat} (hf : n < fuel)
    {o : Orient (Fin n) × List (TreeLevel (Fin n))} (ho : orientate nbr root fuel = some o)
    {evs : List OutEv} (hevs : evs.Pairwise (TreeOrder (o.2.map TreeLevel.toLevel)))
    (hall : ∀ v : Fin n, ∀ ty ∈ [EvType.fu, .bc, .re], ∃ e ∈ evs, e.node = v ∧ e.ty = ty)
    {N Ns : Nat} (hNs : Ns < N) {s : TIState (Fin n) K}
    (hp : ∀ v, (s.prime v).length = N) {fused : Fin n → List K}
    (hfu : ∀ v, Ns ≤ (fused v).length) :
    ∃ s', tiInstant o.1.up root N Ns fused s (evs.filterMap (toTIEv n)) = .ok s' ∧
      ∀ k, (s'.etaMk k).length = N ∧ ∀ t < N, at0 (s'.etaMk k) t =
        ∑ v ∈ Finset.univ.erase k, at0 (newFrame Ns s.prime fused v) t := by
  have hlev := (C21_ordering_covers hG hn root hf ho).2
  have hpw : (evs.filterMap (toTIEv n)).Pairwise (fun a b =>
      tiRank a ≤ tiRank b ∧
      (∀ k l, a = TIEv.bc k → b = TIEv.bc l → G.dist root l ≤ G.dist root k ∧ k ≠ l) ∧
      (∀ k l, a = TIEv.re k → b = TIEv.re l → G.dist root k ≤ G.dist root l ∧ k ≠ l)) := by
    rw [List.pairwise_filterMap]
    refine hevs.imp ?_
    intro x y hxy x' hx' y' hy'
    have hspec : ∀ (e : OutEv) (e' : TIEv (Fin n)), toTIEv n e = some e' →
        ∃ h : e.node < n, (e.ty = .fu ∧ e' = .fu ⟨e.node, h⟩) ∨
          (e.ty = .bc ∧ e' = .bc ⟨e.node, h⟩) ∨ (e.ty = .re ∧ e' = .re ⟨e.node, h⟩) := by
      intro e e' he
      unfold toTIEv at he
      split at he
      · rename_i h
        refine ⟨h, ?_⟩
        split at he <;> simp_all
      · cases he
    obtain ⟨hx, cx⟩ := hspec x x' hx'
    obtain ⟨hy, cy⟩ := hspec y y' hy'
    have lx := hlev ⟨x.node, hx⟩
    have ly := hlev ⟨y.node, hy⟩
    simp only at lx ly
    unfold TreeOrder at hxy
    rcases cx with ⟨tx, rfl⟩ | ⟨tx, rfl⟩ | ⟨tx, rfl⟩ <;>
      rcases cy with ⟨ty, rfl⟩ | ⟨ty, rfl⟩ | ⟨ty, rfl⟩ <;>
      rw [tx, ty] at hxy <;> simp [evRank, tiRank] at hxy ⊢
    · rcases hxy with h1 | h1
      · refine ⟨by omega, by omega⟩
      · refine ⟨by omega, ?_⟩
        intro he
        rw [he] at h1; omega
    · rcases hxy with h1 | h1
      · refine ⟨by omega, by omega⟩
      · refine ⟨by omega, ?_⟩
        intro he
        rw [he] at h1; omega
  obtain ⟨fus, bcs, res, hsplit⟩ := tiSplit _ (hpw.imp fun h => h.1)
  have hmem : ∀ (v : Fin n) (e' : TIEv (Fin n)), (∃ e ∈ evs, toTIEv n e = some e') →
      e' ∈ evs.filterMap (toTIEv n) := by
    intro v e' he; exact List.mem_filterMap.mpr he
  have hin : ∀ (v : Fin n), TIEv.fu v ∈ evs.filterMap (toTIEv n) ∧
      TIEv.bc v ∈ evs.filterMap (toTIEv n) ∧ TIEv.re v ∈ evs.filterMap (toTIEv n) := by
    intro v
    refine ⟨?_, ?_, ?_⟩
    · obtain ⟨e, he, h1, h2⟩ := hall v .fu (by simp)
      exact hmem v _ ⟨e, he, by unfold toTIEv; simp [h1, h2]⟩
    · obtain ⟨e, he, h1, h2⟩ := hall v .bc (by simp)
      exact hmem v _ ⟨e, he, by unfold toTIEv; simp [h1, h2]⟩
    · obtain ⟨e, he, h1, h2⟩ := hall v .re (by simp)
      exact hmem v _ ⟨e, he, by unfold toTIEv; simp [h1, h2]⟩
  rw [hsplit] at hpw hin
  simp only [List.mem_append, List.mem_map, reduceCtorEq, and_false, exists_false, or_false,
    false_or, TIEv.fu.injEq, TIEv.bc.injEq, TIEv.re.injEq, exists_eq_right] at hin
  rw [List.pairwise_append, List.pairwise_append] at hpw
  have hb := hpw.1.2.1
  have hr := hpw.2.1
  rw [List.pairwise_map] at hb hr
  obtain ⟨s', h1, h2⟩ := C22_in_network_sum hG hn root (by simpa using hf) ho hNs hp hfu
    (fus := fus) (bcs := bcs) (res := res) (fun v => (hin v).1) (fun v => (hin v).2.1)
    (hb.imp fun h => (h.2.1 _ _ rfl rfl).2) (hb.imp fun h => (h.2.1 _ _ rfl rfl).1)
    (fun v => (hin v).2.2)
    (hr.imp fun h => (h.2.2 _ _ rfl rfl).1)
  rw [hsplit]
  exact ⟨s', h1, fun k => ⟨(h2 k).2.2.1, fun t ht => ((h2 k).2.2.2 t ht).2⟩⟩

/-- C22 fails without overlap (`Ns = N`): `zLocalPrime[k][-(N - Ns):]` is then the whole old array,
so the fused frame of a node grows by `N` samples at each partial sum. -/
theorem C22_refuted_without_overlap {V : Type} [DecidableEq V] {up : V → List V} {root k : V}
    {N : Nat} {s : TIState V K} (hk : up k = []) (hr : root ≠ k) (hb : N ≤ (s.buf k).length) :
    ∃ s', tiPartialSum up root N N s k = .ok s' ∧
      (s'.prime k).length = (s.prime k).length + N := by
  unfold tiPartialSum
  simp only [hk, List.foldlM_nil]
  refine ⟨_, by simp only [pure, Except.pure, bind, Except.bind, if_neg hr]; rfl, ?_⟩
  simp only [Function.update_self, List.length_append]
  unfold pySlice pySliceBound
  simp
  split <;> split <;> omega

/-! ## Non-vacuity -/

/-- Star network with centre 0 and leaves 1, 2, 3. -/
def starNbr (v : Fin 4) : List (Fin 4) := if v = 0 then [1, 2, 3] else [0]

theorem starNbr_ok : NeighboursOf (SimpleGraph.starGraph (0 : Fin 4)) starNbr := by
  intro v
  constructor
  · unfold starNbr; split <;> decide
  · intro q
    rw [SimpleGraph.starGraph_adj]
    revert v q
    decide

example : (SimpleGraph.starGraph (0 : Fin 4)).IsTree := SimpleGraph.isTree_starGraph 0

/-- Rooted at the leaf 1: three levels, [2, 3], [0], 1. -/
example : (orientate starNbr 1 5).map (fun o => (o.2.map TreeLevel.nodes, o.1.down 2, o.1.up 0)) =
    some ([[2, 3], [0], [1]], [0], [2, 3]) := by decide

/-- C22 applied to it: with one new sample per node and frames of two, node 3 receives the sum of
the frames of nodes 0, 1 and 2. -/
example : ∃ o, orientate starNbr 1 5 = some o ∧ ∃ s', tiInstant (K := ℚ) o.1.up 1 2 1
      (fun v => [(v : ℚ) + 10, 0]) ⟨fun v => [7, (v : ℚ)], fun _ => [], fun _ => [], fun _ => [], fun _ => []⟩
      ([(0 : Fin 4), 1, 2, 3].map TIEv.fu ++ [(2 : Fin 4), 3, 0, 1].map TIEv.bc ++
        [(1 : Fin 4), 0, 2, 3].map TIEv.re) = .ok s' ∧
      ∀ t < 2, at0 (s'.etaMk 3) t = ∑ v ∈ Finset.univ.erase (3 : Fin 4),
        at0 (newFrame 1 (fun v : Fin 4 => [7, ((v : Nat) : ℚ)]) (fun v => [((v : Nat) : ℚ) + 10, 0]) v) t := by
  obtain ⟨o, ho, _⟩ := C21_orientation (SimpleGraph.isTree_starGraph (0 : Fin 4)) starNbr_ok 1
  have ho5 := ho 5 (by decide)
  have hd : ∀ v : Fin 4, (SimpleGraph.starGraph (0 : Fin 4)).dist 1 v =
      if v = 1 then 0 else if v = 0 then 1 else 2 := by
    obtain ⟨o', h1, _, _, _, _, _, _, _, h2, h3⟩ :=
      C21_orientation (SimpleGraph.isTree_starGraph (0 : Fin 4)) starNbr_ok 1
    have hev : (orientate starNbr 1 5).map (fun o => o.2.map TreeLevel.nodes) =
      some [[2, 3], [0], [1]] := by decide
    rw [h1 5 (by decide)] at hev
    simp only [Option.map_some, Option.some.injEq] at hev
    have hlen : o'.2.length = 3 := by
      have := congrArg List.length hev; simpa using this
    have hnodes : ∀ (i : Nat), (o'.2[i]?).map TreeLevel.nodes = [[(2 : Fin 4), 3], [0], [1]][i]? := by
      intro i; rw [← hev, List.getElem?_map]
    intro v
    have get : ∀ (i : Nat) (L : List (Fin 4)), [[(2 : Fin 4), 3], [0], [1]][i]? = some L → v ∈ L →
        (SimpleGraph.starGraph (0 : Fin 4)).dist 1 v + i + 1 = 3 := by
      intro i L hL hv
      have := hnodes i
      rw [hL] at this
      cases hl : o'.2[i]? with
      | none => rw [hl] at this; cases this
      | some l =>
        rw [hl] at this
        simp only [Option.map_some, Option.some.injEq] at this
        exact (((h3 i l hl).2 v).mp (this ▸ hv)).trans hlen
    fin_cases v
    · have := get 1 [0] rfl (by simp); simpa using this
    · have := get 2 [1] rfl (by simp); simp at this ⊢
    · have := get 0 [2, 3] rfl (by simp); simp at this ⊢; omega
    · have := get 0 [2, 3] rfl (by simp); simp at this ⊢; omega
  obtain ⟨s', h1, h2⟩ := C22_in_network_sum (K := ℚ) (SimpleGraph.isTree_starGraph (0 : Fin 4))
    starNbr_ok 1 (by decide) ho5 (N := 2) (Ns := 1) (by decide)
    (s := ⟨fun v => [7, ((v : Nat) : ℚ)], fun _ => [], fun _ => [], fun _ => [], fun _ => []⟩)
    (by intro v; rfl) (fused := fun v => [((v : Nat) : ℚ) + 10, 0]) (by intro v; simp)
    (fus := [0, 1, 2, 3]) (bcs := [2, 3, 0, 1]) (res := [1, 0, 2, 3])
    (by decide) (by decide) (by decide) (by simp only [hd]; decide) (by decide)
    (by simp only [hd]; decide)
  exact ⟨o, ho5, s', h1, fun t ht => ((h2 3).2.2.2 t ht).2⟩

end
end Danse
