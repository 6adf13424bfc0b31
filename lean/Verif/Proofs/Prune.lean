import Verif.Spec.Prune
import Verif.Props.Tree
import Mathlib.Combinatorics.SimpleGraph.Acyclic

/-! # Lemmas for pruning a network to a tree -/

namespace Danse

section
variable {n : Nat}

theorem ptDist_nonneg (a b : Pt) : 0 ≤ ptDist a b := Real.sqrt_nonneg _

theorem ptDist_pos {a b : Pt} (h : a ≠ b) : 0 < ptDist a b := by
  unfold ptDist
  apply Real.sqrt_pos.mpr
  obtain ⟨i, hi⟩ := Function.ne_iff.mp h
  refine Finset.sum_pos' (fun i _ => sq_nonneg _) ⟨i, Finset.mem_univ _, ?_⟩
  have : a i - b i ≠ 0 := sub_ne_zero.mpr hi
  positivity

theorem ptDist_self (a : Pt) : ptDist a a = 0 := by
  unfold ptDist
  simp

theorem ptDist_comm (a b : Pt) : ptDist a b = ptDist b a := by
  unfold ptDist
  congr 1
  exact Finset.sum_congr rfl fun i _ => by ring

open Classical in
theorem allAtSamePosition_some (p : Fin n → Pt) :
    allAtSamePosition (fun k => some (p k)) = .ok (decide (NearlySamePosition p)) := by
  unfold allAtSamePosition
  rw [if_neg (by simp)]
  congr 1
  exact decide_eq_decide.mpr Iff.rfl

theorem linkWeight_comm (pos : Fin n → Option Pt) (same : Bool) (u v : Fin n) :
    linkWeight pos same u v = linkWeight pos same v u := by
  unfold linkWeight
  rw [ptDist_comm]

theorem linkWeight_some (p : Fin n → Pt) (same : Bool) (u v : Fin n) :
    linkWeight (fun k => some (p k)) same u v = if same then 1 else ptDist (p u) (p v) := by
  unfold linkWeight
  split
  · rfl
  · rw [if_pos (by simp)]
    rfl

theorem SpanningForest.tree {G T : SimpleGraph (Fin n)} (h : SpanningForest G T) (hG : G.Connected) :
    T.IsTree :=
  have := hG.nonempty
  ⟨SimpleGraph.Connected.mk fun u v => h.reach u v (hG.preconnected u v), h.acyclic⟩

theorem mem_nbrFromMatrix {M : Fin n → Fin n → ℝ} {k q : Fin n} :
    q ∈ nbrFromMatrix M k ↔ 0 < M q k := by
  unfold nbrFromMatrix
  simp

theorem nbrFromMatrix_nodup (M : Fin n → Fin n → ℝ) (k : Fin n) : (nbrFromMatrix M k).Nodup :=
  (List.nodup_finRange n).filter _

theorem mem_nbr_weight {T : SimpleGraph (Fin n)} {w : Fin n → Fin n → ℝ} {k q : Fin n} :
    q ∈ nbrFromMatrix (weightMatrix T w) k ↔ T.Adj q k ∧ 0 < w q k := by
  rw [mem_nbrFromMatrix]
  unfold weightMatrix
  split <;> rename_i h <;> simp [h]

theorem finishPrune_some (M : Fin n → Fin n → ℝ) (r : Fin n) : ∃ P, finishPrune M r = some P := by
  obtain ⟨o, ho⟩ := C21_terminates (nbrFromMatrix M) r (fuel := n * n + 2) (by simp)
  unfold finishPrune
  simp only [ho, Option.map_some]
  exact ⟨_, rfl⟩

/-- The neighbour lists hold the tree's links when they all have a positive weight. -/
theorem nbr_of_tree {T : SimpleGraph (Fin n)} {w : Fin n → Fin n → ℝ}
    (hw : ∀ u v, T.Adj u v → 0 < w u v) : NeighboursOf T (nbrFromMatrix (weightMatrix T w)) := by
  intro v
  refine ⟨nbrFromMatrix_nodup _ _, fun q => ?_⟩
  rw [mem_nbr_weight]
  exact ⟨fun h => h.1.symm, fun h => ⟨h.symm, hw _ _ h.symm⟩⟩

/-- Swapping a link: in a tree, a link of positive weight can be replaced by a link of weight 0. -/
theorem exchange {G T : SimpleGraph (Fin n)} (hT : T.IsTree) (hTG : T ≤ G) {w : Fin n → Fin n → ℝ}
    (hpos : ∀ a b, T.Adj a b → 0 < w a b) {u v : Fin n} (hG : G.Adj u v) (h0 : w u v = 0)
    (h0' : w v u = 0) :
    ∃ T', SpanningForest G T' ∧ totalWeight w T' < totalWeight w T := by
  classical
  have huv : ¬ T.Adj u v := fun h => by have := hpos _ _ h; rw [h0] at this; exact lt_irrefl _ this
  obtain ⟨p, hp, -⟩ := hT.existsUnique_path u v
  obtain ⟨x, hux, q, rfl⟩ : ∃ x, ∃ (h : T.Adj u x) (q : T.Walk x v), p = SimpleGraph.Walk.cons h q := by
    cases p with
    | nil => exact absurd rfl hG.ne
    | cons h q => exact ⟨_, h, q, rfl⟩
  have hq : u ∉ q.support := ((SimpleGraph.Walk.cons_isPath_iff hux q).mp hp).2
  set D := T.deleteEdges {s(u, x)} with hD
  have hDT : D ≤ T := SimpleGraph.deleteEdges_le _
  have hbridge : ¬ D.Reachable u x := by
    have := (SimpleGraph.isAcyclic_iff_forall_adj_isBridge.mp hT.isAcyclic) hux
    exact SimpleGraph.isBridge_iff.mp this
  have hxv : D.Reachable x v := by
    refine ⟨q.toDeleteEdges _ ?_⟩
    intro e he hmem
    rw [Set.mem_singleton_iff] at hmem
    subst hmem
    exact hq (SimpleGraph.Walk.fst_mem_support_of_mem_edges q he)
  have huvD : ¬ D.Reachable u v := fun h => hbridge (h.trans hxv.symm)
  have hx : x ≠ v := by rintro rfl; exact huv hux
  obtain ⟨E, hE⟩ : ∃ E, E = D ⊔ SimpleGraph.edge u v := ⟨_, rfl⟩
  have hEa : ∀ a b, E.Adj a b ↔ D.Adj a b ∨ (SimpleGraph.edge u v).Adj a b := by
    intro a b
    rw [hE, SimpleGraph.sup_adj]
  refine ⟨E, ⟨?_, ?_, ?_⟩, ?_⟩
  · rw [hE]
    refine sup_le (hDT.trans hTG) ?_
    intro a b hab
    rw [SimpleGraph.edge_adj] at hab
    rcases hab.1 with ⟨rfl, rfl⟩ | ⟨rfl, rfl⟩
    · exact hG
    · exact hG.symm
  · rw [hE]
    exact SimpleGraph.IsAcyclic.sup_edge_of_not_reachable huvD (hT.isAcyclic.anti hDT)
  · have hconn : ∀ a b, T.Adj a b → E.Reachable a b := by
      have e1 : E.Reachable u x := by
        have hadj : E.Adj u v := by
          rw [hEa]
          right
          rw [SimpleGraph.edge_adj]
          exact ⟨Or.inl ⟨rfl, rfl⟩, hG.ne⟩
        exact hadj.reachable.trans (hxv.symm.mono (by rw [hE]; exact le_sup_left))
      intro a b hab
      by_cases he : s(a, b) = s(u, x)
      · rcases Sym2.eq_iff.mp he with ⟨rfl, rfl⟩ | ⟨rfl, rfl⟩
        · exact e1
        · exact e1.symm
      · have : D.Adj a b := by
          rw [hD, SimpleGraph.deleteEdges_adj]
          exact ⟨hab, he⟩
        exact ((hEa a b).mpr (Or.inl this)).reachable
    intro a b _
    obtain ⟨r⟩ := hT.connected.preconnected a b
    clear * - r hconn
    induction r with
    | nil => rfl
    | cons h _ ih => exact (hconn _ _ h).trans ih
  · have hadj : ∀ a b, E.Adj a b → D.Adj a b ∨ w a b = 0 := by
      intro a b hab
      rcases (hEa a b).mp hab with h | h
      · exact Or.inl h
      · rw [SimpleGraph.edge_adj] at h
        rcases h.1 with ⟨rfl, rfl⟩ | ⟨rfl, rfl⟩
        · exact Or.inr h0
        · exact Or.inr h0'
    have hux' : ¬ E.Adj u x := by
      intro h
      rcases (hEa u x).mp h with h | h
      · rw [hD, SimpleGraph.deleteEdges_adj] at h
        exact h.2 rfl
      · rw [SimpleGraph.edge_adj] at h
        rcases h.1 with ⟨_, e⟩ | ⟨e, _⟩
        · exact hx e
        · exact hG.ne e
    clear hEa hE
    have hle : ∀ a b, (if E.Adj a b then w a b else 0) ≤ if T.Adj a b then w a b else 0 := by
      intro a b
      by_cases h : E.Adj a b
      · rw [if_pos h]
        rcases hadj a b h with h | h
        · rw [if_pos (hDT h)]
        · rw [h]; simp
      · rw [if_neg h]
        split
        · exact (hpos _ _ ‹_›).le
        · exact le_rfl
    unfold totalWeight
    refine Finset.sum_lt_sum (fun a _ => Finset.sum_le_sum fun b _ => hle a b) ⟨u, Finset.mem_univ _, ?_⟩
    refine Finset.sum_lt_sum (fun b _ => hle u b) ⟨x, Finset.mem_univ _, ?_⟩
    rw [if_pos hux, if_neg hux']
    exact hpos _ _ hux

/-- A minimum-spanning-tree algorithm exists. -/
theorem exists_mst (n : Nat) :
    ∃ mst : SimpleGraph (Fin n) → (Fin n → Fin n → ℝ) → SimpleGraph (Fin n), MstAlgorithm mst := by
  classical
  have h : ∀ (G : SimpleGraph (Fin n)) (w : Fin n → Fin n → ℝ), ∃ T, SpanningForest G T ∧
      ∀ T', SpanningForest G T' → totalWeight w T ≤ totalWeight w T' := by
    intro G w
    have hne : ∃ T, SpanningForest G T := by
      obtain ⟨F, h1, h2, h3⟩ := SimpleGraph.exists_isAcyclic_reachable_eq_le (G := G)
      exact ⟨F, h1, h2, fun u v h => by rw [h3]; exact h⟩
    obtain ⟨T, hT, hm⟩ := Set.exists_min_image {T | SpanningForest G T} (totalWeight w)
      (Set.toFinite _) hne
    exact ⟨T, hT, hm⟩
  exact ⟨fun G w => (h G w).choose, fun G w => (h G w).choose_spec⟩

/-! ## Root selection -/

theorem npArgmax_spec {α : Type} [LinearOrder α] {y : List α} (hy : y ≠ []) :
    ∃ m, y[npArgmax y]? = some m ∧ (∀ u ∈ y, u ≤ m) ∧
      ∀ (j : Nat), j < npArgmax y → ∀ u, y[j]? = some u → u < m := by
  classical
  obtain ⟨m, hm, hmax⟩ : ∃ m ∈ y, ∀ u ∈ y, u ≤ m := by
    obtain ⟨m, hm⟩ := Set.exists_max_image {x | x ∈ y} id y.finite_toSet
      (List.exists_mem_of_ne_nil y hy)
    exact ⟨m, hm⟩
  have hlt : npArgmax y < y.length := by
    unfold npArgmax
    rw [List.findIdx_lt_length]
    exact ⟨m, hm, by simpa using hmax⟩
  have hget : ∀ u ∈ y, u ≤ y[npArgmax y] := by
    have := List.findIdx_getElem (p := fun v => decide (∀ u ∈ y, u ≤ v)) (xs := y) (w := hlt)
    exact of_decide_eq_true this
  refine ⟨y[npArgmax y], List.getElem?_eq_getElem hlt, hget, ?_⟩
  intro j hj u hu
  rcases lt_or_eq_of_le (hget u (List.mem_of_getElem? hu)) with h | h
  · exact h
  · exfalso
    have := List.not_of_lt_findIdx (p := fun v => decide (∀ u ∈ y, u ≤ v)) (xs := y) (i := j) hj
    rw [List.getElem?_eq_getElem (by omega)] at hu
    injection hu with hu
    rw [hu, h] at this
    exact absurd hget (of_decide_eq_false this)

end

end Danse

namespace Danse

/-- Splitting a sum of squares between the active and the inactive samples. -/
theorem sum_active (x : List ℝ) (v : List Bool) (h : x.length = v.length) :
    (x.map fun a => |a| ^ 2).sum =
      (((x.zip v).filter fun s => s.2 == true).map fun s => s.1 ^ 2).sum +
      (((x.zip v).filter fun s => s.2 == false).map fun s => s.1 ^ 2).sum := by
  induction x generalizing v with
  | nil => simp
  | cons a x ih =>
    cases v with
    | nil => simp at h
    | cons b v =>
      have := ih v (by simpa using h)
      rw [List.map_cons, List.sum_cons, this, sq_abs, List.zip_cons_cons]
      cases b
      · rw [List.filter_cons_of_neg (by simp), List.filter_cons_of_pos (by simp), List.map_cons,
          List.sum_cons]
        ring
      · rw [List.filter_cons_of_pos (by simp), List.filter_cons_of_neg (by simp), List.map_cons,
          List.sum_cons]
        ring

theorem activeOf_sq (x : List ℝ) (v : List Bool) :
    ((activeOf x v).map fun a => |a| ^ 2) =
      ((x.zip v).filter fun s => s.2 == true).map fun s => s.1 ^ 2 := by
  unfold activeOf
  induction x.zip v with
  | nil => rfl
  | cons s l ih =>
    obtain ⟨a, b⟩ := s
    cases b <;> simp_all

/-- The number of samples with a given VAD value depends on the VAD only. -/
theorem count_active (b : Bool) (x : List ℝ) (v : List Bool) (h : x.length = v.length) :
    ((x.zip v).filter fun s => s.2 == b).length = v.count b := by
  induction x generalizing v with
  | nil =>
    have : v = [] := by simpa using h.symm
    subst this
    rfl
  | cons a x ih =>
    cases v with
    | nil => simp at h
    | cons c v =>
      have := ih v (by simpa using h)
      rw [List.zip_cons_cons, List.filter_cons, List.count_cons]
      split <;> rename_i hc
      · rw [List.length_cons, this]
      · rw [this, Nat.add_zero]

theorem powerWhen_mul (b : Bool) (x : List ℝ) (v : List Bool) (h : x.length = v.length) (hb : b ∈ v) :
    powerWhen b x v * (v.count b : ℝ) =
      (((x.zip v).filter fun s => s.2 == b).map fun s => s.1 ^ 2).sum := by
  have hc : 0 < v.count b := List.count_pos_iff.mpr hb
  unfold powerWhen meanOf
  rw [List.length_map, count_active b x v h]
  exact div_mul_cancel₀ _ (by positivity)

theorem powerWhen_nonneg (b : Bool) (x : List ℝ) (v : List Bool) : 0 ≤ powerWhen b x v := by
  unfold powerWhen meanOf
  refine div_nonneg (List.sum_nonneg ?_) (Nat.cast_nonneg _)
  intro a ha
  obtain ⟨s, _, rfl⟩ := List.mem_map.mp ha
  exact sq_nonneg _

/-- The SNR estimate in terms of the powers while active and inactive. -/
theorem snrEstimate_eq (x : List ℝ) (v : List Bool) (h : x.length = v.length) (ht : true ∈ v)
    (hf : false ∈ v) (hp : 0 < powerWhen true x v) :
    snrEstimate x v = .fin (10 * Real.logb 10
      ((v.count true + v.count false * (powerWhen false x v / powerWhen true x v)) / x.length)) := by
  have e0 : meanOf ((activeOf x v).map fun a => |a| ^ 2) = powerWhen true x v := by
    rw [activeOf_sq]; rfl
  unfold snrEstimate
  simp only
  rw [if_neg, if_neg, e0]
  · congr 3
    unfold meanOf
    rw [sum_active x v h, ← powerWhen_mul true x v h ht, ← powerWhen_mul false x v h hf, List.length_map]
    field_simp
  · rw [e0]; exact hp.ne'
  · intro hc
    rw [hc] at e0
    unfold meanOf at e0
    simp at e0
    rw [← e0] at hp
    exact lt_irrefl _ hp

end Danse
