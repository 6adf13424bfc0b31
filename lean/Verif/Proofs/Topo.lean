import Verif.Spec.Topo
import Mathlib.Data.List.Sort

/-! # Lemmas on topologies and sensor maps -/

namespace Danse

theorem s2n_aux (nS : List Nat) (o m k : Nat) :
    ((nS.zipIdx o).flatMap fun (m, ii) => List.replicate m ii)[m]? = some k ↔
      ∃ i j s, k = o + i ∧ nS[i]? = some s ∧ j < s ∧ m = (nS.take i).sum + j := by
  induction nS generalizing o m with
  | nil => simp
  | cons a r ih =>
    rw [List.zipIdx_cons, List.flatMap_cons, List.getElem?_append, List.length_replicate]
    by_cases hm : m < a
    · rw [if_pos hm, List.getElem?_replicate, if_pos hm]
      constructor
      · intro h
        exact ⟨0, m, a, by simpa using (Option.some.inj h).symm, by simp, hm, by simp⟩
      · rintro ⟨i, j, s, rfl, hs, hj, e⟩
        cases i with
        | zero => rfl
        | succ i => simp at e; omega
    · rw [if_neg hm, ih]
      constructor
      · rintro ⟨i, j, s, rfl, hs, hj, e⟩
        refine ⟨i + 1, j, s, by omega, by simpa using hs, hj, ?_⟩
        simp only [List.take_succ_cons, List.sum_cons]; omega
      · rintro ⟨i, j, s, rfl, hs, hj, e⟩
        cases i with
        | zero => simp at hs e; omega
        | succ i =>
          refine ⟨i, j, s, by omega, by simpa using hs, hj, ?_⟩
          simp only [List.take_succ_cons, List.sum_cons] at e; omega

theorem s2n_getElem? (nS : List Nat) (m k : Nat) :
    (sensorToNode nS)[m]? = some k ↔ ∃ j, Owns nS k j m := by
  unfold sensorToNode
  rw [s2n_aux]
  constructor
  · rintro ⟨i, j, s, rfl, hs, hj, e⟩
    rw [Nat.zero_add]
    exact ⟨j, s, hs, hj, e⟩
  · rintro ⟨j, s, hs, hj, e⟩
    exact ⟨k, j, s, by omega, hs, hj, e⟩

theorem s2n_length (nS : List Nat) : (sensorToNode nS).length = nS.sum := by
  unfold sensorToNode
  suffices h : ∀ o, ((nS.zipIdx o).flatMap fun (m, ii) => List.replicate m ii).length = nS.sum from
    h 0
  induction nS with
  | nil => simp
  | cons a r ih => intro o; rw [List.zipIdx_cons, List.flatMap_cons, List.length_append, ih]; simp

theorem mem_npWhereEq (a : List Nat) (v i : Nat) : i ∈ npWhereEq a v ↔ a[i]? = some v := by
  unfold npWhereEq
  rw [List.mem_filterMap]
  constructor
  · rintro ⟨⟨x, j⟩, hm, h⟩
    rw [List.mk_mem_zipIdx_iff_getElem?] at hm
    by_cases hx : x = v
    · simp only [if_pos hx, Option.some.injEq] at h
      rw [← h, hm, hx]
    · simp [if_neg hx] at h
  · intro h
    exact ⟨(v, i), by rw [List.mk_mem_zipIdx_iff_getElem?]; exact h, by simp⟩

theorem zipIdx_pairwise {α : Type} (a : List α) (o : Nat) :
    (a.zipIdx o).Pairwise fun p q => p.2 < q.2 := by
  induction a generalizing o with
  | nil => simp
  | cons x r ih =>
    rw [List.zipIdx_cons, List.pairwise_cons]
    refine ⟨fun p hp => ?_, ih _⟩
    have := List.le_snd_of_mem_zipIdx hp
    simp only; omega

theorem npWhereEq_sorted (a : List Nat) (v : Nat) : (npWhereEq a v).Pairwise (· < ·) := by
  unfold npWhereEq
  rw [List.pairwise_filterMap]
  refine (zipIdx_pairwise a 0).imp ?_
  rintro ⟨x, i⟩ ⟨y, j⟩ h b hb b' hb'
  simp only at h hb hb'
  by_cases hx : x = v <;> by_cases hy : y = v <;> simp_all

/-- A node owns at most one index range. -/
theorem firstSensor_succ {nS : List Nat} {k s : Nat} (h : nS[k]? = some s) :
    firstSensor nS (k + 1) = firstSensor nS k + s := by
  unfold firstSensor
  rw [List.take_add_one, h]
  simp

theorem firstSensor_mono {nS : List Nat} {k l : Nat} (h : k ≤ l) :
    firstSensor nS k ≤ firstSensor nS l := by
  induction l, h using Nat.le_induction with
  | base => exact le_rfl
  | succ l _ ih =>
    refine ih.trans ?_
    unfold firstSensor
    rw [List.take_add_one, List.sum_append]
    omega

theorem Owns.unique {nS : List Nat} {k j k' j' m : Nat} (h : Owns nS k j m) (h' : Owns nS k' j' m) :
    k = k' ∧ j = j' := by
  obtain ⟨s, hs, hj, e⟩ := h
  obtain ⟨s', hs', hj', e'⟩ := h'
  have a := firstSensor_succ hs
  have a' := firstSensor_succ hs'
  rcases Nat.lt_trichotomy k k' with hk | rfl | hk
  · have := firstSensor_mono (nS := nS) (show k + 1 ≤ k' by omega)
    omega
  · exact ⟨rfl, by omega⟩
  · have := firstSensor_mono (nS := nS) (show k' + 1 ≤ k by omega)
    omega

theorem npWhereEq_s2n {nS : List Nat} {k s : Nat} (h : nS[k]? = some s) :
    npWhereEq (sensorToNode nS) k = (List.range s).map (firstSensor nS k + ·) := by
  refine List.Pairwise.eq_of_mem_iff (r := (· < ·)) (npWhereEq_sorted _ _) ?_ ?_
  · rw [List.pairwise_map]
    exact List.pairwise_lt_range.imp (by intros; omega)
  · intro i
    rw [mem_npWhereEq, s2n_getElem?]
    simp only [List.mem_map, List.mem_range]
    constructor
    · rintro ⟨j, s', hs', hj, e⟩
      rw [h] at hs'; cases hs'
      exact ⟨j, hj, e.symm⟩
    · rintro ⟨j, hj, e⟩
      exact ⟨j, s, h, hj, e.symm⟩

theorem pyGet_nat {α : Type} (l : List α) (i : Nat) :
    pyGet l (i : Int) = match l[i]? with
      | some x => .ok x
      | none => .error .indexError := by
  unfold pyGet
  have h : ¬ ((i : Int) < 0) := by omega
  simp only [if_neg h, Int.toNat_natCast]
  cases l[i]? <;> rfl

theorem foldl_max_spec (r : List Nat) (x : Nat) :
    (∀ y ∈ x :: r, y ≤ r.foldl max x) ∧ r.foldl max x ∈ x :: r := by
  induction r generalizing x with
  | nil => simp
  | cons a r ih =>
    obtain ⟨h1, h2⟩ := ih (max x a)
    rw [List.foldl_cons]
    constructor
    · intro y hy
      have hm := h1 (max x a) (by simp)
      rcases List.mem_cons.mp hy with rfl | hy
      · exact (le_max_left _ _).trans hm
      rcases List.mem_cons.mp hy with rfl | hy
      · exact (le_max_right _ _).trans hm
      · exact h1 y (by simp [hy])
    · rcases List.mem_cons.mp h2 with h | h
      · rw [h]
        rcases max_choice x a with e | e <;> rw [e] <;> simp
      · simp [h]

theorem ptDist_comm (a b : Pt) : ptDist a b = ptDist b a := by
  unfold ptDist
  congr 1
  exact Finset.sum_congr rfl fun i _ => by ring

/-- Number of nodes `get_topo` sees. -/
def topoNodes (s2n : List Nat) : Nat := (s2n.foldl max 0) + 1

theorem getTopo_eq {c : TopoCfg} {s2n : List Nat} (hne : s2n ≠ []) (coords : Option (List Pt))
    (rnd : Nat → Nat → Nat) :
    getTopo c s2n coords rnd = (topoMatrix c s2n coords rnd (topoNodes s2n)).map fun topo =>
      (topo, (List.range (topoNodes s2n)).map fun k =>
        (List.range (topoNodes s2n)).filter fun q => decide (0 < topo q k) && q != k) := by
  cases s2n with
  | nil => exact absurd rfl hne
  | cons x r =>
    have e : topoNodes (x :: r) = r.foldl max x + 1 := by simp [topoNodes]
    rw [e]
    unfold getTopo
    change (topoMatrix c (x :: r) coords rnd (r.foldl max x + 1) >>= _) = _
    cases topoMatrix c (x :: r) coords rnd (r.foldl max x + 1) <;> rfl

/-- The links are symmetric in every accepted topology. -/
theorem topoMatrix_symm {c : TopoCfg} {s2n : List Nat} {coords : Option (List Pt)}
    {rnd : Nat → Nat → Nat} {n : Nat} {topo : Nat → Nat → ℝ}
    (h : topoMatrix c s2n coords rnd n = .ok topo) :
    ∀ k < n, ∀ q < n, topo k q = topo q k := by
  unfold topoMatrix at h
  by_cases h1 : c.topologyType = "fully-connected"
  · rw [if_pos h1] at h; cases h; intros; rfl
  rw [if_neg h1] at h
  by_cases h2 : c.topologyType = "ad-hoc"
  · rw [if_pos h2] at h
    intro k _ q _
    cases coords with
    | none =>
      cases h
      rcases Nat.lt_trichotomy k q with hk | rfl | hk
      · simp [hk.le, hk, hk.not_ge, not_lt.mpr hk.le]
      · rfl
      · simp [hk.le, hk, hk.not_ge, not_lt.mpr hk.le]
    | some cs =>
      cases h
      simp only
      cases nodeCentre s2n cs k <;> cases nodeCentre s2n cs q <;> simp [ptDist_comm]
  rw [if_neg h2] at h
  by_cases h3 : c.topologyType = "user-defined"
  · rw [if_pos h3] at h
    simp only at h
    by_cases h4 : (c.userDefinedTopo.rows, c.userDefinedTopo.cols) ≠ (n, n)
    · rw [if_pos h4] at h; cases h
    rw [if_neg h4] at h
    by_cases h5 : ¬ ∀ i < c.userDefinedTopo.rows, ∀ j < c.userDefinedTopo.cols,
        c.userDefinedTopo.at' i j = 0 ∨ c.userDefinedTopo.at' i j = 1
    · rw [if_pos h5] at h; cases h
    rw [if_neg h5] at h
    by_cases h6 : ¬ npAllcloseT c.userDefinedTopo
    · rw [if_pos h6] at h; cases h
    rw [if_neg h6] at h
    cases h
    rw [not_not] at h4 h5 h6
    simp only [Prod.mk.injEq] at h4
    intro k hk q hq
    have a := h6 k (by omega) q (by omega)
    rcases h5 k (by omega) q (by omega) with e | e <;>
      rcases h5 q (by omega) k (by omega) with e' | e' <;> rw [e, e'] at a ⊢
    · norm_num at a
    · norm_num at a
  · rw [if_neg h3] at h; cases h

end Danse
