import Verif.Spec.CentrRun
import Verif.Proofs.Buffers2
import Verif.Proofs.TIRun11
import Verif.Props.Buffers

/-!
# Helper lemmas: layout of the centralised buffers and observations
-/

set_option linter.unusedSectionVars false

namespace Danse

theorem centrSlots_succ (n k : Nat) :
    centrSlots (n + 1) k = if n = k then centrSlots n k else centrSlots n k ++ [n] := by
  unfold centrSlots
  rw [List.range_succ, List.filter_append]
  by_cases h : n = k
  · simp [h]
  · simp [h]

theorem mem_centrSlots {n k q : Nat} : q ∈ centrSlots n k ↔ q < n ∧ q ≠ k := by
  simp [centrSlots]

/-- The slots of the nodes before `q`, then `q`, then the others. -/
theorem centrSlots_split {n k q : Nat} (hq : q < n) (hne : q ≠ k) :
    ∃ r, centrSlots n k = centrSlots q k ++ q :: r := by
  induction n with
  | zero => omega
  | succ n ih =>
    rw [centrSlots_succ]
    rcases Nat.lt_succ_iff_lt_or_eq.mp hq with h | h
    · obtain ⟨r, hr⟩ := ih h
      split
      · exact ⟨r, hr⟩
      · exact ⟨r ++ [n], by rw [hr]; simp⟩
    · subst h
      rw [if_neg hne]
      exact ⟨[], rfl⟩

theorem centrSlots_length (n k : Nat) : (centrSlots n k).length = if k < n then n - 1 else n := by
  induction n with
  | zero => simp [centrSlots]
  | succ n ih =>
    rw [centrSlots_succ]
    by_cases h1 : n = k
    · rw [if_pos h1, ih]
      split_ifs <;> omega
    · rw [if_neg h1, List.length_append, ih]
      simp only [List.length_cons, List.length_nil]
      split_ifs <;> omega

theorem centrSlots_at {n k q : Nat} (hq : q < n) (hne : q ≠ k) :
    (centrSlots n k)[centrReadSlot k q]? = some q := by
  obtain ⟨r, hr⟩ := centrSlots_split hq hne
  have hl : (centrSlots q k).length = centrReadSlot k q := by
    rw [centrSlots_length]; unfold centrReadSlot; split_ifs <;> omega
  rw [hr, ← hl, List.getElem?_append_right (le_refl _)]
  simp

section
variable {β : Type} {f : Nat → List β} {M : Nat → Nat}

theorem flatMap_length_sum (hf : ∀ q, (f q).length = M q) (l : List Nat) :
    (l.flatMap f).length = (l.map M).sum := by
  induction l with
  | nil => rfl
  | cons a l ih => simp [List.flatMap_cons, ih, hf]

/-- The block of node `q` in the stacked columns. -/
theorem flatMap_block (hf : ∀ q, (f q).length = M q) {n k q : Nat} (hq : q < n) (hne : q ≠ k) :
    (((centrSlots n k).flatMap f).drop ((centrSlots q k).map M).sum).take (M q) = f q := by
  obtain ⟨r, hr⟩ := centrSlots_split hq hne
  rw [hr, List.flatMap_append, List.flatMap_cons, ← flatMap_length_sum hf, List.drop_left, ← hf q,
    List.take_left]

theorem flatMap_block_getD (hf : ∀ q, (f q).length = M q) {n k q m : Nat} (hq : q < n) (hne : q ≠ k)
    (hm : m < M q) (d : β) :
    ((centrSlots n k).flatMap f).getD (((centrSlots q k).map M).sum + m) d = (f q).getD m d := by
  conv_rhs => rw [← flatMap_block hf hq hne]
  rw [List.getD_eq_getElem?_getD, List.getD_eq_getElem?_getD, List.getElem?_take, if_pos hm,
    List.getElem?_drop]

theorem nbSensorsBefore_len {n k q : Nat} (hq : q < n) (hne : q ≠ k) :
    nbSensorsBefore n M k (centrSlots q k).length = ((centrSlots q k).map M).sum ∧
    nbSensorsBefore n M k ((centrSlots q k).length + 1) = ((centrSlots q k).map M).sum + M q := by
  obtain ⟨r, hr⟩ := centrSlots_split hq hne
  unfold nbSensorsBefore
  rw [hr]
  constructor
  · rw [List.map_append, show (centrSlots q k).length = ((centrSlots q k).map M).length by simp,
      List.take_left]
  · rw [List.map_append, List.map_cons, show (centrSlots q k).length + 1 =
      ((centrSlots q k).map M).length + 1 by simp, List.take_length_add_append]
    simp

theorem centrCols_start {n k q : Nat} (hq : q < n) (hne : q ≠ k) :
    (centrCols ((List.range n).map M) k q).1 = ((centrSlots q k).map M).sum := by
  rw [C18_centralised_columns hne (by simpa using hq)]
  simp only
  congr 1
  unfold centrSlots
  apply List.map_congr_left
  intro i hi
  have : i < n := by
    have := (List.mem_filter.mp hi).1
    rw [List.mem_range] at this
    omega
  simp [this]
end

section
variable {K : Type} [Field K] [StarRing K] [DecidableEq K]

theorem buildCentr_eq {n k : Nat} {M : Nat → Nat} {f : Nat → List (List K)} (hf : ∀ q, (f q).length = M q)
    (loc : List (List K)) :
    buildCentr n M k loc ((centrSlots n k).flatMap f) =
      (List.range n).flatMap fun q => if q = k then loc else f q := by
  unfold buildCentr
  suffices h : ∀ j ≤ n, (List.range j).foldl (fun (acc : List (List K) × Nat) q =>
      if q = k then (acc.1 ++ loc, acc.2)
      else (acc.1 ++ (((centrSlots n k).flatMap f).drop (nbSensorsBefore n M k acc.2)).take
        (nbSensorsBefore n M k (acc.2 + 1) - nbSensorsBefore n M k acc.2), acc.2 + 1)) ([], 0) =
      ((List.range j).flatMap (fun q => if q = k then loc else f q), (centrSlots j k).length) by
    rw [h n (le_refl _)]
  intro j hj
  induction j with
  | zero => simp [centrSlots]
  | succ j ih =>
    rw [List.range_succ, List.foldl_append, ih (by omega), List.flatMap_append, centrSlots_succ]
    simp only [List.foldl_cons, List.foldl_nil, List.flatMap_cons, List.flatMap_nil, List.append_nil]
    by_cases h : j = k
    · rw [if_pos h, if_pos h, if_pos h]
    · rw [if_neg h, if_neg h, if_neg h]
      obtain ⟨h1, h2⟩ := nbSensorsBefore_len (n := n) (M := M) (by omega : j < n) h
      rw [h1, h2, Nat.add_sub_cancel_left, flatMap_block hf (by omega) h]
      simp

theorem buildSsbc_eq {n k : Nat} {M : Nat → Nat} {f : Nat → List (List K)} (hf : ∀ q, (f q).length = M q)
    (hM : ∀ q < n, q ≠ k → 0 < M q) (loc : List (List K)) :
    buildSsbc n M k loc ((centrSlots n k).flatMap f) =
      .ok (loc ++ (centrSlots n k).map fun q => (f q).getD 0 []) := by
  unfold buildSsbc
  suffices h : ∀ j ≤ n, (List.range j).foldlM (fun (acc : List (List K) × Nat) q =>
      if q = k then .ok acc
      else do
        let col ← pyGet ((centrSlots n k).flatMap f) (nbSensorsBefore n M k acc.2)
        .ok (acc.1 ++ [col], acc.2 + 1)) (loc, 0) =
      (.ok (loc ++ (centrSlots j k).map (fun q => (f q).getD 0 []), (centrSlots j k).length) :
        Except PyErr (List (List K) × Nat)) by
    rw [h n (le_refl _)]
    rfl
  intro j hj
  induction j with
  | zero => simp [centrSlots]; rfl
  | succ j ih =>
    rw [List.range_succ, List.foldlM_append, ih (by omega), centrSlots_succ]
    simp only [List.foldlM_cons, List.foldlM_nil]
    by_cases h : j = k
    · simp only [if_pos h]; rfl
    · simp only [if_neg h]
      obtain ⟨h1, _⟩ := nbSensorsBefore_len (n := n) (M := M) (by omega : j < n) h
      have h2 := flatMap_block_getD hf (k := k) (by omega : j < n) h (hM j (by omega) h) ([] : List K)
      have hlt : ((centrSlots j k).map M).sum < ((centrSlots n k).flatMap f).length := by
        obtain ⟨r, hr⟩ := centrSlots_split (by omega : j < n) h
        rw [flatMap_length_sum hf, hr]
        have := hM j (by omega) h
        simp
        omega
      have h3 : pyGet ((centrSlots n k).flatMap f) ((nbSensorsBefore n M k (centrSlots j k).length : Nat) : Int) =
          .ok ((f j).getD 0 []) := by
        rw [h1, ← h2, Nat.add_zero]
        generalize ((centrSlots j k).map M).sum = a at hlt
        generalize (centrSlots n k).flatMap f = l at hlt
        have ha0 : ¬ ((a : Int) < 0) := by omega
        unfold pyGet
        simp only [if_neg ha0, Int.toNat_natCast, List.getElem?_eq_getElem hlt,
          List.getD_eq_getElem?_getD, Option.getD_some]
      change ((pyGet ((centrSlots n k).flatMap f) ((nbSensorsBefore n M k (centrSlots j k).length : Nat) : Int)
        >>= fun col => _) >>= _) = _
      rw [h3]
      simp [pure, Except.pure, bind, Except.bind]

end
end Danse
