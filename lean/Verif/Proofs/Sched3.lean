import Verif.Proofs.Sched2
import Verif.Props.Online

/-! # Helper lemmas: prefixes of the schedule of a synchronous network -/

namespace Danse

/-- Order of two events in a schedule of a fully connected network. -/
def EvBefore (x y : ℚ × Nat × EvType) : Prop :=
  x.1 < y.1 ∨ (x.1 = y.1 ∧ ((x.2.2 = .bc ∧ y.2.2 = .up) ∨ (x.2.2 = y.2.2 ∧ x.2.1 < y.2.1)))

theorem schedule_order {a : EvArgs ℚ} {out : List (Instant ℚ)} (h : buildEvents a = .ok out)
    (hfc : a.tiFlag = false) : (flatEvents out).Pairwise EvBefore := by
  have hcov : a.tiFlag = true → ∀ o ∈ a.orderings, CoversNodes a.up_t.length o := by
    intro h; rw [hfc] at h; cases h
  have h1 := (C01_exactly_once h hcov).1
  unfold flatEvents
  rw [List.pairwise_flatMap]
  constructor
  · intro i hi
    rw [List.pairwise_map]
    exact (C02_broadcasts_before_updates h hfc hi).2.imp fun hr => .inr ⟨rfl, hr⟩
  · rw [List.pairwise_map] at h1
    refine h1.imp fun {i j} hij x hx y hy => ?_
    obtain ⟨_, _, rfl⟩ := List.mem_map.mp hx
    obtain ⟨_, _, rfl⟩ := List.mem_map.mp hy
    exact .inl hij

/-- Before an update at time `t` come exactly the broadcasts up to and including time `t`. -/
theorem bcTimes_before {evs pre post : List (ℚ × Nat × EvType)} {t : ℚ} {q : Nat}
    (ho : evs.Pairwise EvBefore) (hs : evs = pre ++ (t, q, .up) :: post) (k : Nat) :
    bcTimes pre k = (bcTimes evs k).filter fun x => decide (x ≤ t) := by
  subst hs
  rw [List.pairwise_append, List.pairwise_cons] at ho
  obtain ⟨_, ⟨h2, _⟩, h3⟩ := ho
  unfold bcTimes
  rw [List.filterMap_append, List.filter_append, List.filterMap_cons]
  simp only [reduceCtorEq, and_false, if_false]
  rw [List.filter_eq_self.mpr, List.filter_eq_nil_iff.mpr, List.append_nil]
  · intro x hx
    obtain ⟨y, hy, he⟩ := List.mem_filterMap.mp hx
    split at he
    · rename_i hc
      injection he with he
      subst he
      rcases h2 y hy with h | ⟨h, h'⟩
      · simpa using h
      · rcases h' with h' | h'
        · cases h'.1
        · have e := h'.1
          rw [hc.2] at e
          cases e
    · cases he
  · intro x hx
    obtain ⟨y, hy, he⟩ := List.mem_filterMap.mp hx
    split at he
    · injection he with he
      subst he
      rcases h3 y hy (t, q, .up) (by simp) with h | ⟨h, _⟩
      · simpa using h.le
      · simpa using h.le
    · cases he

theorem everySep_filter {sep : Nat} (hs : 0 < sep) {fs : ℚ} (hfs : 0 < fs) (a b m : Nat) :
    (everySep sep fs a b).filter (fun x => decide (x ≤ (m : ℚ) / fs)) = everySep sep fs a (min b (m / sep + 1)) := by
  apply sorted_ext ((everySep_sorted hs hfs a b).filter _) (everySep_sorted hs hfs a _)
  intro x
  rw [List.mem_filter]
  unfold everySep
  simp only [List.mem_map, List.mem_range, decide_eq_true_eq]
  have key : ∀ j : Nat, (((a + j : Nat) : ℚ) * sep / fs ≤ (m : ℚ) / fs ↔ a + j ≤ m / sep) := by
    intro j
    rw [div_le_div_iff_of_pos_right hfs, Nat.le_div_iff_mul_le hs]
    exact_mod_cast Iff.rfl
  constructor
  · rintro ⟨⟨j, hj, rfl⟩, hx⟩
    rw [key] at hx
    exact ⟨j, by omega, rfl⟩
  · rintro ⟨j, hj, rfl⟩
    exact ⟨⟨j, by omega, rfl⟩, by rw [key]; omega⟩

theorem floor_everySep {fs : ℚ} (hfs : 0 < fs) (i sep : Nat) :
    ⌊((i : ℚ) * sep / fs) * fs⌋ = ((i * sep : Nat) : Int) := by
  rw [div_mul_cancel₀ _ hfs.ne']
  have : (i : ℚ) * sep = (((i * sep : Nat) : Int) : ℚ) := by push_cast; ring
  rw [this, Int.floor_intCast]

theorem frameEnds_eq (bc : BcType) (N Ns : Nat) (fs : ℚ) (k : Nat) (evs : List (ℚ × Nat × EvType)) :
    frameEnds bc N Ns fs k evs = (upTimes evs k).map fun t => frameEnd bc N Ns t fs := by
  unfold frameEnds upTimes
  rw [List.map_filterMap]
  congr 1
  funext ev
  split <;> rfl

theorem bcEnds_eq (fs : ℚ) (k : Nat) (evs : List (ℚ × Nat × EvType)) :
    bcEnds fs k evs = (bcTimes evs k).map fun t => ⌊t * fs⌋ := by
  unfold bcEnds bcTimes
  rw [List.map_filterMap]
  congr 1
  funext ev
  split <;> rfl

end Danse
