import Verif.Proofs.DanseCentr4
import Verif.Proofs.Centr6

/-!
# Helper lemmas for C130: single-sensor channels among the centralised ones; synchronous runs
-/

set_option linter.unusedSectionVars false

namespace Danse
section
variable {K : Type} [Field K] [StarRing K] [DecidableEq K] {C : CDanseCfg K} {y : Nat → List (List K)} {T : Nat}
  {evs : List (ℚ × Nat × EvType)} {a : CDanseSt C}

theorem sum_range_lt {M : Nat → Nat} {n q m : Nat} (hq : q < n) (hm : m < M q) :
    ((List.range q).map M).sum + m < ((List.range n).map M).sum := by
  induction n with
  | zero => omega
  | succ n ih =>
    rw [List.range_succ, List.map_append, List.sum_append]
    simp only [List.map_cons, List.map_nil, List.sum_cons, List.sum_nil]
    by_cases e : q = n
    · subst e; omega
    · have := ih (by omega); omega

theorem mem_others {k q : Nat} : q ∈ C.others k ↔ q < C.n ∧ q ≠ k := by
  unfold CDanseCfg.others
  simp

theorem others_nodup (k : Nat) : (C.others k).Nodup := List.nodup_range.filter _

theorem others_length {k : Nat} (hk : k < C.n) : (C.others k).length = C.n - 1 := by
  unfold CDanseCfg.others
  have h1 : (List.range C.n).Perm (k :: (List.range C.n).filter fun q => q ≠ k) := by
    have := List.perm_cons_erase (List.mem_range.mpr hk)
    rw [List.nodup_range.erase_eq_filter] at this
    refine this.trans (List.Perm.of_eq ?_)
    congr 1
    apply List.filter_congr
    intro q _
    by_cases hq : q = k <;> simp [hq]
  have := h1.length_eq
  rw [List.length_range, List.length_cons] at this
  omega

/-- The places of the single-sensor channels. -/
theorem place_lt {k c : Nat} (hk : k < C.n) (hpos : ∀ q < C.n, q ≠ k → 0 < C.D.M q)
    (hc : c < C.D.M k + (C.others k).length) : C.place k c < C.total := by
  unfold CDanseCfg.place
  split
  · rename_i h; exact sum_range_lt hk h
  · rename_i h
    have hl : c - C.D.M k < (C.others k).length := by omega
    rw [List.getD_eq_getElem?_getD, List.getElem?_eq_getElem hl, Option.getD_some]
    have hm := mem_others.mp (List.getElem_mem hl)
    have := sum_range_lt (M := C.D.M) (n := C.n) hm.1 (hpos _ hm.1 hm.2)
    omega

theorem sum_range_inj {M : Nat → Nat} {q q' m m' : Nat} (hm : m < M q) (hm' : m' < M q')
    (h : ((List.range q).map M).sum + m = ((List.range q').map M).sum + m') : q = q' ∧ m = m' := by
  rcases Nat.lt_trichotomy q q' with h1 | h1 | h1
  · have := sum_range_lt (M := M) h1 hm; omega
  · subst h1; exact ⟨rfl, by omega⟩
  · have := sum_range_lt (M := M) h1 hm'; omega

theorem place_inj {k c c' : Nat} (hpos : ∀ q < C.n, q ≠ k → 0 < C.D.M q)
    (hc : c < C.D.M k + (C.others k).length) (hc' : c' < C.D.M k + (C.others k).length)
    (h : C.place k c = C.place k c') : c = c' := by
  have key : ∀ c, c < C.D.M k + (C.others k).length → ∃ q m, m < C.D.M q ∧
      C.place k c = ((List.range q).map C.D.M).sum + m ∧
      ((q = k ∧ c = m) ∨ (q ≠ k ∧ m = 0 ∧ C.D.M k ≤ c ∧ (C.others k)[c - C.D.M k]? = some q)) := by
    intro c hc
    unfold CDanseCfg.place
    by_cases h1 : c < C.D.M k
    · rw [if_pos h1]; exact ⟨k, c, h1, rfl, .inl ⟨rfl, rfl⟩⟩
    · rw [if_neg h1]
      have hl : c - C.D.M k < (C.others k).length := by omega
      have hm := mem_others.mp (List.getElem_mem hl)
      refine ⟨(C.others k)[c - C.D.M k], 0, hpos _ hm.1 hm.2, ?_, .inr ⟨hm.2, rfl, by omega, List.getElem?_eq_getElem hl⟩⟩
      rw [List.getD_eq_getElem?_getD, List.getElem?_eq_getElem hl, Option.getD_some, Nat.add_zero]
  obtain ⟨q, m, h1, h2, h3⟩ := key c hc
  obtain ⟨q', m', h1', h2', h3'⟩ := key c' hc'
  rw [h2, h2'] at h
  obtain ⟨rfl, rfl⟩ := sum_range_inj h1 h1' h
  rcases h3 with ⟨rfl, rfl⟩ | ⟨h3, h4, h5, h6⟩
  · rcases h3' with ⟨_, rfl⟩ | ⟨h3', _⟩
    · rfl
    · exact absurd rfl h3'
  · rcases h3' with ⟨h7, _⟩ | ⟨_, h4', h5', h6'⟩
    · exact absurd h7 h3
    · obtain ⟨l1, e1⟩ := List.getElem?_eq_some_iff.mp h6
      obtain ⟨l2, e2⟩ := List.getElem?_eq_some_iff.mp h6'
      have := (others_nodup (C := C) k).getElem_inj_iff.mp (e1.trans e2.symm)
      omega

/-- The frames of the single-sensor observation in their places. -/
theorem blocks_place {f : Nat → List (List K)} (hf : ∀ q, (f q).length = C.D.M q) {k c : Nat} (hk : k < C.n)
    (hpos : ∀ q < C.n, q ≠ k → 0 < C.D.M q) (hc : c < C.D.M k + (C.others k).length) :
    (f k ++ (C.others k).map fun q => (f q).getD 0 [])[c]? = ((List.range C.n).flatMap f)[C.place k c]? := by
  have hfl : (fun p => (f p).length) = C.D.M := funext hf
  unfold CDanseCfg.place
  by_cases h1 : c < C.D.M k
  · rw [if_pos h1, List.getElem?_append_left (by rw [hf]; exact h1), ← hfl, flatMap_range_get _ _ hk (by rw [hf]; exact h1)]
  · rw [if_neg h1, List.getElem?_append_right (by rw [hf]; omega), hf]
    have hl : c - C.D.M k < (C.others k).length := by omega
    have hm := mem_others.mp (List.getElem_mem hl)
    have h0 : 0 < (f (C.others k)[c - C.D.M k]).length := by rw [hf]; exact hpos _ hm.1 hm.2
    rw [List.getElem?_map, List.getElem?_eq_getElem hl, Option.map_some,
      List.getD_eq_getElem?_getD (l := C.others k), List.getElem?_eq_getElem hl, Option.getD_some]
    have := flatMap_range_get C.n f (q := (C.others k)[c - C.D.M k]) (m := 0) hm.1 h0
    rw [Nat.add_zero, hfl] at this
    rw [this, List.getD_eq_getElem?_getD, List.getElem?_eq_getElem h0, Option.getD_some]

end
end Danse
