import Verif.Spec.CohDrift
import Verif.Proofs.Config
import Verif.Proofs.Dxcp5
import Verif.Proofs.Events2

/-! # Lemmas for C116 -/

namespace Danse

section lift
variable {a b r avg : List ℂ}

theorem resProdN_some (a b : List ℂ) : resProdN (a.map some) (b.map some) = (resProd a b).map some := by
  unfold resProdN resProd
  simp only
  have : List.zipWith (fun (a b : Option ℂ) => a.bind fun a => b.map fun b => a * star b) (a.map some) (b.map some) =
      (List.zipWith (fun a b => a * star b) a b).map some := by
    rw [List.zipWith_map, List.map_zipWith]
    rfl
  rw [this]
  simp only [List.map_append, List.map_dropLast, List.map_reverse, List.map_map]
  rfl

theorem flagRotateN_some (d : ℝ) (r : List ℂ) : flagRotateN d (r.map some) = (flagRotate d r).map some := by
  unfold flagRotateN flagRotate
  apply List.ext_getElem?
  intro i
  simp only [List.getElem?_map, List.getElem?_zipIdx, List.length_map]
  cases r[i]? <;> simp

theorem cohAverageN_some (alpha : ℝ) (first : Bool) (avg r : List ℂ) :
    cohAverageN alpha first (avg.map some) (r.map some) = (cohAverage alpha first avg r).map some := by
  unfold cohAverageN cohAverage
  cases first
  · simp only [Bool.false_eq_true, if_false]
    rw [List.zipWith_map, List.map_zipWith]
    rfl
  · rfl

theorem cohAverageN_first (alpha : ℝ) (avg r : List (Option ℂ)) : cohAverageN alpha true avg r = r := rfl

theorem resProdN_none {P : Nat} {a : List (Option ℂ)} (ha : a.length = P) :
    resProdN a (List.replicate P none) = List.replicate (2 * (P - 1)) none := by
  unfold resProdN
  have : List.zipWith (fun (a b : Option ℂ) => a.bind fun a => b.map fun b => a * star b) a (List.replicate P none) =
      List.replicate P none := by
    apply List.ext_getElem
    · simp [ha]
    · intro i h1 h2
      simp
  simp only [this]
  rw [List.map_replicate, List.reverse_replicate, List.dropLast_replicate]
  simp only [Option.map_none]
  rw [List.dropLast_replicate, List.replicate_append_replicate]
  congr 1
  omega

theorem flagRotateN_none (d : ℝ) (n : Nat) :
    flagRotateN d (List.replicate n none) = List.replicate n none := by
  unfold flagRotateN
  apply List.ext_getElem
  · simp
  · intro i h1 h2
    simp

theorem cohAverageN_none (alpha : ℝ) {n : Nat} {r : List (Option ℂ)} (hr : r.length = n) :
    cohAverageN alpha false (List.replicate n none) r = List.replicate n none := by
  unfold cohAverageN
  rw [if_neg (by simp)]
  apply List.ext_getElem
  · simp [hr]
  · intro i h1 h2
    simp

theorem resProdN_length {P : Nat} {a b : List (Option ℂ)} (ha : a.length = P) (hb : b.length = P) :
    (resProdN a b).length = 2 * (P - 1) := by
  unfold resProdN
  simp [ha, hb]
  omega

theorem flagRotateN_length (d : ℝ) (r : List (Option ℂ)) : (flagRotateN d r).length = r.length := by
  simp [flagRotateN]

theorem cohRow_length (P : Nat) (row : Nat → ℂ × ℂ) : (cohRow P row).length = P := by simp [cohRow]

theorem cohRow_zero (P : Nat) : cohRow P (fun _ => (0, 0)) = List.replicate P none := by
  unfold cohRow
  apply List.ext_getElem
  · simp
  · intro i h1 h2
    simp [cohCell]

theorem cohRow_some {P : Nat} {row : Nat → ℂ × ℂ} (h : ∀ κ < P, (row κ).1 ≠ 0 ∧ (row κ).2 ≠ 0) :
    cohRow P row = ((List.range P).map fun κ => coherence (row κ).1 (row κ).2).map some := by
  unfold cohRow
  rw [List.map_map]
  refine List.map_congr_left fun κ hκ => ?_
  have := h κ (List.mem_range.mp hκ)
  unfold cohCell
  rw [if_neg (by simp [this.1, this.2])]
  rfl

end lift

theorem cohRounds_snoc (alpha : ℝ) {l : List (List ℂ)} (hl : l ≠ []) (r : List ℂ) :
    cohRounds alpha (l ++ [r]) = cohAverage alpha false (cohRounds alpha l) r := by
  match l, hl with
  | a :: l, _ => simp [cohRounds, List.foldl_append]

theorem cohRun_snoc {c : CohCfg} {xs : List CohIn} {x : CohIn} {s0 s : CohSt} {os : List (Option (Option ℝ))} :
    s0.run c (xs ++ [x]) = .ok (s, os) → ∃ s1 os1 o, s0.run c xs = .ok (s1, os1) ∧ s1.step c x = .ok (s, o) ∧
      os = os1 ++ [o] := by
  induction xs generalizing s0 s os with
  | nil =>
    intro h
    rw [List.nil_append] at h
    unfold CohSt.run at h
    obtain ⟨⟨s1, o⟩, h1, h⟩ := bind_ok_inv h
    unfold CohSt.run at h
    have h : Except.ok (ε := PyErr) (s1, [o]) = .ok (s, os) := h
    injection h with h
    injection h with e1 e2
    exact ⟨s0, [], o, rfl, e1 ▸ h1, e2.symm⟩
  | cons y r ih =>
    intro h
    rw [List.cons_append] at h
    unfold CohSt.run at h
    obtain ⟨⟨s1, o⟩, h1, h⟩ := bind_ok_inv h
    obtain ⟨⟨s2, os2⟩, h2, h⟩ := bind_ok_inv h
    injection h with h
    injection h with e1 e2
    subst e1
    obtain ⟨s3, os3, o3, h3, h4, h5⟩ := ih h2
    refine ⟨s3, o :: os3, o3, ?_, h4, ?_⟩
    · unfold CohSt.run
      rw [h1]
      simp only [bind, Except.bind]
      rw [h3]
    · rw [← e2, h5]
      rfl

/-- Rows written so far. -/
structure CohInv (c : CohCfg) (xs : List CohIn) (s : CohSt) : Prop where
  i : s.i = xs.length
  le : xs.length ≤ c.nIter
  rowsU : s.rowsU = xs.map (fun x κ => (x.ref κ, x.unc κ)) ++
    List.replicate (c.nIter - xs.length) (fun _ => ((0 : ℂ), (0 : ℂ)))
  rowsC : s.rowsC = if c.given then List.replicate c.nIter (fun _ => ((0 : ℂ), (0 : ℂ))) else
    xs.map (fun x κ => (x.ref κ, x.cmp κ)) ++ List.replicate (c.nIter - xs.length) (fun _ => ((0 : ℂ), (0 : ℂ)))
  flags : s.flags = xs.map (·.flag) ++ List.replicate (c.nIter - xs.length) 0

theorem cohInv_init (c : CohCfg) : CohInv c [] (CohSt.init c) :=
  ⟨rfl, Nat.zero_le _, by simp [CohSt.init], by simp [CohSt.init], by simp [CohSt.init]⟩

theorem set_next {α : Type} (l : List α) (z v : α) {n : Nat} (h : l.length < n) :
    (l ++ List.replicate (n - l.length) z).set l.length v = (l ++ [v]) ++ List.replicate (n - (l.length + 1)) z := by
  rw [List.set_append_right _ _ (le_refl _), Nat.sub_self,
    show n - l.length = (n - (l.length + 1)) + 1 by omega, List.replicate_succ, List.set_cons_zero]
  simp

/-- What one update does to the rows, and to the average. -/
theorem cohStep_inv {c : CohCfg} {xs : List CohIn} {x : CohIn} {s s' : CohSt} {o : Option (Option ℝ)}
    (hi : CohInv c xs s) (h : s.step c x = .ok (s', o)) : CohInv c (xs ++ [x]) s' ∧
      ((c.scheduled xs.length = false ∧ o = none ∧ s'.avg = s.avg) ∨
        (c.scheduled xs.length = true ∧ ∃ r, c.product xs.length s'.rowsC s'.rowsU s'.flags = .ok r ∧
          s'.avg = cohAverageN c.alpha (xs.length == c.startAfterNups + c.estEvery) s.avg r ∧
          o = some (cohEstimate c s'.avg))) := by
  unfold CohSt.step at h
  by_cases hn : s.i ≥ c.nIter
  · rw [if_pos hn] at h; cases h
  rw [if_neg hn] at h
  have hn' : xs.length < c.nIter := by rw [← hi.i]; omega
  have inv : ∀ avg, CohInv c (xs ++ [x]) ⟨s.i + 1, if c.given then s.rowsC else
      s.rowsC.set s.i fun κ => (x.ref κ, x.cmp κ), s.rowsU.set s.i fun κ => (x.ref κ, x.unc κ),
      s.flags.set s.i x.flag, avg⟩ := by
    intro avg
    refine ⟨by simp [hi.i], by simp; omega, ?_, ?_, ?_⟩
    · simp only
      rw [hi.rowsU, hi.i]
      have := set_next (xs.map (fun (x : CohIn) κ => (x.ref κ, x.unc κ))) (fun (_ : Nat) => ((0 : ℂ), (0 : ℂ)))
        (fun κ => (x.ref κ, x.unc κ)) (n := c.nIter) (by simpa using hn')
      rw [List.length_map] at this
      rw [this]
      simp
    · simp only
      rw [hi.rowsC, hi.i]
      by_cases hg : c.given = true
      · simp [hg]
      · rw [if_neg hg, if_neg hg, if_neg hg]
        have := set_next (xs.map (fun (x : CohIn) κ => (x.ref κ, x.cmp κ))) (fun (_ : Nat) => ((0 : ℂ), (0 : ℂ)))
          (fun κ => (x.ref κ, x.cmp κ)) (n := c.nIter) (by simpa using hn')
        rw [List.length_map] at this
        rw [this]
        simp
    · simp only
      rw [hi.flags, hi.i]
      have := set_next (xs.map (fun (x : CohIn) => x.flag)) (0 : Int) x.flag (n := c.nIter) (by simpa using hn')
      rw [List.length_map] at this
      rw [this]
      simp
  by_cases hs : c.scheduled s.i = true
  · rw [if_pos hs] at h
    obtain ⟨r, h1, h⟩ := bind_ok_inv h
    injection h with h
    injection h with e1 e2
    refine ⟨e1 ▸ inv _, .inr ⟨hi.i ▸ hs, r, ?_, ?_, ?_⟩⟩
    · rw [← e1, ← hi.i]; exact h1
    · rw [← e1, ← hi.i]
    · rw [← e2, ← e1]
  · rw [if_neg hs] at h
    injection h with h
    injection h with e1 e2
    refine ⟨e1 ▸ inv _, .inl ⟨by rw [← hi.i]; simpa using hs, e2.symm, by rw [← e1]⟩⟩

theorem scheduled_ge {c : CohCfg} {i : Nat} (h : c.scheduled i = true) : c.startAfterNups + c.estEvery ≤ i := by
  unfold CohCfg.scheduled at h
  exact (of_decide_eq_true h).1

theorem scheduled_first {c : CohCfg} {i : Nat} (h : c.scheduled i = true) :
    c.scheduled (c.startAfterNups + c.estEvery) = true := by
  unfold CohCfg.scheduled at h ⊢
  have := of_decide_eq_true h
  refine decide_eq_true ⟨le_refl _, by omega, ?_⟩
  rw [Nat.sub_self, Nat.zero_mod]

/-- Scheduled updates before `n`. -/
theorem filter_scheduled_nil {c : CohCfg} {n : Nat} (h : n ≤ c.startAfterNups + c.estEvery) :
    (List.range n).filter c.scheduled = [] := by
  rw [List.filter_eq_nil_iff]
  intro a ha hs
  have := scheduled_ge hs
  have := List.mem_range.mp ha
  omega

theorem filter_scheduled_ne {c : CohCfg} {n i : Nat} (hs : c.scheduled i = true)
    (h : c.startAfterNups + c.estEvery < n) : (List.range n).filter c.scheduled ≠ [] := by
  intro e
  rw [List.filter_eq_nil_iff] at e
  exact e _ (List.mem_range.mpr h) (scheduled_first hs)

theorem productOf_append {c : CohCfg} {xs : List CohIn} (x : CohIn) {i : Nat} (hi : i < xs.length) :
    c.productOf (xs ++ [x]) i = c.productOf xs i := by
  unfold CohCfg.productOf CohCfg.corrected flagsBetween
  rw [List.getElem?_append_left hi, List.getElem?_append_left (by omega),
    List.take_append_of_le_length (by omega)]

theorem map_productOf_append {c : CohCfg} {xs : List CohIn} (x : CohIn) {n : Nat} (hn : n ≤ xs.length) :
    ((List.range n).filter c.scheduled).map (c.productOf (xs ++ [x])) =
      ((List.range n).filter c.scheduled).map (c.productOf xs) := by
  refine List.map_congr_left fun i hi => productOf_append x ?_
  have := List.mem_range.mp (List.mem_filter.mp hi).1
  omega

theorem averageOf_append {c : CohCfg} {xs : List CohIn} (x : CohIn) {i : Nat} (hi : i < xs.length) :
    c.averageOf (xs ++ [x]) i = c.averageOf xs i := by
  unfold CohCfg.averageOf
  rw [map_productOf_append x (by omega)]

/-- The product that the code computes. -/
theorem product_eq {c : CohCfg} {xs : List CohIn} {s : CohSt} {i : Nat} (hi : CohInv c xs s)
    (hg : c.given = true → c.closed = false) (hx : ∀ x ∈ xs, Sounding c.P x) (hld : c.ld ≤ i)
    (hl : i + 1 = xs.length) :
    c.product i s.rowsC s.rowsU s.flags = .ok ((c.productOf xs i).map some) := by
  have hrow : ∀ j, j < xs.length → ∃ x row, xs[j]? = some x ∧
      pyGet (if c.closed then s.rowsC else s.rowsU) (j : Int) = .ok row ∧
      cohRow c.P row = (c.cohOf x).map some := by
    intro j hj
    have hx' := hx _ (List.getElem_mem hj)
    cases hc : c.closed
    · refine ⟨xs[j], fun κ => (xs[j].ref κ, xs[j].unc κ), List.getElem?_eq_getElem hj, ?_, ?_⟩
      · refine pyGet_some ?_
        rw [if_neg (by simp), hi.rowsU, List.getElem?_append_left (by simpa using hj)]
        simp [List.getElem?_eq_getElem hj]
      · rw [cohRow_some fun κ hκ => ⟨(hx' κ hκ).1, (hx' κ hκ).2.1⟩]
        simp [CohCfg.cohOf, CohCfg.seen, hc]
    · have hg' : c.given = false := by
        cases h : c.given
        · rfl
        · rw [hg h] at hc; cases hc
      refine ⟨xs[j], fun κ => (xs[j].ref κ, xs[j].cmp κ), List.getElem?_eq_getElem hj, ?_, ?_⟩
      · refine pyGet_some ?_
        rw [if_pos rfl, hi.rowsC, hg', if_neg (by simp), List.getElem?_append_left (by simpa using hj)]
        simp [List.getElem?_eq_getElem hj]
      · rw [cohRow_some fun κ hκ => ⟨(hx' κ hκ).1, (hx' κ hκ).2.2⟩]
        simp [CohCfg.cohOf, CohCfg.seen, hc]
  obtain ⟨x1, r1, a1, b1, d1⟩ := hrow i (by omega)
  obtain ⟨x2, r2, a2, b2, d2⟩ := hrow (i - c.ld) (by omega)
  have e : ((i - c.ld : Nat) : Int) = (i : Int) - c.ld := by omega
  rw [e] at b2
  have ef : c.flagDiff i s.flags = c.corrected xs i := by
    unfold CohCfg.flagDiff CohCfg.corrected
    cases hc : c.closed
    · rw [if_neg (by simp), if_neg (by simp), ← mul_sub]
      congr 1
      have hsl : ∀ n : Nat, n ≤ xs.length → (pySlice s.flags 0 (n : Int)).sum = ((xs.take n).map (·.flag)).sum := by
        intro n hn
        congr 1
        unfold pySlice pySliceBound
        simp only [lt_self_iff_false, if_false, Int.toNat_zero, Nat.zero_min, List.drop_zero, Nat.sub_zero]
        rw [if_neg (by omega), Int.toNat_natCast, hi.flags, List.take_append_of_le_length, ← List.map_take]
        · congr 2
          simp
          omega
        · simp
          omega
      have e1 : ((i : Int) + 1) = ((i + 1 : Nat) : Int) := by push_cast; rfl
      have e2 : ((i : Int) - c.ld + 1) = ((i - c.ld + 1 : Nat) : Int) := by omega
      rw [e1, e2, hsl _ (by omega), hsl _ (by omega)]
      unfold flagsBetween
      have : xs.take (i + 1) = (xs.take (i + 1)).take (i - c.ld + 1) ++ (xs.take (i + 1)).drop (i - c.ld + 1) :=
        (List.take_append_drop _ _).symm
      conv_lhs => rw [this]
      rw [List.map_append, List.sum_append, List.take_take, Nat.min_eq_left (by omega), add_sub_cancel_left]
    · rfl
  unfold CohCfg.product
  rw [b1, b2, ef]
  simp only [bind, Except.bind]
  rw [d1, d2, resProdN_some, flagRotateN_some]
  unfold CohCfg.productOf
  rw [a1, a2]
  rfl

/-- All estimates of a run without zero spectra. -/
theorem cohRun_good {c : CohCfg} (hg : c.given = true → c.closed = false)
    (hst : c.ld ≤ c.startAfterNups + c.estEvery) (xs : List CohIn) : ∀ {s : CohSt} {os : List (Option (Option ℝ))},
    (∀ x ∈ xs, Sounding c.P x) → (CohSt.init c).run c xs = .ok (s, os) →
    CohInv c xs s ∧ os.length = xs.length ∧
    ((List.range xs.length).filter c.scheduled ≠ [] →
      s.avg = (cohRounds c.alpha (((List.range xs.length).filter c.scheduled).map (c.productOf xs))).map some) ∧
    ∀ i o, os[i]? = some o → o = if c.scheduled i then some (cohEstimate c ((c.averageOf xs i).map some)) else none := by
  induction xs using List.reverseRecOn with
  | nil =>
    intro s os _ h
    unfold CohSt.run at h
    injection h with h
    injection h with e1 e2
    subst e1; subst e2
    exact ⟨cohInv_init c, rfl, by simp, by simp⟩
  | append_singleton xs x ih =>
    intro s os hx h
    obtain ⟨s1, os1, o, h1, h2, rfl⟩ := cohRun_snoc h
    obtain ⟨i1, i2, i3, i4⟩ := ih (fun y hy => hx y (List.mem_append_left _ hy)) h1
    obtain ⟨j1, j2⟩ := cohStep_inv i1 h2
    have hold : ∀ i o', os1[i]? = some o' → o' = if c.scheduled i then
        some (cohEstimate c ((c.averageOf (xs ++ [x]) i).map some)) else none := by
      intro i o' ho
      have hl : i < xs.length := i2 ▸ (List.getElem?_eq_some_iff.mp ho).1
      rw [averageOf_append x hl]
      exact i4 i o' ho
    have hcase : ∀ P : Nat → Option (Option ℝ) → Prop, (∀ i o', os1[i]? = some o' → P i o') → P xs.length o →
        ∀ i o', (os1 ++ [o])[i]? = some o' → P i o' := by
      intro P p1 p2 i o' ho
      by_cases hlt : i < os1.length
      · rw [List.getElem?_append_left hlt] at ho
        exact p1 i o' ho
      · rw [List.getElem?_append_right (by omega)] at ho
        have : i = os1.length := by
          have := (List.getElem?_eq_some_iff.mp ho).1
          simp at this
          omega
        subst this
        simp at ho
        rw [← ho, i2]
        exact p2
    refine ⟨j1, by simp [i2], ?_⟩
    rcases j2 with ⟨k1, k2, k3⟩ | ⟨k1, r, k2, k3, k4⟩
    · have hf : (List.range (xs ++ [x]).length).filter c.scheduled = (List.range xs.length).filter c.scheduled := by
        rw [List.length_append, List.length_singleton, List.range_succ, List.filter_append]
        simp [k1]
      refine ⟨fun hne => ?_, hcase _ hold (by rw [k1, k2]; rfl)⟩
      rw [hf] at hne ⊢
      rw [k3, i3 hne, map_productOf_append x (le_refl _)]
    · have hr : r = (c.productOf (xs ++ [x]) xs.length).map some := by
        have := product_eq j1 hg hx (hst.trans (scheduled_ge k1)) (i := xs.length) (by simp)
        rw [this] at k2
        injection k2 with k2
        exact k2.symm
      have hf : (List.range (xs ++ [x]).length).filter c.scheduled =
          (List.range xs.length).filter c.scheduled ++ [xs.length] := by
        rw [List.length_append, List.length_singleton, List.range_succ, List.filter_append]
        simp [k1]
      have hav : s.avg = (cohRounds c.alpha
          (((List.range (xs ++ [x]).length).filter c.scheduled).map (c.productOf (xs ++ [x])))).map some := by
        rw [k3, hr, hf, List.map_append, List.map_singleton, map_productOf_append x (le_refl _)]
        by_cases hfst : xs.length = c.startAfterNups + c.estEvery
        · rw [beq_iff_eq.mpr hfst, cohAverageN_first, filter_scheduled_nil (le_of_eq hfst)]
          rfl
        · have hne := filter_scheduled_ne (n := xs.length) k1 (by have := scheduled_ge k1; omega)
          rw [beq_eq_false_iff_ne.mpr hfst, i3 hne, cohAverageN_some,
            cohRounds_snoc _ (by simpa using hne)]
      refine ⟨fun _ => hav, hcase _ hold ?_⟩
      rw [k1, if_pos rfl, k4, hav]
      unfold CohCfg.averageOf
      rw [List.length_append, List.length_singleton]

/-- If the first product is NaN in all bins, all averages are. -/
theorem cohRun_nan {c : CohCfg} (hst : ∀ (xs : List CohIn)
      (r : List (Option ℂ)) (s : CohSt),
      CohInv c xs s → xs.length = c.startAfterNups + c.estEvery + 1 → c.scheduled (c.startAfterNups + c.estEvery) = true →
      c.product (c.startAfterNups + c.estEvery) s.rowsC s.rowsU s.flags = .ok r →
      r = List.replicate (2 * (c.P - 1)) none) (xs : List CohIn) :
    ∀ {s : CohSt} {os : List (Option (Option ℝ))}, (CohSt.init c).run c xs = .ok (s, os) →
    CohInv c xs s ∧ os.length = xs.length ∧
    ((List.range xs.length).filter c.scheduled ≠ [] → s.avg = List.replicate (2 * (c.P - 1)) none) ∧
    ∀ i o, os[i]? = some o → c.scheduled i = true →
      o = some (cohEstimate c (List.replicate (2 * (c.P - 1)) none)) := by
  induction xs using List.reverseRecOn with
  | nil =>
    intro s os h
    unfold CohSt.run at h
    injection h with h
    injection h with e1 e2
    subst e1; subst e2
    exact ⟨cohInv_init c, rfl, by simp, by simp⟩
  | append_singleton xs x ih =>
    intro s os h
    obtain ⟨s1, os1, o, h1, h2, rfl⟩ := cohRun_snoc h
    obtain ⟨i1, i2, i3, i4⟩ := ih h1
    obtain ⟨j1, j2⟩ := cohStep_inv i1 h2
    have hcase : ∀ P : Nat → Option (Option ℝ) → Prop, (∀ i o', os1[i]? = some o' → P i o') → P xs.length o →
        ∀ i o', (os1 ++ [o])[i]? = some o' → P i o' := by
      intro P p1 p2 i o' ho
      by_cases hlt : i < os1.length
      · rw [List.getElem?_append_left hlt] at ho
        exact p1 i o' ho
      · rw [List.getElem?_append_right (by omega)] at ho
        have : i = os1.length := by
          have := (List.getElem?_eq_some_iff.mp ho).1
          simp at this
          omega
        subst this
        simp at ho
        rw [← ho, i2]
        exact p2
    refine ⟨j1, by simp [i2], ?_⟩
    rcases j2 with ⟨k1, k2, k3⟩ | ⟨k1, r, k2, k3, k4⟩
    · have hf : (List.range (xs ++ [x]).length).filter c.scheduled = (List.range xs.length).filter c.scheduled := by
        rw [List.length_append, List.length_singleton, List.range_succ, List.filter_append]
        simp [k1]
      refine ⟨fun hne => ?_, hcase _ i4 (by rw [k1]; intro h; cases h)⟩
      rw [hf] at hne
      rw [k3, i3 hne]
    · have hlen : r.length = 2 * (c.P - 1) := by
        unfold CohCfg.product at k2
        obtain ⟨p1, q1, k2⟩ := bind_ok_inv k2
        obtain ⟨p2, q2, k2⟩ := bind_ok_inv k2
        injection k2 with k2
        rw [← k2, flagRotateN_length, resProdN_length (cohRow_length _ _) (cohRow_length _ _)]
      have hav : s.avg = List.replicate (2 * (c.P - 1)) none := by
        rw [k3]
        by_cases hfst : xs.length = c.startAfterNups + c.estEvery
        · rw [beq_iff_eq.mpr hfst, cohAverageN_first]
          exact hst (xs ++ [x]) r s j1 (by simp [hfst]) (hfst ▸ k1) (hfst ▸ k2)
        · have hne := filter_scheduled_ne (n := xs.length) k1 (by have := scheduled_ge k1; omega)
          rw [beq_eq_false_iff_ne.mpr hfst, i3 hne, cohAverageN_none _ hlen]
      exact ⟨fun _ => hav, hcase _ i4 fun _ => by rw [k4, hav]⟩

/-- An element addressed from the end. -/
theorem pyGet_back {α : Type} {l : List α} {i : Int} {x : α} (h : pyGet l i = .ok x) (hi : i < 0) :
    l[(i + l.length).toNat]? = some x := by
  unfold pyGet at h
  simp only [if_pos hi] at h
  split at h
  · cases h
  · split at h
    · rename_i y hy
      injection h with h
      rw [hy, h]
    · cases h

theorem cohEstimate_none {c : CohCfg} (hP : 2 ≤ c.P) (hs : c.search = none) :
    cohEstimate c (List.replicate (2 * (c.P - 1)) none) = none := by
  unfold cohEstimate
  rw [hs]
  simp only
  rw [if_neg]
  intro h
  rw [List.all_eq_true] at h
  have hm : (none : Option ℂ) ∈ pySlice (List.replicate (2 * (c.P - 1)) (none : Option ℂ)) (-(c.P : Int))
      (List.replicate (2 * (c.P - 1)) (none : Option ℂ)).length := by
    unfold pySlice pySliceBound
    simp only [List.length_replicate]
    have e1 : -(c.P : Int) < 0 := by omega
    have e2 : ¬ ((2 * (c.P - 1) : Nat) : Int) < 0 := by omega
    rw [if_pos e1, if_neg e2, List.drop_replicate, List.take_replicate]
    refine List.mem_replicate.mpr ⟨?_, rfl⟩
    rw [Int.toNat_natCast]
    omega
  exact absurd (h _ hm) (by simp)

theorem cohRun_ok {c : CohCfg} (hld : c.ld ≤ c.nIter) (xs : List CohIn) : ∀ (s : CohSt),
    s.rowsC.length = c.nIter → s.rowsU.length = c.nIter → s.i + xs.length ≤ c.nIter → ∃ r, s.run c xs = .ok r := by
  induction xs with
  | nil => intro s _ _ _; exact ⟨_, rfl⟩
  | cons x r ih =>
    intro s h1 h2 h3
    rw [List.length_cons] at h3
    have hstep : ∃ s1 o, s.step c x = .ok (s1, o) ∧ s1.rowsC.length = c.nIter ∧ s1.rowsU.length = c.nIter ∧
        s1.i = s.i + 1 := by
      unfold CohSt.step
      rw [if_neg (by omega)]
      simp only
      have l1 : (if c.given then s.rowsC else s.rowsC.set s.i fun κ => (x.ref κ, x.cmp κ)).length = c.nIter := by
        split <;> simp [h1]
      have l2 : (s.rowsU.set s.i fun κ => (x.ref κ, x.unc κ)).length = c.nIter := by simp [h2]
      generalize (if c.given then s.rowsC else s.rowsC.set s.i fun κ => (x.ref κ, x.cmp κ)) = rc at l1
      generalize (s.rowsU.set s.i fun κ => (x.ref κ, x.unc κ)) = ru at l2
      by_cases hs : c.scheduled s.i = true
      · rw [if_pos hs]
        have hp : ∃ p, c.product s.i rc ru (s.flags.set s.i x.flag) = .ok p := by
          unfold CohCfg.product
          have hl : (if c.closed then rc else ru).length = c.nIter := by split <;> assumption
          obtain ⟨a, ha⟩ := pyGet_ok (l := if c.closed then rc else ru) (i := (s.i : Int)) (by omega) (by omega)
          obtain ⟨b, hb⟩ := pyGet_ok (l := if c.closed then rc else ru) (i := (s.i : Int) - c.ld) (by omega)
            (by omega)
          rw [ha, hb]
          exact ⟨_, rfl⟩
        obtain ⟨p, hp⟩ := hp
        rw [hp]
        exact ⟨_, _, rfl, l1, l2, rfl⟩
      · rw [if_neg hs]
        exact ⟨_, _, rfl, l1, l2, rfl⟩
    obtain ⟨s1, o, e1, e2, e3, e4⟩ := hstep
    obtain ⟨⟨s2, os⟩, e5⟩ := ih s1 e2 e3 (by omega)
    refine ⟨(s2, o :: os), ?_⟩
    unfold CohSt.run
    rw [e1]
    simp only [bind, Except.bind]
    rw [e5]

end Danse
