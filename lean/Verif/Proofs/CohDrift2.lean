import Verif.Proofs.CohDrift

/-!
# Silent bins and the coherence-drift estimates
-/

namespace Danse

theorem pyGet_nat_inv {α : Type} {L : List α} {j : Nat} {v : α} (h : pyGet L (j : Int) = .ok v) :
    L[j]? = some v := by
  unfold pyGet at h
  have hn : ¬ ((j : Int) < 0) := by omega
  simp only [if_neg hn, Int.toNat_natCast] at h
  rcases hh : L[j]? with _ | w
  · rw [hh] at h; cases h
  · rw [hh] at h; injection h with h; rw [h]

theorem resProdN_silent {P κ : Nat} {a b : List (Option ℂ)} (ha : a.length = P) (hb : b.length = P)
    (h1 : 1 ≤ κ) (hκ : κ < P) (hn : a[κ]? = some none ∨ b[κ]? = some none) :
    (resProdN a b)[2 * (P - 1) - κ]? = some none := by
  unfold resProdN
  simp only
  set r := List.zipWith (fun (a b : Option ℂ) => a.bind fun a => b.map fun b => a * star b) a b with hr
  have hrl : r.length = P := by rw [hr]; simp [ha, hb]
  have hrκ : r[κ]? = some none := by
    rw [hr, List.getElem?_zipWith]
    have hak : a[κ]? = some a[κ] := List.getElem?_eq_getElem (by omega)
    have hbk : b[κ]? = some b[κ] := List.getElem?_eq_getElem (by omega)
    rcases hn with h | h
    · rw [h, hbk]; rfl
    · rw [h, hak]
      simp
  rw [List.getElem?_append_right (by simp [hrl]; omega)]
  rw [List.length_dropLast, hrl, List.getElem?_dropLast, if_pos (by simp [hrl]; omega),
    List.getElem?_reverse (by simp [hrl]; omega), List.length_map, hrl,
    show P - 1 - (2 * (P - 1) - κ - (P - 1)) = κ by omega, List.getElem?_map, hrκ]
  rfl

theorem flagRotateN_silent {d : ℝ} {r : List (Option ℂ)} {i : Nat} (h : r[i]? = some none) :
    (flagRotateN d r)[i]? = some none := by
  unfold flagRotateN
  rw [List.getElem?_map, List.getElem?_zipIdx, h]
  rfl

theorem cohRow_silent {P κ : Nat} {row : Nat → ℂ × ℂ} (hκ : κ < P) (h : (row κ).1 = 0 ∨ (row κ).2 = 0) :
    (cohRow P row)[κ]? = some none := by
  unfold cohRow
  rw [List.getElem?_map, List.getElem?_range hκ]
  simp [cohCell, h]

theorem cohAverageN_silent {alpha : ℝ} {first : Bool} {avg r : List (Option ℂ)} {n i : Nat}
    (hl : avg.length = n) (hr : r.length = n) (hi : i < n)
    (h : r[i]? = some none ∨ (first = false ∧ avg[i]? = some none)) :
    (cohAverageN alpha first avg r)[i]? = some none := by
  unfold cohAverageN
  have e1 : avg[i]? = some avg[i] := List.getElem?_eq_getElem (by omega)
  have e2 : r[i]? = some r[i] := List.getElem?_eq_getElem (by omega)
  rcases h with h | ⟨hf, h⟩
  · split_ifs
    · exact h
    · rw [List.getElem?_zipWith, h, e1]; simp
  · rw [if_neg (by simp [hf]), List.getElem?_zipWith, h, e2]; rfl

theorem cohAverageN_length {alpha : ℝ} {first : Bool} {avg r : List (Option ℂ)} {n : Nat}
    (hl : avg.length = n) (hr : r.length = n) : (cohAverageN alpha first avg r).length = n := by
  unfold cohAverageN
  split_ifs
  · exact hr
  · simp [hl, hr]

theorem cohEstimate_silent {c : CohCfg} {avg : List (Option ℂ)} {κ : Nat} (hs : c.search = none)
    (hl : avg.length = 2 * (c.P - 1)) (h1 : 1 ≤ κ) (hκ : κ < c.P) (h : avg[2 * (c.P - 1) - κ]? = some none) :
    cohEstimate c avg = none := by
  unfold cohEstimate
  rw [hs]
  simp only
  rw [if_neg]
  intro ha
  rw [List.all_eq_true] at ha
  have hm : (none : Option ℂ) ∈ pySlice avg (-(c.P : Int)) avg.length := by
    unfold pySlice pySliceBound
    simp only
    rw [if_neg (by omega), if_pos (by omega), hl]
    rw [List.mem_iff_getElem?]
    refine ⟨2 * (c.P - 1) - κ - (-(c.P : Int) + (2 * (c.P - 1) : ℕ)).toNat, ?_⟩
    rw [List.getElem?_take, if_pos (by omega), List.getElem?_drop]
    rw [show (-(c.P : Int) + (2 * (c.P - 1) : ℕ)).toNat +
      (2 * (c.P - 1) - κ - (-(c.P : Int) + (2 * (c.P - 1) : ℕ)).toNat) = 2 * (c.P - 1) - κ by omega]
    exact h
  have := ha _ hm
  simp at this

theorem product_silent {c : CohCfg} {xs : List CohIn} {s : CohSt} {κ i : Nat} {r : List (Option ℂ)}
    (hi : CohInv c xs s) (h1 : 1 ≤ κ) (hκ : κ < c.P) (hs : SilentAt c xs κ i)
    (h : c.product i s.rowsC s.rowsU s.flags = .ok r) : r[2 * (c.P - 1) - κ]? = some none := by
  obtain ⟨-, j, x, hj, hx, hz⟩ := hs
  have hjl : j < xs.length := (List.getElem?_eq_some_iff.mp hx).1
  -- the row of update `j` has a silent bin
  have hrow : ∀ row, pyGet (if c.closed then s.rowsC else s.rowsU) (j : Int) = .ok row →
      (cohRow c.P row)[κ]? = some none := by
    intro row hrow
    have hget : (if c.closed then s.rowsC else s.rowsU)[j]? = some row := by
      exact pyGet_nat_inv hrow
    refine cohRow_silent hκ ?_
    unfold CohCfg.seen at hz
    cases hc : c.closed
    · rw [hc, if_neg (by simp), hi.rowsU, List.getElem?_append_left (by simpa using hjl), List.getElem?_map, hx] at hget
      injection hget with hget
      rw [← hget]
      simpa [hc] using hz
    · rw [hc, if_pos rfl, hi.rowsC] at hget
      by_cases hg : c.given = true
      · rw [if_pos hg] at hget
        have : row = fun _ => (0, 0) := by
          rw [List.getElem?_replicate] at hget
          split_ifs at hget
          injection hget with hget
          exact hget.symm
        rw [this]; exact Or.inl rfl
      · rw [if_neg hg, List.getElem?_append_left (by simpa using hjl), List.getElem?_map, hx] at hget
        injection hget with hget
        rw [← hget]
        simpa [hc] using hz
  unfold CohCfg.product at h
  obtain ⟨p1, q1, h⟩ := bind_ok_inv h
  obtain ⟨p2, q2, h⟩ := bind_ok_inv h
  injection h with h
  rw [← h]
  refine flagRotateN_silent (resProdN_silent (cohRow_length _ _) (cohRow_length _ _) h1 hκ ?_)
  rcases hj with rfl | hj
  · exact Or.inl (hrow p1 q1)
  · refine Or.inr (hrow p2 ?_)
    rw [show (j : Int) = (i : Int) - c.ld by omega]
    exact q2

theorem product_length {c : CohCfg} {i : Nat} {rc ru : List (Nat → ℂ × ℂ)} {fl : List Int} {r : List (Option ℂ)}
    (h : c.product i rc ru fl = .ok r) : r.length = 2 * (c.P - 1) := by
  unfold CohCfg.product at h
  obtain ⟨p1, q1, h⟩ := bind_ok_inv h
  obtain ⟨p2, q2, h⟩ := bind_ok_inv h
  injection h with h
  rw [← h, flagRotateN_length, resProdN_length (cohRow_length _ _) (cohRow_length _ _)]

theorem SilentAt.mono {c : CohCfg} {xs : List CohIn} {x : CohIn} {κ i : Nat} (h : SilentAt c xs κ i) :
    SilentAt c (xs ++ [x]) κ i := by
  obtain ⟨h1, j, y, hj, hy, hz⟩ := h
  refine ⟨h1, j, y, hj, ?_, hz⟩
  rw [List.getElem?_append_left (List.getElem?_eq_some_iff.mp hy).1]
  exact hy

theorem SilentAt.of_append {c : CohCfg} {xs : List CohIn} {x : CohIn} {κ i : Nat} (h : SilentAt c (xs ++ [x]) κ i)
    (hi : i < xs.length) : SilentAt c xs κ i := by
  obtain ⟨h1, j, y, hj, hy, hz⟩ := h
  refine ⟨h1, j, y, hj, ?_, hz⟩
  rw [List.getElem?_append_left (by omega)] at hy
  exact hy

theorem cohRun_silent {c : CohCfg} {κ : Nat} (h1 : 1 ≤ κ) (hκ : κ < c.P) (hs : c.search = none) (xs : List CohIn) :
    ∀ {s : CohSt} {os : List (Option (Option ℝ))}, (CohSt.init c).run c xs = .ok (s, os) →
    CohInv c xs s ∧ os.length = xs.length ∧ s.avg.length = 2 * (c.P - 1) ∧
    ((∃ i < xs.length, SilentAt c xs κ i) → s.avg[2 * (c.P - 1) - κ]? = some none) ∧
    ∀ i o, os[i]? = some o → c.scheduled i = true → (∃ i' ≤ i, SilentAt c xs κ i') → o = some none := by
  induction xs using List.reverseRecOn with
  | nil =>
    intro s os h
    unfold CohSt.run at h
    injection h with h
    injection h with e1 e2
    subst e1; subst e2
    exact ⟨cohInv_init c, rfl, by simp [CohSt.init], by simp, by simp⟩
  | append_singleton xs x ih =>
    intro s os h
    obtain ⟨s1, os1, o, hr1, hr2, rfl⟩ := cohRun_snoc h
    obtain ⟨i1, i2, il, i3, i4⟩ := ih hr1
    obtain ⟨j1, j2⟩ := cohStep_inv i1 hr2
    have hold : ∀ i o', os1[i]? = some o' → c.scheduled i = true →
        (∃ i' ≤ i, SilentAt c (xs ++ [x]) κ i') → o' = some none := by
      rintro i o' ho hsi ⟨i', hi', hsil⟩
      have hl : i < xs.length := i2 ▸ (List.getElem?_eq_some_iff.mp ho).1
      exact i4 i o' ho hsi ⟨i', hi', hsil.of_append (by omega)⟩
    have hnew : c.scheduled xs.length = true → (∃ i' ≤ xs.length, SilentAt c (xs ++ [x]) κ i') →
        s.avg.length = 2 * (c.P - 1) → s.avg[2 * (c.P - 1) - κ]? = some none → cohEstimate c s.avg = none :=
      fun _ _ hl ha => cohEstimate_silent hs hl h1 hκ ha
    have hcase : ∀ P : Nat → Option (Option ℝ) → Prop, (∀ i o', os1[i]? = some o' → P i o') → P xs.length o →
        ∀ i o', (os1 ++ [o])[i]? = some o' → P i o' := by
      intro P p1 p2 i o' ho
      by_cases hlt : i < os1.length
      · rw [List.getElem?_append_left hlt] at ho
        exact p1 i o' ho
      · rw [List.getElem?_append_right (by omega)] at ho
        have : i = os1.length := by
          have := (List.getElem?_eq_some_iff.mp ho).1
          simp at this
          omega
        subst this
        simp at ho
        rw [← ho, i2]
        exact p2
    refine ⟨j1, by simp [i2], ?_⟩
    rcases j2 with ⟨k1, k2, k3⟩ | ⟨k1, r, k2, k3, k4⟩
    · refine ⟨by rw [k3, il], fun ⟨i, hi, hsil⟩ => ?_, hcase _ hold fun hsch => by rw [k1] at hsch; cases hsch⟩
      rw [k3]
      have hne : i ≠ xs.length := by
        rintro rfl
        rw [hsil.1] at k1; cases k1
      rw [List.length_append, List.length_singleton] at hi
      exact i3 ⟨i, by omega, hsil.of_append (by omega)⟩
    · have hrl := product_length k2
      have hlen : s.avg.length = 2 * (c.P - 1) := by rw [k3]; exact cohAverageN_length il hrl
      have havg : (∃ i ≤ xs.length, SilentAt c (xs ++ [x]) κ i) → s.avg[2 * (c.P - 1) - κ]? = some none := by
        rintro ⟨i, hi, hsil⟩
        rw [k3]
        refine cohAverageN_silent il hrl (by omega) ?_
        by_cases he : i = xs.length
        · subst he
          exact Or.inl (product_silent j1 h1 hκ hsil k2)
        · refine Or.inr ⟨?_, i3 ⟨i, by omega, hsil.of_append (by omega)⟩⟩
          have := scheduled_ge hsil.1
          rw [beq_eq_false_iff_ne]
          omega
      refine ⟨hlen, fun ⟨i, hi, hsil⟩ => ?_, hcase _ hold fun hsch hex => ?_⟩
      · rw [List.length_append, List.length_singleton] at hi
        exact havg ⟨i, by omega, hsil⟩
      · rw [k4, hnew hsch hex hlen (havg hex)]

end Danse
