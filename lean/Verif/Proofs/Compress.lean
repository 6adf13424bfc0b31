import Verif.Proofs.Dft
import Verif.Spec.Signals

/-! # Lemmas about compression and synthesis -/

set_option linter.unusedSectionVars false

namespace Danse
section
variable {K : Type} [Field K] [StarRing K] {ζ : K} {N : Nat}

theorem IsReal.at0 {x : List K} (h : IsReal x) (i : Nat) : star (Danse.at0 x i) = Danse.at0 x i := by
  by_cases hi : i < x.length
  · unfold Danse.at0; rw [getD_lt hi]; exact h _ (List.getElem_mem _)
  · rw [at0_of_ge (by omega)]; exact star_zero _

theorem dft_div (c : K) (x : List K) : (dft ζ N x).map (· / c) = dft ζ N (x.map (· / c)) := by
  unfold dft
  rw [List.map_map]
  apply List.map_congr_left
  intro k _
  simp only [Function.comp]
  rw [div_eq_mul_inv, Finset.sum_mul]
  apply Finset.sum_congr rfl
  intro t _
  rw [at0_map (zero_div c), div_eq_mul_inv]; ring

theorem selector_zero (M nf : Nat) : selector (K := K) (M + 1) 0 nf =
    List.replicate nf 1 :: List.replicate M (List.replicate nf 0) := by
  unfold selector
  rw [List.range_succ_eq_map, List.map_cons, List.map_map]
  simp only [if_true, List.cons.injEq, true_and]
  rw [List.eq_replicate_iff]
  refine ⟨by simp, ?_⟩
  intro b hb
  obtain ⟨x, _, rfl⟩ := List.mem_map.mp hb
  simp

theorem selector_succ (M r nf : Nat) : selector (K := K) (M + 1) (r + 1) nf =
    List.replicate nf 0 :: selector M r nf := by
  unfold selector
  rw [List.range_succ_eq_map, List.map_cons, List.map_map]
  congr 1
  apply List.map_congr_left
  intro x _
  simp

theorem at0_replicate {m i : Nat} {a : K} (h : i < m) : at0 (List.replicate m a) i = a := by
  unfold at0
  rw [getD_lt (by simpa using h)]; simp

theorem zero_channels (nf k : Nat) (M : Nat) (Y : List (List K)) :
    (((List.replicate M (List.replicate nf (0 : K))).zip Y).map
      fun p => star (at0 p.1 k) * at0 p.2 k).sum = 0 := by
  apply List.sum_eq_zero
  intro x hx
  obtain ⟨p, hp, rfl⟩ := List.mem_map.mp hx
  have := (List.of_mem_zip hp).1
  rw [List.eq_of_mem_replicate this]
  have : at0 (List.replicate nf (0 : K)) k = 0 := by
    by_cases h : k < nf
    · exact at0_replicate h
    · exact at0_of_ge (by simpa using h)
  rw [this, star_zero, zero_mul]

theorem selector_sum {nf k : Nat} (hk : k < nf) : ∀ (Y : List (List K)) (ref : Nat),
    (((selector Y.length ref nf).zip Y).map fun p => star (at0 p.1 k) * at0 p.2 k).sum =
      at0 (Y.getD ref []) k := by
  intro Y
  induction Y with
  | nil => intro ref; simp [selector, at0]
  | cons y Y ih =>
    intro ref
    rw [List.length_cons]
    cases ref with
    | zero =>
      rw [selector_zero, List.zip_cons_cons, List.map_cons, List.sum_cons, zero_channels,
        at0_replicate hk]
      simp
    | succ r =>
      rw [selector_succ, List.zip_cons_cons, List.map_cons, List.sum_cons, ih,
        at0_replicate hk]
      simp

theorem combine_selector {nf : Nat} {Y : List (List K)} {ref : Nat}
    (hl : (Y.getD ref []).length = nf) :
    combine nf (selector Y.length ref nf) Y = Y.getD ref [] := by
  unfold combine
  apply at0_ext (by rw [List.length_map, List.length_range, hl])
  intro k hk
  have hk' : k < nf := by simpa using hk
  rw [at0_range_map hk', selector_sum hk']

theorem analysis_length {c : K} {h y : List K} (hN : 0 < N) :
    (analysis ζ N c h y).length = N / 2 + 1 := by
  unfold analysis
  rw [List.length_map, List.length_take, dft_length]
  rcases Nat.eq_zero_or_pos (N / 2) with h0 | h0 <;> omega

theorem getD_map_lt {β : Type} {g : List K → β} {Y : List (List K)} {ref : Nat} (h : ref < Y.length)
    {d : β} : (Y.map g).getD ref d = g (Y.getD ref []) := by
  rw [getD_lt (by simpa using h), getD_lt h, List.getElem_map]

/-- Analysis, selection of a channel and synthesis give back the windowed frame of that
channel. -/
theorem identity_frame [CharZero K] (r : DftRoot ζ N) (he : 2 ∣ N) {c : K} (hc : c ≠ 0)
    (hcr : star c = c) {h : List K} (hh : IsReal h) (hhl : h.length = N) {Y : List (List K)}
    {ref : Nat} (hr : ref < Y.length) (hyr : IsReal (Y.getD ref []))
    (hyl : (Y.getD ref []).length = N) :
    ∃ z, backToTD ζ N (combine (N / 2 + 1) (selector Y.length ref (N / 2 + 1))
        (Y.map (analysis ζ N c h))) = .ok z ∧
      z.map (c * ·) = List.zipWith (· * ·) (Y.getD ref []) h := by
  have hn := r.pos
  have h1 : (Y.map (analysis ζ N c h)).getD ref [] = analysis ζ N c h (Y.getD ref []) :=
    getD_map_lt hr
  have h2 : combine (N / 2 + 1) (selector Y.length ref (N / 2 + 1)) (Y.map (analysis ζ N c h)) =
      analysis ζ N c h (Y.getD ref []) := by
    have := combine_selector (nf := N / 2 + 1) (Y := Y.map (analysis ζ N c h)) (ref := ref)
      (by rw [h1, analysis_length hn])
    rw [List.length_map, h1] at this
    exact this
  have h3 : analysis ζ N c h (Y.getD ref []) =
      (dft ζ N ((List.zipWith (· * ·) (Y.getD ref []) h).map (· / c))).take (N / 2 + 1) := by
    unfold analysis
    rw [← dft_div, List.map_take]
  rw [h2, h3]
  refine ⟨_, backToTD_dft r he (by rw [List.length_map, List.length_zipWith, hyl, hhl, Nat.min_self]) ?_, ?_⟩
  · intro t ht
    rw [at0_map (zero_div c), at0_zipWith (by omega) (by omega), star_div₀, star_mul',
      hcr, hyr.at0, hh.at0]
  · rw [List.map_map]
    conv_rhs => rw [← List.map_id (List.zipWith (· * ·) (Y.getD ref []) h)]
    apply List.map_congr_left
    intro a _
    simp only [Function.comp, id]
    rw [mul_div_cancel₀ _ hc]

/-! ## Overlap-add -/

theorem at0_zipIdx_map {g : K × Nat → K} {v : List K} {j : Nat} (h : j < v.length) :
    at0 (v.zipIdx.map g) j = g (at0 v j, j) := by
  unfold at0
  rw [getD_lt (by simpa using h), getD_lt h, List.getElem_map, List.getElem_zipIdx]
  simp

theorem normVal_half {Ns : Nat} (hNs : 0 < Ns) {h : List K} (hl : h.length = 2 * Ns) :
    ∃ nv, normVal (2 * Ns) Ns h = .ok nv ∧
      ∀ j < Ns, at0 nv (Ns + j) = at0 h (Ns + j) ^ 2 + at0 h j ^ 2 := by
  unfold normVal
  rw [Nat.mul_div_cancel _ hNs]
  have h0 : min (0 * Ns + 2 * Ns) (2 * Ns + Ns) - 0 * Ns = h.length := by omega
  have h1 : min (1 * Ns + 2 * Ns) (2 * Ns + Ns) - 1 * Ns = h.length := by omega
  simp only [show List.range 2 = [0, 1] from rfl, List.foldlM_cons, List.foldlM_nil]
  simp only [h0, h1, ne_eq, not_true_eq_false, if_false, bind, Except.bind, pure, Except.pure]
  refine ⟨_, rfl, ?_⟩
  intro j hj
  rw [at0_zipIdx_map (by simp; omega)]
  rw [at0_zipIdx_map (by simp; omega), at0_replicate (by omega)]
  simp only
  rw [if_pos (by omega), if_pos (by omega)]
  simp

theorem normVal_error {N Ns : Nat} (hNs : 0 < Ns) (h3 : 3 ≤ N / Ns) {h : List K} (hl : h.length = N) :
    normVal N Ns h = .error .valueError := by
  unfold normVal
  obtain ⟨m, hm⟩ : ∃ m, N / Ns = 3 + m := ⟨N / Ns - 3, by omega⟩
  have hN : 3 * Ns ≤ N := by
    rw [← Nat.le_div_iff_mul_le hNs]; exact h3
  rw [hm, List.range_add, List.foldlM_append]
  have h0 : min (0 * Ns + N) (N + Ns) - 0 * Ns = h.length := by omega
  have h1 : min (1 * Ns + N) (N + Ns) - 1 * Ns = h.length := by omega
  have h2 : min (2 * Ns + N) (N + Ns) - 2 * Ns ≠ h.length := by omega
  simp only [show List.range 3 = [0, 1, 2] from rfl, List.foldlM_cons, List.foldlM_nil]
  simp only [h0, h1, h2, ne_eq, not_true_eq_false, not_false_eq_true, if_false, if_true, bind,
    Except.bind, pure, Except.pure]

/-! ## Convolution -/

theorem zipWith_sum_eq {s a : List K} (h : s.length = a.length) :
    (List.zipWith (· * ·) s a).sum = ∑ i ∈ Finset.range a.length, at0 s i * at0 a i := by
  induction a generalizing s with
  | nil => cases s <;> simp_all
  | cons x a ih =>
    cases s with
    | nil => simp at h
    | cons y s =>
      simp only [List.length_cons, Nat.add_right_cancel_iff] at h
      rw [List.zipWith_cons_cons, List.sum_cons, ih h, List.length_cons, Finset.sum_range_succ',
        add_comm]
      congr 1

theorem at0_pad {m : Nat} {b : List K} {i : Nat} :
    at0 (List.replicate m 0 ++ b ++ List.replicate m 0) (m + i) = at0 b i := by
  rw [List.append_assoc, at0_append, List.length_replicate, if_neg (by omega), at0_append]
  rw [show m + i - m = i by omega]
  split
  · rfl
  · rw [at0_of_ge (by omega : b.length ≤ i)]
    by_cases h : i - b.length < m
    · exact at0_replicate h
    · exact at0_of_ge (by simpa using h)

theorem at0_pad_low {m : Nat} {b : List K} {i : Nat} (h : i < m) :
    at0 (List.replicate m 0 ++ b ++ List.replicate m 0) i = 0 := by
  rw [List.append_assoc, at0_append, List.length_replicate, if_pos h, at0_replicate h]

theorem linConv_eq (a b : List K) (m : Nat) : linConv a b m =
    ∑ i ∈ Finset.range a.length, at0 a i * (if i ≤ m then at0 b (m - i) else 0) := by
  unfold linConv
  rcases Nat.le_total (m + 1) a.length with h | h
  · obtain ⟨d, hd⟩ := Nat.exists_eq_add_of_le h
    rw [hd, Finset.sum_range_add (n := m + 1)]
    rw [Finset.sum_eq_zero (s := Finset.range d), add_zero]
    · apply Finset.sum_congr rfl
      intro i hi
      have := Finset.mem_range.mp hi
      rw [if_pos (by omega)]
    · intro i _
      rw [if_neg (by omega), mul_zero]
  · obtain ⟨d, hd⟩ := Nat.exists_eq_add_of_le h
    rw [hd, Finset.sum_range_add]
    rw [Finset.sum_eq_zero (s := Finset.range d), add_zero]
    · apply Finset.sum_congr rfl
      intro i hi
      have := Finset.mem_range.mp hi
      rw [if_pos (by omega)]
    · intro i _
      rw [at0_of_ge (by omega), zero_mul]

theorem extractConv_eq {a b : List K} : ∀ (ids : List Nat),
    (∀ m ∈ ids, m < a.length + b.length) →
    extractConv (ids.map fun (m : Nat) => (m : Int)) a b = .ok (ids.map (linConv a b)) := by
  intro ids hids
  unfold extractConv
  have key : ∀ m ∈ ids, (if (pySlice (List.replicate a.length 0 ++ b ++ List.replicate a.length 0)
        ((m : Int) + 1) ((m : Int) + 1 + a.length)).length ≠ a.length then .error .valueError
      else .ok (List.zipWith (· * ·) (pySlice
        (List.replicate a.length 0 ++ b ++ List.replicate a.length 0)
        ((m : Int) + 1) ((m : Int) + 1 + a.length)) a.reverse).sum : Except PyErr K) =
      .ok (linConv a b m) := by
    intro m hm
    have hlt := hids m hm
    set Y := List.replicate a.length 0 ++ b ++ List.replicate a.length 0 with hY
    have hYl : Y.length = 2 * a.length + b.length := by rw [hY]; simp; omega
    have hs : pySlice Y ((m : Int) + 1) ((m : Int) + 1 + a.length) = (Y.drop (m + 1)).take a.length := by
      unfold pySlice pySliceBound
      rw [if_neg (by omega), if_neg (by omega)]
      have e1 : min ((m : Int) + 1).toNat Y.length = m + 1 := by omega
      have e2 : min ((m : Int) + 1 + a.length).toNat Y.length = m + 1 + a.length := by omega
      simp only [e1, e2]
      congr 1; omega
    have hsl : ((Y.drop (m + 1)).take a.length).length = a.length := by
      rw [List.length_take, List.length_drop]; omega
    rw [hs, if_neg (by simpa using hsl)]
    congr 1
    rw [zipWith_sum_eq (by rw [hsl, List.length_reverse]), List.length_reverse,
      ← Finset.sum_range_reflect, linConv_eq]
    apply Finset.sum_congr rfl
    intro i hi
    have hi' := Finset.mem_range.mp hi
    rw [at0_take (by omega), at0_drop, at0_reverse (by omega), mul_comm]
    congr 1
    · congr 1; omega
    · by_cases hc : i ≤ m
      · rw [if_pos hc, show m + 1 + (a.length - 1 - i) = a.length + (m - i) by omega, hY, at0_pad]
      · rw [if_neg hc, hY, at0_pad_low (by omega)]
  clear hids
  induction ids with
  | nil => rfl
  | cons m ids ih =>
    rw [List.map_cons, List.mapM_cons]
    have h1 := key m (by simp)
    have h2 := ih (fun x hx => key x (by simp [hx]))
    simp only [h1, bind, Except.bind]
    rw [h2]
    rfl

end
end Danse
