import Verif.Proofs.Compress

/-! # WOLA filtering is circular convolution with the filter's impulse response -/

set_option linter.unusedSectionVars false

namespace Danse
section
variable {K : Type} [Field K] [StarRing K] {ζ : K} {N : Nat}

theorem rePart_add (a b : K) : rePart (a + b) = rePart a + rePart b := by
  unfold rePart; rw [star_add]; ring

theorem list_sum_map_hom {β : Type} {g : K → K} (h0 : g 0 = 0) (ha : ∀ a b, g (a + b) = g a + g b)
    (l : List β) (f : β → K) : g (l.map f).sum = (l.map fun x => g (f x)).sum := by
  induction l with
  | nil => simpa using h0
  | cons x l ih => rw [List.map_cons, List.sum_cons, ha, ih, List.map_cons, List.sum_cons]

theorem rePart_mul_real (a : K) {b : K} (h : star b = b) : rePart (a * b) = rePart a * b := by
  unfold rePart; rw [star_mul', h]; ring

/-- Convolution theorem. -/
theorem idft_mul_dft (r : DftRoot ζ N) {A X x : List K}
    (hX : ∀ k < N, at0 X k = at0 A k * at0 (dft ζ N x) k) {t : Nat} (ht : t < N) :
    at0 (idft ζ N X) t =
      ∑ u ∈ Finset.range N, at0 (idft ζ N A) ((t + N - u) % N) * at0 x u := by
  have hz := r.ne
  have e1 : ∀ u ∈ Finset.range N, at0 (idft ζ N A) ((t + N - u) % N) * at0 x u =
      (∑ k ∈ Finset.range N, at0 A k * (at0 x u * (ζ⁻¹) ^ (k * u)) * ζ ^ (k * t)) / N := by
    intro u hu
    have hu' := Finset.mem_range.mp hu
    unfold idft
    rw [at0_range_map (Nat.mod_lt _ r.pos), div_mul_eq_mul_div, Finset.sum_mul]
    congr 1
    apply Finset.sum_congr rfl
    intro k _
    have : ζ ^ (k * ((t + N - u) % N)) = (ζ⁻¹) ^ (k * u) * ζ ^ (k * t) := by
      rw [Nat.mul_comm, pow_mod_n r, inv_pow]
      have h2 : ζ ^ ((t + N - u) * k) * ζ ^ (k * u) = ζ ^ (k * t) := by
        rw [← pow_add, show (t + N - u) * k + k * u = k * t + N * k by
          rw [Nat.mul_comm k u, ← Nat.add_mul, show t + N - u + u = t + N by omega]; ring,
          pow_add, pow_mul ζ N k, r.prim.pow_eq_one, one_pow, mul_one]
      rw [← h2, mul_comm (ζ ^ ((t + N - u) * k)), inv_mul_cancel_left₀ (pow_ne_zero _ hz)]
    rw [this]; ring
  rw [Finset.sum_congr rfl e1]
  unfold idft
  rw [at0_range_map ht]
  rw [show (∑ u ∈ Finset.range N, (∑ k ∈ Finset.range N,
      at0 A k * (at0 x u * (ζ⁻¹) ^ (k * u)) * ζ ^ (k * t)) / (N : K)) =
      (∑ u ∈ Finset.range N, ∑ k ∈ Finset.range N,
      at0 A k * (at0 x u * (ζ⁻¹) ^ (k * u)) * ζ ^ (k * t)) / (N : K) by
    simp only [div_eq_mul_inv]; rw [← Finset.sum_mul]]
  congr 1
  rw [Finset.sum_comm]
  apply Finset.sum_congr rfl
  intro k hk
  rw [hX k (Finset.mem_range.mp hk)]
  unfold dft
  rw [at0_range_map (Finset.mem_range.mp hk), Finset.mul_sum, Finset.sum_mul]

theorem at0_combine {nf : Nat} {w Y : List (List K)} {k : Nat} (hk : k < nf) :
    at0 (combine nf w Y) k = ((w.zip Y).map fun p => star (at0 p.1 k) * at0 p.2 k).sum := by
  unfold combine; rw [at0_range_map hk]

/-- Extended spectrum of a combination of spectra of real signals. -/
theorem at0_hermExt_combine [CharZero K] (r : DftRoot ζ N) (he : 2 ∣ N) {w xs : List (List K)}
    (hx : ∀ x ∈ xs, IsReal x) (hw : ∀ a ∈ w, a.length = N / 2 + 1) {k : Nat} (hk : k < N) :
    at0 (hermExt (combine (N / 2 + 1) w (xs.map fun x => (dft ζ N x).take (N / 2 + 1)))) k =
      ((w.zip xs).map fun p => at0 (hermExt (p.1.map star)) k * at0 (dft ζ N p.2) k).sum := by
  have hN := r.pos
  have hcl : 2 * (combine (N / 2 + 1) w (xs.map fun x => (dft ζ N x).take (N / 2 + 1))).length = N + 2 := by
    unfold combine; rw [List.length_map, List.length_range]; omega
  have hzip : w.zip (xs.map fun x => (dft ζ N x).take (N / 2 + 1)) =
      (w.zip xs).map fun p => (p.1, (dft ζ N p.2).take (N / 2 + 1)) := by
    rw [List.zip_map_right]; rfl
  have hval : ∀ j < N / 2 + 1,
      at0 (combine (N / 2 + 1) w (xs.map fun x => (dft ζ N x).take (N / 2 + 1))) j =
      ((w.zip xs).map fun p => star (at0 p.1 j) * at0 (dft ζ N p.2) j).sum := by
    intro j hj
    rw [at0_combine hj, hzip, List.map_map]
    congr 1
    apply List.map_congr_left
    intro p _
    simp only [Function.comp]
    rw [at0_take hj]
  rw [at0_hermExt hcl hN hk]
  have hpw : ∀ p ∈ w.zip xs, 2 * (p.1.map star).length = N + 2 ∧ IsReal p.2 := by
    intro p hp
    have := hw p.1 (List.of_mem_zip hp).1
    refine ⟨by rw [List.length_map, this]; omega, hx p.2 (List.of_mem_zip hp).2⟩
  by_cases h1 : k = 0 ∨ 2 * k = N
  · rw [if_pos h1, hval k (by omega),
      list_sum_map_hom rePart_zero rePart_add]
    congr 1
    apply List.map_congr_left
    intro p hp
    obtain ⟨hp1, hp2⟩ := hpw p hp
    rw [at0_hermExt hp1 hN hk, if_pos h1, at0_map (star_zero _), rePart_mul_real]
    have hs := dft_symm r (x := p.2) (fun t _ => hp2.at0 t) hk
    rw [← hs]
    congr 1
    rcases h1 with h1 | h1
    · subst h1; simp
    · rw [Nat.mod_eq_of_lt (by omega)]; omega
  · rw [if_neg h1]
    by_cases h2 : 2 * k < N
    · rw [if_pos h2, hval k (by omega)]
      congr 1
      apply List.map_congr_left
      intro p hp
      obtain ⟨hp1, hp2⟩ := hpw p hp
      rw [at0_hermExt hp1 hN hk, if_neg h1, if_pos h2, at0_map (star_zero _)]
    · rw [if_neg h2, hval _ (by omega), list_sum_map_hom (star_zero _) star_add]
      congr 1
      apply List.map_congr_left
      intro p hp
      obtain ⟨hp1, hp2⟩ := hpw p hp
      rw [at0_hermExt hp1 hN hk, if_neg h1, if_neg h2, at0_map (star_zero _), star_mul', star_star]
      congr 1
      have hs := dft_symm r (x := p.2) (fun t _ => hp2.at0 t) hk
      rw [Nat.mod_eq_of_lt (by omega)] at hs
      rw [hs, star_star]

theorem idft_list_sum {β : Type} (l : List β) (F : β → List K) {X : List K}
    (hX : ∀ k < N, at0 X k = (l.map fun b => at0 (F b) k).sum) {t : Nat} (ht : t < N) :
    at0 (idft ζ N X) t = (l.map fun b => at0 (idft ζ N (F b)) t).sum := by
  unfold idft
  rw [at0_range_map ht]
  have : ∑ k ∈ Finset.range N, at0 X k * ζ ^ (k * t) =
      (l.map fun b => ∑ k ∈ Finset.range N, at0 (F b) k * ζ ^ (k * t)).sum := by
    have e : ∀ k ∈ Finset.range N, at0 X k * ζ ^ (k * t) =
        (l.map fun b => at0 (F b) k * ζ ^ (k * t)).sum := by
      intro k hk
      rw [hX k (Finset.mem_range.mp hk),
        list_sum_map_hom (g := fun a => a * ζ ^ (k * t)) (zero_mul _) (fun a b => add_mul a b _)]
    rw [Finset.sum_congr rfl e]
    clear e hX
    induction l with
    | nil => simp
    | cons x l ih => simp only [List.map_cons, List.sum_cons, Finset.sum_add_distrib, ih]
  rw [this, list_sum_map_hom (g := fun a => a / (N : K)) (zero_div _) (fun a b => add_div a b _)]
  congr 1
  apply List.map_congr_left
  intro b _
  rw [at0_range_map ht]

theorem analysis_eq {c : K} {h : List K} (Y : List (List K)) :
    Y.map (analysis ζ N c h) =
      (Y.map fun y => (List.zipWith (· * ·) y h).map (· / c)).map
        fun x => (dft ζ N x).take (N / 2 + 1) := by
  rw [List.map_map]
  apply List.map_congr_left
  intro y _
  simp only [Function.comp]
  unfold analysis
  rw [← dft_div, List.map_take]

theorem windowed_real {c : K} (hcr : star c = c) {h : List K} (hh : IsReal h)
    {Y : List (List K)} (hY : ∀ y ∈ Y, IsReal y ∧ y.length = N) :
    ∀ x ∈ (Y.map fun y => (List.zipWith (· * ·) y h).map (· / c)), IsReal x := by
  intro x hx
  obtain ⟨y, hy, rfl⟩ := List.mem_map.mp hx
  intro a ha
  obtain ⟨b, hb, rfl⟩ := List.mem_map.mp ha
  obtain ⟨i, hi, rfl⟩ := List.getElem_of_mem hb
  rw [List.getElem_zipWith, star_div₀, star_mul', hcr, (hY y hy).1 _ (List.getElem_mem _),
    hh _ (List.getElem_mem _)]

theorem filtering_real [CharZero K] (r : DftRoot ζ N) (he : 2 ∣ N) {w xs : List (List K)}
    (hx : ∀ x ∈ xs, IsReal x) (hw : ∀ a ∈ w, a.length = N / 2 + 1) {t : Nat} (ht : t < N) :
    at0 (idft ζ N (hermExt (combine (N / 2 + 1) w
      (xs.map fun x => (dft ζ N x).take (N / 2 + 1))))) t =
    ((w.zip xs).map fun p => ∑ u ∈ Finset.range N,
      at0 (idft ζ N (hermExt (p.1.map star))) ((t + N - u) % N) * at0 p.2 u).sum := by
  rw [idft_list_sum (w.zip xs)
    (fun p => (List.range N).map fun k => at0 (hermExt (p.1.map star)) k * at0 (dft ζ N p.2) k)
    (fun k hk => by
      rw [at0_hermExt_combine r he hx hw hk]
      congr 1
      apply List.map_congr_left
      intro p _
      rw [at0_range_map hk]) ht]
  congr 1
  apply List.map_congr_left
  intro p _
  exact idft_mul_dft r (fun k hk => by rw [at0_range_map hk]) ht

theorem filtering_core [CharZero K] (r : DftRoot ζ N) (he : 2 ∣ N)
    {c : K} (hc : c ≠ 0) (hcr : star c = c) {h : List K} (hh : IsReal h) (hhl : h.length = N)
    {w Y : List (List K)} (hY : ∀ y ∈ Y, IsReal y ∧ y.length = N)
    (hw : ∀ a ∈ w, a.length = N / 2 + 1) {t : Nat} (ht : t < N) :
    c * at0 (idft ζ N (hermExt (combine (N / 2 + 1) w (Y.map (analysis ζ N c h))))) t =
    (((w.map fun a => idft ζ N (hermExt (a.map star))).zip Y).map fun p =>
        ∑ u ∈ Finset.range N, at0 p.1 ((t + N - u) % N) * (at0 p.2 u * at0 h u)).sum := by
  rw [analysis_eq, filtering_real r he (windowed_real hcr hh hY) hw ht,
    list_sum_map_hom (g := fun a => c * a) (mul_zero c) (mul_add c)]
  have h1 : w.zip (Y.map fun y => (List.zipWith (· * ·) y h).map (· / c)) =
      (w.zip Y).map fun p => (p.1, (List.zipWith (· * ·) p.2 h).map (· / c)) := by
    rw [List.zip_map_right]; rfl
  have h2 : (w.map fun a => idft ζ N (hermExt (a.map star))).zip Y =
      (w.zip Y).map fun p => (idft ζ N (hermExt (p.1.map star)), p.2) := by
    rw [List.zip_map_left]; rfl
  rw [h1, h2, List.map_map, List.map_map]
  congr 1
  apply List.map_congr_left
  intro p hp
  have hpY := (hY p.2 (List.of_mem_zip hp).2).2
  simp only [Function.comp]
  rw [Finset.mul_sum]
  apply Finset.sum_congr rfl
  intro u hu
  have hu' := Finset.mem_range.mp hu
  rw [at0_map (zero_div c), at0_zipWith (by omega) (by omega), mul_left_comm,
    mul_div_cancel₀ _ hc]

end
end Danse
