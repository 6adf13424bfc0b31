import Verif.Model.Stoi
import Verif.Proofs.Config
import Mathlib.Algebra.Order.BigOperators.Ring.Finset

/-! # Lemmas for short-time objective intelligibility -/

namespace Danse

section
variable {J N : Nat}

theorem rowNormalize_unit {eps : ℝ} {r x a : Seg J N} (h : rowNormalize eps r x = .ok a) :
    ∀ j, ∑ m, a j m ^ 2 = 1 := by
  unfold rowNormalize at h
  simp only at h
  split at h
  · cases h
  · rename_i hne
    injection h with h
    subst h
    intro j
    push Not at hne
    have hj := hne j
    simp only [mul_pow, ← Finset.mul_sum]
    rw [div_pow, one_pow, Real.sq_sqrt (Finset.sum_nonneg fun _ _ => sq_nonneg _)]
    exact one_div_mul_cancel hj

theorem rowColNormalize_unit {eps : ℝ} {r1 r2 x a : Seg J N} (h : rowColNormalize eps r1 r2 x = .ok a) :
    ∀ m, ∑ j, a j m ^ 2 = 1 := by
  unfold rowColNormalize at h
  obtain ⟨b, _, h⟩ := bind_ok_inv h
  obtain ⟨d, hd, h⟩ := bind_ok_inv h
  injection h with h
  subst h
  exact rowNormalize_unit hd

/-- Cauchy-Schwarz for sums of products. -/
theorem abs_sum_mul_le {ι : Type} (s : Finset ι) (u v : ι → ℝ) {A B : ℝ} (hA : 0 ≤ A) (hB : 0 ≤ B)
    (hu : ∑ i ∈ s, u i ^ 2 ≤ A ^ 2) (hv : ∑ i ∈ s, v i ^ 2 ≤ B ^ 2) : |∑ i ∈ s, u i * v i| ≤ A * B := by
  have h := Finset.sum_mul_sq_le_sq_mul_sq s u v
  have h2 : (∑ i ∈ s, u i * v i) ^ 2 ≤ (A * B) ^ 2 := by
    rw [mul_pow]
    exact h.trans (mul_le_mul hu hv (Finset.sum_nonneg fun _ _ => sq_nonneg _) (sq_nonneg _))
  exact abs_le_of_sq_le_sq h2 (mul_nonneg hA hB)

theorem mean_le_one {l : List ℝ} (h : ∀ a ∈ l, |a| ≤ 1) {k : Nat} (hk : l.length ≤ k) :
    |l.sum / k| ≤ 1 := by
  have hs : |l.sum| ≤ l.length := by
    clear hk
    induction l with
    | nil => simp
    | cons a l ih =>
      rw [List.sum_cons, List.length_cons]
      push_cast
      have h1 := h a (by simp)
      have h2 := ih fun b hb => h b (by simp [hb])
      exact (abs_add_le _ _).trans (by linarith)
  rw [abs_div, Nat.abs_cast]
  have : (l.length : ℝ) ≤ k := by exact_mod_cast hk
  exact div_le_one_of_le₀ (hs.trans this) (Nat.cast_nonneg _)

theorem mapM_length {α β : Type} {f : α → Except PyErr β} : ∀ {l : List α} {r : List β},
    l.mapM f = .ok r → r.length = l.length := by
  intro l
  induction l with
  | nil => intro r h; cases h; rfl
  | cons a l ih =>
    intro r h
    rw [List.mapM_cons] at h
    obtain ⟨b, _, h⟩ := bind_ok_inv h
    obtain ⟨bs, hbs, h⟩ := bind_ok_inv h
    injection h with h
    subst h
    rw [List.length_cons, List.length_cons, ih hbs]

theorem mapM_mem {α β : Type} {f : α → Except PyErr β} : ∀ {l : List α} {r : List β},
    l.mapM f = .ok r → ∀ b ∈ r, ∃ a ∈ l, f a = .ok b := by
  intro l
  induction l with
  | nil => intro r h; cases h; simp
  | cons a l ih =>
    intro r h
    rw [List.mapM_cons] at h
    obtain ⟨b, hb, h⟩ := bind_ok_inv h
    obtain ⟨bs, hbs, h⟩ := bind_ok_inv h
    injection h with h
    subst h
    intro c hc
    rcases List.mem_cons.mp hc with rfl | hc
    · exact ⟨a, by simp, hb⟩
    · obtain ⟨a', h1, h2⟩ := ih hbs c hc
      exact ⟨a', by simp [h1], h2⟩

theorem normSegments_unit {eps : ℝ} {noise : Nat → Seg J N × Seg J N} {l r : List (Seg J N)}
    (h : normSegments eps noise l = .ok r) :
    r.length = l.length ∧ ∀ a ∈ r, ∀ m, ∑ j, a j m ^ 2 = 1 := by
  unfold normSegments at h
  refine ⟨by rw [mapM_length h, List.length_zipIdx], ?_⟩
  intro a ha
  obtain ⟨s, _, hs⟩ := mapM_mem h a ha
  exact rowColNormalize_unit hs

/-- The score of one normalised segment. -/
theorem segScore_le {a b : Seg J 30} (ha : ∀ m, ∑ j, a j m ^ 2 = 1) (hb : ∀ m, ∑ j, b j m ^ 2 = 1) :
    |∑ j, ∑ m, a j m * b j m / 30| ≤ 1 := by
  rw [Finset.sum_comm]
  refine (Finset.abs_sum_le_sum_abs _ _).trans ?_
  have : ∀ m, |∑ j, a j m * b j m / 30| ≤ 1 / 30 := by
    intro m
    rw [← Finset.sum_div, abs_div]
    have := abs_sum_mul_le Finset.univ (fun j => a j m) (fun j => b j m) zero_le_one zero_le_one
      (by rw [ha m]; norm_num) (by rw [hb m]; norm_num)
    rw [show |(30 : ℝ)| = 30 by norm_num]
    gcongr
    linarith
  refine (Finset.sum_le_sum fun m _ => this m).trans ?_
  simp

theorem segScore_self {a : Seg J 30} (ha : ∀ m, ∑ j, a j m ^ 2 = 1) :
    ∑ j, ∑ m, a j m * a j m / 30 = 1 := by
  rw [Finset.sum_comm]
  have : ∀ m, ∑ j, a j m * a j m / 30 = 1 / 30 := by
    intro m
    rw [← Finset.sum_div]
    have e : ∑ j, a j m * a j m = 1 := by rw [← ha m]; exact Finset.sum_congr rfl fun _ _ => by ring
    rw [e]
  rw [Finset.sum_congr rfl fun m _ => this m]
  simp

theorem unit_of_eps {u : Fin N → ℝ} {eps : ℝ} (he : 0 < eps) :
    ∑ m, (u m / (Real.sqrt (∑ i, u i ^ 2) + eps)) ^ 2 ≤ 1 ^ 2 := by
  simp only [div_pow, ← Finset.sum_div]
  have h0 : 0 ≤ ∑ i, u i ^ 2 := Finset.sum_nonneg fun _ _ => sq_nonneg _
  have hs := Real.sqrt_nonneg (∑ i, u i ^ 2)
  rw [one_pow]
  refine div_le_one_of_le₀ ?_ (by positivity)
  nlinarith [Real.sq_sqrt h0]

theorem plainSegment_le {x y : Seg 15 N} {eps clip : ℝ} (he : 0 < eps) :
    |plainSegment eps clip x y / 15| ≤ 1 := by
  unfold plainSegment
  rw [abs_div, show |(15 : ℝ)| = 15 by norm_num]
  refine div_le_one_of_le₀ ?_ (by norm_num)
  refine (Finset.abs_sum_le_sum_abs _ _).trans ?_
  refine (Finset.sum_le_sum (g := fun _ => (1 : ℝ)) fun j _ => ?_).trans (by simp)
  exact (abs_sum_mul_le _ _ _ zero_le_one zero_le_one (unit_of_eps he) (unit_of_eps he)).trans (by norm_num)

end

/-! ## Frames -/

theorem frameStarts_length (l w h : Nat) : (frameStarts l w h).length = (l - w + h - 1) / h := by
  unfold frameStarts
  simp

theorem olaFrames_length (win hop : Nat) (fr : List (List ℝ)) :
    (olaFrames win hop fr).length = (fr.length - 1) * hop + win := by
  unfold olaFrames
  simp

theorem segmentsOf_length {J : Nat} (N nfft win hop : Nat) (bands : Fin J → List Nat) (x : List ℝ) :
    (segmentsOf N nfft win hop bands x).length = (frameStarts x.length win hop).length + 1 - N := by
  unfold segmentsOf
  simp

theorem keptStarts_sublist {eps dyn : ℝ} {win hop : Nat} {x : List ℝ} {st : List Nat}
    (h : keptStarts eps dyn win hop x = .ok st) : st.Sublist (frameStarts x.length win hop) := by
  unfold keptStarts at h
  simp only at h
  split at h
  · cases h
  · injection h with h
    rw [← h]
    exact List.filter_sublist

/-! ## Scaling -/

theorem getD_scale (g : ℝ) (y : List ℝ) (i : Nat) : (y.map (g * ·)).getD i 0 = g * y.getD i 0 := by
  rw [List.getD_eq_getElem?_getD, List.getD_eq_getElem?_getD, List.getElem?_map]
  cases y[i]? <;> simp

theorem hannFrame_scale (g : ℝ) (win : Nat) (y : List ℝ) (i : Nat) :
    hannFrame win (y.map (g * ·)) i = (hannFrame win y i).map (g * ·) := by
  unfold hannFrame
  rw [List.map_map]
  refine List.map_congr_left fun t _ => ?_
  simp only [Function.comp]
  rw [getD_scale]
  ring

theorem sum_map_scale {α : Type} (g : ℝ) (l : List α) (f f' : α → ℝ) (h : ∀ a ∈ l, f' a = g * f a) :
    (l.map f').sum = g * (l.map f).sum := by
  rw [← List.sum_map_mul_left]
  exact congrArg List.sum (List.map_congr_left h)

theorem olaFrames_scale (g : ℝ) (win hop : Nat) (fr : List (List ℝ)) :
    olaFrames win hop (fr.map fun f => f.map (g * ·)) = (olaFrames win hop fr).map (g * ·) := by
  unfold olaFrames
  rw [List.length_map, List.map_map]
  refine List.map_congr_left fun s _ => ?_
  simp only [Function.comp]
  rw [List.zipIdx_map, List.map_map]
  refine sum_map_scale g _ _ _ fun p _ => ?_
  obtain ⟨f, i⟩ := p
  show (if i * hop ≤ s ∧ s < i * hop + win then (f.map (g * ·)).getD (s - i * hop) 0 else 0) =
    g * (if i * hop ≤ s ∧ s < i * hop + win then f.getD (s - i * hop) 0 else 0)
  by_cases h : i * hop ≤ s ∧ s < i * hop + win
  · rw [if_pos h, if_pos h, getD_scale]
  · rw [if_neg h, if_neg h, mul_zero]

theorem rfftBin_scale (g : ℝ) (nfft : Nat) (f : List ℝ) (b : Nat) :
    rfftBin nfft (f.map (g * ·)) b = g * rfftBin nfft f b := by
  unfold rfftBin
  rw [List.length_map, ← List.sum_map_mul_left]
  refine congrArg List.sum (List.map_congr_left fun t _ => ?_)
  rw [getD_scale]
  push_cast
  ring

theorem bandAmp_scale {g : ℝ} (hg : 0 < g) (nfft win : Nat) (bins : List Nat) (y : List ℝ) (i : Nat) :
    bandAmp nfft win bins (y.map (g * ·)) i = g * bandAmp nfft win bins y i := by
  unfold bandAmp
  rw [hannFrame_scale, sum_map_scale (g ^ 2) bins (fun f => ‖rfftBin nfft (hannFrame win y i) f‖ ^ 2)]
  · rw [Real.sqrt_mul (sq_nonneg g), Real.sqrt_sq hg.le]
  · intro f _
    rw [rfftBin_scale, norm_mul, mul_pow, Complex.norm_real, Real.norm_eq_abs, sq_abs]

theorem rowNormalize_scale {J N : Nat} {g : ℝ} (hg : 0 < g) (eps : ℝ) (r x : Seg J N) :
    rowNormalize eps (fun j m => g * r j m) (fun j m => g * x j m) = rowNormalize eps r x := by
  have hb : ∀ j m, g * x j m + eps * (g * r j m) - (∑ i, (g * x j i + eps * (g * r j i))) / N =
      g * (x j m + eps * r j m - (∑ i, (x j i + eps * r j i)) / N) := by
    intro j m
    have : ∀ i, g * x j i + eps * (g * r j i) = g * (x j i + eps * r j i) := fun i => by ring
    simp only [this, ← Finset.mul_sum]
    ring
  have hs : ∀ j, ∑ m, (g * x j m + eps * (g * r j m) - (∑ i, (g * x j i + eps * (g * r j i))) / N) ^ 2 =
      g ^ 2 * ∑ m, (x j m + eps * r j m - (∑ i, (x j i + eps * r j i)) / N) ^ 2 := by
    intro j
    rw [Finset.mul_sum]
    exact Finset.sum_congr rfl fun m _ => by rw [hb]; ring
  unfold rowNormalize
  simp only [hs]
  simp only [hb]
  have hiff : (∃ j, g ^ 2 * ∑ m, (x j m + eps * r j m - (∑ i, (x j i + eps * r j i)) / N) ^ 2 = 0) ↔
      ∃ j, ∑ m, (x j m + eps * r j m - (∑ i, (x j i + eps * r j i)) / N) ^ 2 = 0 := by
    refine exists_congr fun j => ?_
    rw [mul_eq_zero, or_iff_right (by positivity)]
  by_cases h : ∃ j, ∑ m, (x j m + eps * r j m - (∑ i, (x j i + eps * r j i)) / N) ^ 2 = 0
  · rw [if_pos h, if_pos (hiff.mpr h)]
  · rw [if_neg h, if_neg (fun h' => h (hiff.mp h'))]
    congr 1
    funext j m
    rw [Real.sqrt_mul (sq_nonneg g), Real.sqrt_sq hg.le]
    have : g ≠ 0 := hg.ne'
    field_simp

end Danse
