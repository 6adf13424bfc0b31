import Verif.Proofs.Dxcp2

/-!
# Linearity of the online resampler for a given history of offsets
-/

namespace Danse

theorem lin_length {c : ℝ} {a b : List ℝ} (h : a.length = b.length) : (lin c a b).length = a.length := by
  unfold lin; simp [h]

theorem lin_drop (c : ℝ) (a b : List ℝ) (n : Nat) : (lin c a b).drop n = lin c (a.drop n) (b.drop n) := by
  unfold lin; exact List.drop_zipWith

theorem lin_take (c : ℝ) (a b : List ℝ) (n : Nat) : (lin c a b).take n = lin c (a.take n) (b.take n) := by
  unfold lin; exact List.take_zipWith

theorem lin_append {c : ℝ} {a b a' b' : List ℝ} (h : a.length = b.length) :
    lin c (a ++ a') (b ++ b') = lin c a b ++ lin c a' b' := by
  unfold lin; exact List.zipWith_append h

theorem lin_zero (c : ℝ) (n : Nat) : lin c (List.replicate n 0) (List.replicate n 0) = List.replicate n 0 := by
  unfold lin; simp

theorem lin_pySlice {c : ℝ} {a b : List ℝ} (h : a.length = b.length) (i j : Int) :
    pySlice (lin c a b) i j = lin c (pySlice a i j) (pySlice b i j) := by
  unfold pySlice
  simp only [lin_length h, lin_drop, lin_take, h]

theorem lin_hann {c : ℝ} {a b : List ℝ} (h : a.length = b.length) (B : Nat) :
    (lin c a b).zipIdx.map (fun (v, n) => hannP B n * v) =
      lin c (a.zipIdx.map (fun (v, n) => hannP B n * v)) (b.zipIdx.map (fun (v, n) => hannP B n * v)) := by
  unfold lin
  apply List.ext_getElem
  · simp [h]
  · intro i h1 h2
    simp
    ring

theorem lin_add {c : ℝ} {a b a' b' : List ℝ} :
    List.zipWith (· + ·) (lin c a b) (lin c a' b') =
      lin c (List.zipWith (· + ·) a a') (List.zipWith (· + ·) b b') := by
  unfold lin
  apply List.ext_getElem
  · simp; omega
  · intro i h1 h2
    simp
    ring

theorem fracDelay_eq (F : Nat) (r : ℝ) (x : List ℝ) :
    fracDelay F r x = (List.range F).map fun i => ((∑ k ∈ Finset.range F,
      (∑ t ∈ Finset.range F, at0 (x.map Complex.ofReal) t *
        ((Complex.exp (2 * Real.pi * Complex.I / F))⁻¹) ^ (k * t)) *
        Complex.exp (-Complex.I * 2 * Real.pi * (fftK F k : ℂ) / F * r) *
        (Complex.exp (2 * Real.pi * Complex.I / F)) ^ (k * i)) / F : ℂ).re := by
  unfold fracDelay
  simp only
  rw [dft, zipIdx_map_range, idft, List.map_map]
  apply List.map_congr_left
  intro i _
  rw [Function.comp_apply]
  congr 2
  apply Finset.sum_congr rfl
  intro k hk
  rw [at0_range_map (Finset.mem_range.1 hk)]

theorem at0_lin {c : ℝ} {a b : List ℝ} (h : a.length = b.length) (t : Nat) :
    at0 ((lin c a b).map Complex.ofReal) t =
      at0 (a.map Complex.ofReal) t + (c : ℂ) * at0 (b.map Complex.ofReal) t := by
  by_cases ht : t < a.length
  · have hb : t < b.length := by omega
    unfold at0 lin
    rw [getD_lt (by simp; omega), getD_lt (by simpa using ht), getD_lt (by simpa using hb)]
    simp
  · rw [at0_of_ge (by rw [List.length_map, lin_length h]; omega), at0_of_ge (by simp; omega),
      at0_of_ge (by simp; omega)]
    simp

theorem fracDelay_lin {c : ℝ} {a b : List ℝ} (h : a.length = b.length) (F : Nat) (r : ℝ) :
    fracDelay F r (lin c a b) = lin c (fracDelay F r a) (fracDelay F r b) := by
  rw [fracDelay_eq, fracDelay_eq, fracDelay_eq]
  unfold lin
  rw [List.zipWith_map_left, List.zipWith_map_right, List.zipWith_self]
  apply List.map_congr_left
  intro i _
  rw [← Complex.re_ofReal_mul, ← Complex.add_re]
  congr 1
  rw [← mul_div_assoc, ← add_div]
  congr 1
  rw [Finset.mul_sum, ← Finset.sum_add_distrib]
  apply Finset.sum_congr rfl
  intro k _
  change (∑ t ∈ Finset.range F, at0 ((lin c a b).map Complex.ofReal) t * _) * _ * _ = _
  simp only [at0_lin h]
  rw [← mul_assoc, ← mul_assoc, ← add_mul, ← add_mul]
  congr 2
  rw [Finset.mul_sum, ← Finset.sum_add_distrib]
  apply Finset.sum_congr rfl
  intro t _
  ring

/-- The state of the resampler fed with `a + c·b`. -/
structure LinRel (c : ℝ) (s t u : Resampler) : Prop where
  b1 : t.B = s.B
  b2 : u.B = s.B
  sh1 : t.shift = s.shift
  sh2 : u.shift = s.shift
  w1 : t.warned = s.warned
  w2 : u.warned = s.warned
  li : t.inBuf.length = s.inBuf.length
  lo : t.outBuf.length = s.outBuf.length
  inb : u.inBuf = lin c s.inBuf t.inBuf
  out : u.outBuf = lin c s.outBuf t.outBuf

theorem process_lin {c : ℝ} {s t u : Resampler} (h : LinRel c s t u) {a b : List ℝ}
    (ha : a.length = s.B) (hb : b.length = s.B) (sro sto : ℚ) :
    ∃ s' t' u' oa ob, s.process a sro sto = .ok (s', oa) ∧ t.process b sro sto = .ok (t', ob) ∧
      u.process (lin c a b) sro sto = .ok (u', lin c oa ob) ∧ LinRel c s' t' u' ∧ s'.B = s.B ∧
      oa.length = ob.length := by
  obtain ⟨b1, b2, sh1, sh2, w1, w2, li, lo, inb, out⟩ := h
  unfold Resampler.process
  rw [if_neg (by simp [ha]), if_neg (by simp [hb, b1]),
    if_neg (by rw [lin_length (by rw [ha, hb]), ha, b2]; simp)]
  simp only [b1, b2, sh1, sh2, w1, w2, inb, out]
  have hl : (s.inBuf.drop s.B).length = (t.inBuf.drop s.B).length := by simp [li]
  have hl2 : (s.inBuf.drop s.B ++ a).length = (t.inBuf.drop s.B ++ b).length := by
    simp [li, ha, hb]
  rw [lin_drop, ← lin_append hl, lin_pySlice hl2]
  have hl3 := pySlice_length_congr hl2 (selectWin s.B s.shift s.warned sro sto).start
    (selectWin s.B s.shift s.warned sro sto).stop
  rw [lin_hann hl3, fracDelay_lin (by simpa using hl3), lin_take, lin_take, lin_drop, lin_add]
  have hl4 : (s.outBuf.take s.B).length = (t.outBuf.take s.B).length := by simp [lo]
  rw [← lin_append hl4, lin_drop]
  conv =>
    enter [1, s', 1, t', 1, u', 1, oa, 1, ob, 2, 2, 1, 1]
    rw [← lin_zero c s.B]
  rw [← lin_append (by simp [lo, fracDelay_length]), lin_take]
  refine ⟨_, _, _, _, _, rfl, rfl, rfl, ⟨rfl, rfl, rfl, rfl, rfl, rfl, hl2.symm, ?_, rfl, rfl⟩, rfl, ?_⟩
  · simp [lo, fracDelay_length]
  · simp [lo, fracDelay_length]

theorem run_lin {c : ℝ} (h : List (List ℝ × List ℝ × ℚ × ℚ)) : ∀ {s t u : Resampler},
    LinRel c s t u → (∀ p ∈ h, p.1.length = s.B ∧ p.2.1.length = s.B) →
    ∃ s' t' u' oa ob, s.run (h.map fun p => (p.1, p.2.2)) = .ok (s', oa) ∧
      t.run (h.map fun p => (p.2.1, p.2.2)) = .ok (t', ob) ∧
      u.run (h.map fun p => (lin c p.1 p.2.1, p.2.2)) = .ok (u', List.zipWith (lin c) oa ob) ∧
      oa.length = h.length ∧ ob.length = h.length := by
  induction h with
  | nil => intro s t u hr _; exact ⟨s, t, u, [], [], rfl, rfl, rfl, rfl, rfl⟩
  | cons p r ih =>
    intro s t u hr hl
    obtain ⟨hp1, hp2⟩ := hl p (by simp)
    obtain ⟨s1, t1, u1, oa, ob, e1, e2, e3, hr1, hb, _⟩ := process_lin hr hp1 hp2 p.2.2.1 p.2.2.2
    obtain ⟨s2, t2, u2, oas, obs, f1, f2, f3, l1, l2⟩ := ih hr1 (by
      intro q hq; rw [hb]; exact hl q (by simp [hq]))
    refine ⟨s2, t2, u2, oa :: oas, ob :: obs, ?_, ?_, ?_, by simp [l1], by simp [l2]⟩
    · change (s.process p.1 p.2.2.1 p.2.2.2 >>= fun q => q.1.run _ >>= fun z => Except.ok (z.1, q.2 :: z.2)) = _
      rw [e1]
      change (s1.run _ >>= _) = _
      rw [f1]; rfl
    · change (t.process p.2.1 p.2.2.1 p.2.2.2 >>= fun q => q.1.run _ >>= fun z => Except.ok (z.1, q.2 :: z.2)) = _
      rw [e2]
      change (t1.run _ >>= _) = _
      rw [f2]; rfl
    · change (u.process (lin c p.1 p.2.1) p.2.2.1 p.2.2.2 >>= fun q => q.1.run _ >>= fun z => Except.ok (z.1, q.2 :: z.2)) = _
      rw [e3]
      change (u1.run _ >>= _) = _
      rw [f3]; rfl

theorem linRel_init (c : ℝ) (B : Nat) :
    LinRel c (Resampler.init B) (Resampler.init B) (Resampler.init B) := by
  refine ⟨rfl, rfl, rfl, rfl, rfl, rfl, rfl, rfl, ?_, ?_⟩ <;> (unfold Resampler.init; rw [lin_zero])

end Danse
