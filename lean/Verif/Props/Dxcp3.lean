import Verif.Proofs.Dxcp7

/-!
# Property C51, continued: fractional shifts
-/

namespace Danse

/-- C51 (g): the fractional shift is an exact delay: a sinusoid below the Nyquist frequency with a
whole number of periods in the (even) transform length comes out delayed by exactly `r` samples (`r` real,
of either sign), whatever its phase. -/
theorem C51_fractional {F m : Nat} (he : 2 ∣ F) (h : 2 * m < F) (φ r : ℝ) :
    fracDelay F r ((List.range F).map fun (t : Nat) => Real.cos (2 * Real.pi * m * t / F + φ)) =
      (List.range F).map fun (i : Nat) => Real.cos (2 * Real.pi * m * (i - r) / F + φ) :=
  fracDelay_cos he h φ r

example : fracDelay 8 (1 / 2) ((List.range 8).map fun (t : Nat) =>
      Real.cos (2 * Real.pi * (3 : Nat) * t / (8 : Nat) + 1)) =
    (List.range 8).map fun (i : Nat) =>
      Real.cos (2 * Real.pi * (3 : Nat) * (i - 1 / 2) / (8 : Nat) + 1) :=
  C51_fractional (by norm_num) (by norm_num) 1 (1 / 2)

/-- C51 (h): the integer part of the shift is the nearest integer, and the even one of the two
neighbours when the shift is half-way between two integers. -/
theorem C51_round (x : ℚ) :
    |(roundHE x : ℚ) - x| ≤ 1 / 2 ∧ ∀ n : Int, x = n + 1 / 2 → Even (roundHE x) := by
  refine ⟨?_, fun n hx => ?_⟩
  · have := roundHE_bounds x
    rw [abs_le]; constructor <;> linarith
  · have hf : ⌊x⌋ = n := by
      rw [Int.floor_eq_iff]; rw [hx]; constructor <;> linarith
    unfold roundHE
    simp only [hf]
    rw [if_neg (by rw [hx]; simp), if_neg (by rw [hx]; simp)]
    split
    · next h => exact Int.even_iff.mpr h
    · next h => rw [Int.even_iff]; omega

example : roundHE (5 / 2) = 2 ∧ roundHE (7 / 2) = 4 ∧ roundHE (-(1 / 2)) = 0 := by decide +kernel

/-! ## C53 -/

/-- C53 (c): the two averages that are compared are as many FFT shifts apart as fit into the
accumulation time, and the search range for the correlation peak contains the shift that the maximum
SRO causes over this time, with at most one sample to spare. -/
theorem C53_derived {fs accum sroMax : ℚ} (hfs : 0 < fs) (ha : 0 ≤ accum) {fftShift : Nat}
    (hs : 0 < fftShift) (fftSize frame addWait settle : Nat) (bSmpls : Int) :
    let p := DxParams.derive fs accum fftSize frame fftShift addWait settle
    (((p.contNum : ℚ) - 1) * fftShift ≤ accum * fs ∧ accum * fs < p.contNum * fftShift ∧
      p.inv = fftSize / fftShift ∧ p.addWait = addWait ∧ p.settle = settle) ∧
    (bSmpls : ℚ) * sroMax / 1000000 < lambdaOf bSmpls sroMax ∧
    (lambdaOf bSmpls sroMax : ℚ) ≤ bSmpls * sroMax / 1000000 + 1 := by
  intro p
  have hsq : (0 : ℚ) < fftShift := by exact_mod_cast hs
  have hx : accum / (1 / (fs / fftShift)) = accum * fs / fftShift := by
    field_simp
  have h0 : 0 ≤ accum * fs / fftShift := by positivity
  have hfl : 0 ≤ ⌊accum * fs / fftShift⌋ := Int.floor_nonneg.mpr h0
  have hc : (p.contNum : ℚ) = (⌊accum * fs / fftShift⌋ : ℚ) + 1 := by
    show (((accumFrames fs accum fftShift).toNat + 1 : Nat) : ℚ) = _
    unfold accumFrames
    rw [hx]
    push_cast
    rw [show ((⌊accum * fs / fftShift⌋.toNat : Nat) : ℚ) = ((⌊accum * fs / fftShift⌋.toNat : Int) : ℚ) by
      push_cast; rfl, Int.toNat_of_nonneg hfl]
  refine ⟨⟨?_, ?_, rfl, rfl, rfl⟩, ?_, ?_⟩
  · rw [hc, add_sub_cancel_right, ← le_div_iff₀ hsq]
    exact Int.floor_le _
  · rw [hc, ← div_lt_iff₀ hsq]
    exact Int.lt_floor_add_one _
  · unfold lambdaOf
    push_cast
    exact Int.lt_floor_add_one _
  · unfold lambdaOf
    push_cast
    have := Int.floor_le ((bSmpls : ℚ) * sroMax / 1000000)
    linarith

/-! ## C68 -/

/-- C68 (d): the recursive average is the exponentially weighted one: the newest bin has weight
`1 - α`, the weight shrinks by a factor `α` with each step into the past, and the first bin has weight
`α ^ n` after `n` further ones. -/
theorem C68_average (al : ℝ) (x : ℂ) (r : List ℂ) :
    phatAvg al (x :: r) = (al : ℂ) ^ r.length * x +
      ∑ j ∈ Finset.range r.length, ((1 - al : ℝ) : ℂ) * (al : ℂ) ^ j * r.reverse.getD j 0 := by
  unfold phatAvg
  induction r using List.reverseRecOn with
  | nil => simp
  | append_singleton r v ih =>
    simp only at ih ⊢
    rw [List.foldl_append, ih, List.length_append, List.length_singleton, Finset.sum_range_succ']
    simp only [List.foldl_cons, List.foldl_nil, List.reverse_append, List.reverse_cons,
      List.reverse_nil, List.nil_append, List.singleton_append, List.getD_cons_zero,
      List.getD_cons_succ, pow_zero, mul_one]
    rw [mul_add, ← mul_assoc, ← pow_succ', ← add_assoc, Finset.mul_sum]
    congr 2
    apply Finset.sum_congr rfl
    intro j _
    rw [pow_succ]
    ring

example : phatAvg (1 / 2) [1, Complex.I, 2] = (5 / 4 : ℂ) + Complex.I / 4 := by
  rw [C68_average]
  simp [Finset.sum_range_succ]
  ring

/-! ## C69 -/

/-- C69 (c): the loop is closed as documented: before every call the second channel is resampled by
minus the SRO estimate of the controller at that moment (and no time offset); the estimator is fed
the two frames that are handed back, the delayed reference first; and its residual is what the
controller is updated with. `r`, `e`, `c`, `ρ` are the states of resampler, estimator and controller
before call `j` and the residual after it. -/
theorem C69_feedback {S E : Type} {sroOf : S → ℚ}
    {estStep : E → List ℝ → List ℝ → Except PyErr (E × ℚ)} {ctlStep : S → ℚ → S} :
    ∀ (frames : List (List ℝ × List ℝ)) (s s' : LoopSt S E) (os : List LoopOut),
    LoopSt.run sroOf estStep ctlStep s frames = .ok (s', os) →
    ∃ (r : Nat → Resampler) (e : Nat → E) (c : Nat → S) (ρ : Nat → ℚ),
      (r 0 = s.res ∧ e 0 = s.est ∧ c 0 = s.ctl) ∧
      (r frames.length = s'.res ∧ e frames.length = s'.est ∧ c frames.length = s'.ctl) ∧
      ∀ (j : Nat) (f : List ℝ × List ℝ), frames[j]? = some f → ∃ o, os[j]? = some o ∧
        (r j).process f.2 (-(sroOf (c j))) 0 = .ok (r (j + 1), o.zi) ∧ o.col1 = o.zi ∧
        estStep (e j) o.col0 o.col1 = .ok (e (j + 1), ρ j) ∧
        c (j + 1) = ctlStep (c j) (ρ j) := by
  intro frames
  induction frames with
  | nil =>
    intro s s' os h
    injection h with h
    injection h with h1 h2
    subst h1
    exact ⟨fun _ => s.res, fun _ => s.est, fun _ => s.ctl, fun _ => 0, ⟨rfl, rfl, rfl⟩,
      ⟨rfl, rfl, rfl⟩, by simp⟩
  | cons x fr ih =>
    intro s s' os h
    obtain ⟨s1, o, os', h1, h2, rfl⟩ := loop_run_cons h
    obtain ⟨zi, rr, e1, _, e3, e4, e5, _, e7⟩ := loop_process_inv h1
    obtain ⟨r, e, c, ρ, ⟨i1, i2, i3⟩, hend, hall⟩ := ih s1 s' os' h2
    refine ⟨fun j => Nat.casesOn j s.res (fun n => r n), fun j => Nat.casesOn j s.est (fun n => e n),
      fun j => Nat.casesOn j s.ctl (fun n => c n), fun j => Nat.casesOn j rr (fun n => ρ n),
      ⟨rfl, rfl, rfl⟩, hend, ?_⟩
    intro j f hj
    cases j with
    | zero =>
      simp only [List.getElem?_cons_zero, Option.some.injEq] at hj
      subst hj
      refine ⟨o, rfl, ?_, ?_, ?_, ?_⟩
      · simp only [i1, e4]; exact e1
      · rw [e5, e4]
      · simp only [i2]; exact e7
      · simp only [i3]; exact e3
    | succ j =>
      rw [List.getElem?_cons_succ] at hj
      obtain ⟨o', ho, hh⟩ := hall j f hj
      exact ⟨o', by rw [List.getElem?_cons_succ]; exact ho, hh⟩

/-- The example run of `C69_aligned` meets the hypothesis. -/
example : ∃ s' os, LoopSt.run (fun c : ImcCtl => c.cur) (fun (e : Unit) _ _ => .ok (e, 7))
    (fun c r => c.step r 1) ⟨Resampler.init 1, DelayBuf.init (List.replicate 1 0) 3, (),
      { startDelay := 0 }⟩ [([1], [4]), ([2], [5])] = .ok (s', os) := by
  unfold LoopSt.run LoopSt.run LoopSt.run LoopSt.process Resampler.process
  simp [Resampler.init, ImcCtl.step, kNom, bind, Except.bind]

end Danse
