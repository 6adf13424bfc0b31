import Mathlib.Analysis.SpecialFunctions.Sqrt
import Mathlib.Analysis.Complex.Norm
import Verif.Proofs.Dxcp4

/-!
# Controllers, peak search, phase transform
-/

namespace Danse

/-! ## Simple controller -/

theorem simple_step_bounds (s : SimpleCtl) (r a : ℚ) :
    -100 ≤ (s.step r a).SRO ∧ (s.step r a).SRO ≤ 100 := by
  unfold SimpleCtl.step
  simp only
  split_ifs with h1 h2 <;> constructor <;> linarith

/-! ## IMC controller -/

theorem imc_run_snoc (s : ImcCtl) (h : List (ℚ × ℚ)) (p : ℚ × ℚ) :
    s.run (h ++ [p]) = (s.run h).step p.1 p.2 := by
  unfold ImcCtl.run; rw [List.foldl_append]; rfl

theorem imc_ell (sd : Int) (h : List (ℚ × ℚ)) :
    (ImcCtl.run { startDelay := sd } h).ell = h.length ∧
      (ImcCtl.run { startDelay := sd } h).startDelay = sd := by
  induction h using List.reverseRecOn with
  | nil => exact ⟨rfl, rfl⟩
  | append_singleton h p ih =>
    rw [imc_run_snoc]
    exact ⟨by simp [ImcCtl.step, ih.1], by simp [ImcCtl.step, ih.2]⟩

/-- During the start delay everything stays at zero. -/
theorem imc_frozen (sd : Int) (h : List (ℚ × ℚ)) (hn : (h.length : Int) ≤ sd + 1) :
    (ImcCtl.run { startDelay := sd } h).dSRO = (0, 0, 0) ∧
    (ImcCtl.run { startDelay := sd } h).SRO = (0, 0, 0) ∧
    (ImcCtl.run { startDelay := sd } h).cur = 0 := by
  induction h using List.reverseRecOn with
  | nil => exact ⟨rfl, rfl, rfl⟩
  | append_singleton h p ih =>
    simp only [List.length_append, List.length_singleton] at hn
    obtain ⟨i1, i2, i3⟩ := ih (by push_cast at hn; omega)
    obtain ⟨e1, e2⟩ := imc_ell sd h
    rw [imc_run_snoc]
    unfold ImcCtl.step
    rw [i1, i2, e1, e2]
    have hle : (h.length : Int) ≤ sd := by push_cast at hn; omega
    simp [hle]

theorem imc_frozen2 (sd : Int) (h : List (ℚ × ℚ)) (hn : (h.length : Int) ≤ sd + 2) :
    (ImcCtl.run { startDelay := sd } h).cur = 0 := by
  rcases List.eq_nil_or_concat h with rfl | ⟨h', p, rfl⟩
  · rfl
  · rw [List.concat_eq_append] at hn ⊢
    simp only [List.length_append, List.length_singleton] at hn
    obtain ⟨i1, i2, i3⟩ := imc_frozen sd h' (by push_cast at hn; omega)
    rw [imc_run_snoc]
    unfold ImcCtl.step
    rw [i1, i2]
    simp [kNom]

theorem imc_inactive (sd : Int) (h : List (ℚ × ℚ)) (ha : ∀ p ∈ h, p.2 ≠ 1) :
    (ImcCtl.run { startDelay := sd } h).dSRO = (0, 0, 0) ∧
    (ImcCtl.run { startDelay := sd } h).SRO = (0, 0, 0) ∧
    (ImcCtl.run { startDelay := sd } h).cur = 0 := by
  induction h using List.reverseRecOn with
  | nil => exact ⟨rfl, rfl, rfl⟩
  | append_singleton h p ih =>
    obtain ⟨i1, i2, i3⟩ := ih (fun q hq => ha q (by simp [hq]))
    rw [imc_run_snoc]
    unfold ImcCtl.step
    rw [i1, i2]
    rw [if_neg (ha p (by simp))]
    simp

/-- The poles of the controller are real and inside the unit circle. -/
theorem imc_poles : ∃ r1 r2 : ℝ, r1 + r2 = -(kDen.1 : ℝ) ∧ r1 * r2 = (kDen.2 : ℝ) ∧
    0 ≤ r2 ∧ r2 ≤ r1 ∧ r1 < 1 := by
  set a1 : ℝ := (kDen.1 : ℝ) with h1
  set a2 : ℝ := (kDen.2 : ℝ) with h2
  have e1 : a1 = -(196825464010938 / 10 ^ 14) := by rw [h1]; unfold kDen; push_cast; norm_num
  have e2 : a2 = 968254640109407 / 10 ^ 15 := by rw [h2]; unfold kDen; push_cast; norm_num
  have hD : 0 ≤ a1 ^ 2 - 4 * a2 := by rw [e1, e2]; norm_num
  set q := Real.sqrt (a1 ^ 2 - 4 * a2) with hq
  have hq0 : 0 ≤ q := Real.sqrt_nonneg _
  have hqq : q * q = a1 ^ 2 - 4 * a2 := Real.mul_self_sqrt hD
  refine ⟨(-a1 + q) / 2, (-a1 - q) / 2, by ring, ?_, ?_, by linarith, ?_⟩
  · nlinarith
  · have : q ≤ -a1 := by
      rw [hq]
      apply Real.sqrt_le_iff.2
      constructor
      · rw [e1]; norm_num
      · have : 0 ≤ a2 := by rw [e2]; norm_num
        nlinarith
    linarith
  · have : q < 2 + a1 := by
      rw [hq]
      apply (Real.sqrt_lt' (by rw [e1]; norm_num)).2
      have : 0 < 1 + a1 + a2 := by rw [e1, e2]; norm_num
      nlinarith
    linarith

theorem imc_bounded (sd : Int) (U : ℚ) (hU : 0 ≤ U) (h : List (ℚ × ℚ)) (hb : ∀ p ∈ h, |p.1| ≤ U) :
    |(ImcCtl.run { startDelay := sd } h).cur| ≤ imcGain * U := by
  obtain ⟨r1, r2, hs, hp, h0, h21, h1⟩ := imc_poles
  set V : ℝ := ((|kNom.2.1| + |kNom.2.2| : ℚ) : ℝ) * U / (1 - r1) with hV
  have hr1 : 0 < 1 - r1 := by linarith
  have hr2 : 0 < 1 - r2 := by linarith
  have hg : (0 : ℝ) ≤ ((|kNom.2.1| + |kNom.2.2| : ℚ) : ℝ) * U := by
    apply mul_nonneg
    · exact_mod_cast (by positivity : (0 : ℚ) ≤ |kNom.2.1| + |kNom.2.2|)
    · exact_mod_cast hU
  have hV0 : 0 ≤ V := div_nonneg hg hr1.le
  have key : ∀ h : List (ℚ × ℚ), (∀ p ∈ h, |p.1| ≤ U) →
      let s := ImcCtl.run { startDelay := sd } h
      |s.dSRO.1| ≤ U ∧ |s.dSRO.2.1| ≤ U ∧
      |((s.SRO.1 : ℝ)) - r2 * s.SRO.2.1| ≤ V ∧ |(s.SRO.1 : ℝ)| ≤ V / (1 - r2) ∧ s.cur = s.SRO.1 := by
    intro h hb
    induction h using List.reverseRecOn with
    | nil =>
      have hz : (0 : ℝ) ≤ V / (1 - r2) := div_nonneg hV0 hr2.le
      simp [ImcCtl.run, hU, hV0, hz]
    | append_singleton h p ih =>
      obtain ⟨i1, i2, i3, i4, i5⟩ := ih (fun q hq => hb q (by simp [hq]))
      simp only
      rw [imc_run_snoc]
      set s := ImcCtl.run { startDelay := sd } h with hsdef
      set d : ℚ := if (s.ell : Int) ≤ s.startDelay then 0 else (if p.2 = 1 then p.1 else 0) with hd
      have hdU : |d| ≤ U := by
        rw [hd]; split_ifs
        · simpa using hU
        · exact hb p (by simp)
        · simpa using hU
      have estep : s.step p.1 p.2 = { s with
          dSRO := (d, s.dSRO.1, s.dSRO.2.1)
          SRO := ((kNom.1 * d + kNom.2.1 * s.dSRO.1 + kNom.2.2 * s.dSRO.2.1) -
            (kDen.1 * s.SRO.1 + kDen.2 * s.SRO.2.1), s.SRO.1, s.SRO.2.1)
          cur := ((kNom.1 * d + kNom.2.1 * s.dSRO.1 + kNom.2.2 * s.dSRO.2.1) -
            (kDen.1 * s.SRO.1 + kDen.2 * s.SRO.2.1)) + 0
          ell := s.ell + 1 } := rfl
      rw [estep]
      simp only
      set y : ℚ := (kNom.1 * d + kNom.2.1 * s.dSRO.1 + kNom.2.2 * s.dSRO.2.1) -
            (kDen.1 * s.SRO.1 + kDen.2 * s.SRO.2.1) with hy
      have hy' : (y : ℝ) = ((kNom.2.1 : ℝ) * s.dSRO.1 + kNom.2.2 * s.dSRO.2.1) +
          (r1 + r2) * s.SRO.1 - r1 * r2 * s.SRO.2.1 := by
        rw [hs, hp, hy]
        have : kNom.1 = 0 := rfl
        rw [this]
        push_cast
        ring
      have hu : |(kNom.2.1 : ℝ) * s.dSRO.1 + kNom.2.2 * s.dSRO.2.1| ≤
          ((|kNom.2.1| + |kNom.2.2| : ℚ) : ℝ) * U := by
        have a : |kNom.2.1 * s.dSRO.1 + kNom.2.2 * s.dSRO.2.1| ≤ (|kNom.2.1| + |kNom.2.2|) * U := by
          refine (abs_add_le _ _).trans ?_
          rw [abs_mul, abs_mul, add_mul]
          exact add_le_add (mul_le_mul_of_nonneg_left i1 (abs_nonneg _))
            (mul_le_mul_of_nonneg_left i2 (abs_nonneg _))
        exact_mod_cast a
      have hv : |(y : ℝ) - r2 * s.SRO.1| ≤ V := by
        have e : (y : ℝ) - r2 * s.SRO.1 = r1 * ((s.SRO.1 : ℝ) - r2 * s.SRO.2.1) +
            ((kNom.2.1 : ℝ) * s.dSRO.1 + kNom.2.2 * s.dSRO.2.1) := by rw [hy']; ring
        rw [e]
        refine (abs_add_le _ _).trans ?_
        rw [abs_mul, abs_of_nonneg (h0.trans h21)]
        have e2 : ((|kNom.2.1| + |kNom.2.2| : ℚ) : ℝ) * U = V * (1 - r1) := by
          rw [hV]; field_simp
        have := mul_le_mul_of_nonneg_left i3 (h0.trans h21)
        linarith
      refine ⟨hdU, i1, hv, ?_, by ring⟩
      have e : (y : ℝ) = r2 * s.SRO.1 + (y - r2 * s.SRO.1) := by ring
      rw [e]
      refine (abs_add_le _ _).trans ?_
      rw [abs_mul, abs_of_nonneg h0]
      have := mul_le_mul_of_nonneg_left i4 h0
      have e3 : V / (1 - r2) = r2 * (V / (1 - r2)) + V := by field_simp; ring
      linarith
  obtain ⟨_, _, _, k4, k5⟩ := key h hb
  rw [k5]
  have e : V / (1 - r2) = ((imcGain * U : ℚ) : ℝ) := by
    have : (1 - r1) * (1 - r2) = ((1 + kDen.1 + kDen.2 : ℚ) : ℝ) := by
      push_cast
      linear_combination (-1 : ℝ) * hs + hp
    rw [hV, div_div, this]
    unfold imcGain
    push_cast
    ring
  rw [e] at k4
  exact_mod_cast k4

/-! ## Peak search -/

theorem argmax_aux (l : List ℚ) : ∀ (pre : List ℚ) (best : ℚ × Nat),
    (best.2 < pre.length ∧ pre[best.2]? = some best.1 ∧ (∀ v ∈ pre, v ≤ best.1) ∧
      ∀ (j : Nat), j < best.2 → ∀ v, pre[j]? = some v → v < best.1) →
    let r := (l.zipIdx pre.length).foldl
      (fun (best : ℚ × Nat) (v : ℚ × Nat) => if v.1 > best.1 then v else best) best
    r.2 < (pre ++ l).length ∧ (pre ++ l)[r.2]? = some r.1 ∧ (∀ v ∈ pre ++ l, v ≤ r.1) ∧
      ∀ (j : Nat), j < r.2 → ∀ v, (pre ++ l)[j]? = some v → v < r.1 := by
  induction l with
  | nil => intro pre best h; simpa using h
  | cons x r ih =>
    intro pre best ⟨h1, h2, h3, h4⟩
    simp only [List.zipIdx_cons, List.foldl_cons]
    have e : pre ++ x :: r = (pre ++ [x]) ++ r := by simp
    rw [e, show pre.length + 1 = (pre ++ [x]).length by simp]
    by_cases hx : x > best.1
    · rw [if_pos hx]
      apply ih
      refine ⟨by simp, by simp, ?_, ?_⟩
      · intro v hv
        rcases List.mem_append.1 hv with hv | hv
        · exact (h3 v hv).trans hx.le
        · simp at hv; rw [hv]
      · intro j hj v hv
        rw [List.getElem?_append_left hj] at hv
        exact lt_of_le_of_lt (h3 v (List.mem_of_getElem? hv)) hx
    · rw [if_neg hx]
      apply ih
      refine ⟨by simp; omega, by rw [List.getElem?_append_left h1]; exact h2, ?_, ?_⟩
      · intro v hv
        rcases List.mem_append.1 hv with hv | hv
        · exact h3 v hv
        · simp at hv; rw [hv]; exact not_lt.1 hx
      · intro j hj v hv
        rw [List.getElem?_append_left (by omega)] at hv
        exact h4 j hj v hv

/-- `argmaxFirst` is the position of the first maximum. -/
theorem argmaxFirst_spec {y : List ℚ} (hy : y ≠ []) :
    ∃ m, y[argmaxFirst y]? = some m ∧ (∀ v ∈ y, v ≤ m) ∧
      ∀ (j : Nat), j < argmaxFirst y → ∀ v, y[j]? = some v → v < m := by
  cases y with
  | nil => exact absurd rfl hy
  | cons x r =>
    have := argmax_aux r [x] (x, 0) (by simp)
    simp only at this
    obtain ⟨h1, h2, h3, h4⟩ := this
    have e : argmaxFirst (x :: r) = ((r.zipIdx [x].length).foldl
      (fun (best : ℚ × Nat) (v : ℚ × Nat) => if v.1 > best.1 then v else best) (x, 0)).2 := by
      unfold argmaxFirst
      simp [List.zipIdx_cons]
    rw [e]
    exact ⟨_, h2, h3, h4⟩

theorem pyGet_some {α : Type} {l : List α} {i : Nat} {v : α} (h : l[i]? = some v) :
    pyGet l (i : Int) = .ok v := by
  unfold pyGet
  simp only
  rw [if_neg (by omega : ¬ ((i : Int) < 0)), if_neg (by omega : ¬ ((i : Int) < 0)), Int.toNat_natCast, h]

/-- The interpolation is always defined and moves by at most half a step. -/
theorem peakFrac_ok {y : List ℚ} (hy : y ≠ []) :
    ∃ r, peakFrac y = .ok r ∧ -(1 / 2) ≤ r ∧ r ≤ 1 / 2 ∧
      ((argmaxFirst y = 0 ∨ argmaxFirst y = y.length - 1) → r = 0) := by
  obtain ⟨m, h1, h2, h3⟩ := argmaxFirst_spec hy
  unfold peakFrac
  simp only
  by_cases hc : argmaxFirst y = 0 ∨ argmaxFirst y = y.length - 1
  · rw [if_pos hc]
    exact ⟨0, rfl, by norm_num, by norm_num, fun _ => rfl⟩
  · rw [if_neg hc]
    push Not at hc
    obtain ⟨hc0, hc1⟩ := hc
    have hlt : argmaxFirst y < y.length := by
      by_contra hge
      rw [List.getElem?_eq_none (by omega)] at h1
      cases h1
    have e0 : ((argmaxFirst y : Int) - 1) = ((argmaxFirst y - 1 : Nat) : Int) := by omega
    have g0 : y[argmaxFirst y - 1]? = some y[argmaxFirst y - 1] := List.getElem?_eq_getElem (by omega)
    have g2 : y[argmaxFirst y + 1]? = some (y[argmaxFirst y + 1]'(by omega)) :=
      List.getElem?_eq_getElem (by omega)
    have a0 := h3 (argmaxFirst y - 1) (by omega) _ g0
    have a2 := h2 _ (List.mem_of_getElem? g2)
    set y0 := y[argmaxFirst y - 1] with hy0
    set y2 := y[argmaxFirst y + 1]'(by omega) with hy2
    have p0 : pyGet y ((argmaxFirst y : Int) - 1) = .ok y0 := by rw [e0]; exact pyGet_some g0
    have p1 : pyGet y (argmaxFirst y : Int) = .ok m := pyGet_some h1
    have p2 : pyGet y ((argmaxFirst y : Int) + 1) = .ok y2 := by
      have : ((argmaxFirst y : Int) + 1) = ((argmaxFirst y + 1 : Nat) : Int) := by omega
      rw [this]; exact pyGet_some g2
    rw [p0]
    change ∃ r, (pyGet y (argmaxFirst y : Int) >>= fun y1 => pyGet y ((argmaxFirst y : Int) + 1) >>=
      fun y2 => parabolaFrac y0 y1 y2) = _ ∧ _
    rw [p1]
    change ∃ r, (pyGet y ((argmaxFirst y : Int) + 1) >>= fun y2 => parabolaFrac y0 m y2) = _ ∧ _
    rw [p2]
    change ∃ r, parabolaFrac y0 m y2 = _ ∧ _
    have hden : 0 < 2 * m - y2 - y0 := by linarith
    unfold parabolaFrac
    rw [if_neg hden.ne']
    refine ⟨_, rfl, ?_, ?_, ?_⟩
    · rw [div_div, le_div_iff₀ (by linarith)]; linarith
    · rw [div_div, div_le_iff₀ (by linarith)]; linarith
    · intro h; rcases h with h | h
      · exact absurd h hc0
      · exact absurd h hc1

/-! ## Phase transform -/

theorem phat_norm_le {mn : ℝ} (hm : 0 < mn) (x1 x2 : ℂ) : ‖phatBin mn x1 x2‖ ≤ 1 := by
  unfold phatBin
  simp only
  rw [norm_div, Complex.norm_real, Real.norm_eq_abs]
  split_ifs with h
  · rw [abs_of_pos hm, div_le_one hm]; exact h.le
  · rw [abs_of_nonneg (norm_nonneg _), div_le_one (lt_of_lt_of_le hm (not_lt.1 h))]

theorem phat_norm_eq {mn : ℝ} (hm : 0 < mn) {x1 x2 : ℂ} (h : mn ≤ ‖x1 * star x2‖) :
    ‖phatBin mn x1 x2‖ = 1 := by
  unfold phatBin
  simp only
  rw [if_neg (not_lt.2 h), norm_div, Complex.norm_real, Real.norm_eq_abs,
    abs_of_nonneg (norm_nonneg _), div_self (lt_of_lt_of_le hm h).ne']

theorem phat_gain {mn : ℝ} {g1 g2 : ℝ} (h1 : 0 < g1) (h2 : 0 < g2) {x1 x2 : ℂ}
    (ha : mn ≤ ‖x1 * star x2‖) (hb : mn ≤ ‖(g1 * x1) * star ((g2 : ℂ) * x2)‖) :
    phatBin mn (g1 * x1) (g2 * x2) = phatBin mn x1 x2 := by
  unfold phatBin
  simp only
  rw [if_neg (not_lt.2 ha), if_neg (not_lt.2 hb)]
  have e : (g1 * x1) * star ((g2 : ℂ) * x2) = ((g1 * g2 : ℝ) : ℂ) * (x1 * star x2) := by
    rw [star_mul']
    have : star (g2 : ℂ) = (g2 : ℂ) := Complex.conj_ofReal g2
    rw [this]; push_cast; ring
  have hg : 0 < g1 * g2 := mul_pos h1 h2
  rw [e, norm_mul, Complex.norm_real, Real.norm_eq_abs, abs_of_pos hg,
    Complex.ofReal_mul (g1 * g2) ‖x1 * star x2‖]
  rw [mul_div_mul_left]
  exact_mod_cast hg.ne'

theorem phat_swap (mn : ℝ) (x1 x2 : ℂ) : phatBin mn x2 x1 = star (phatBin mn x1 x2) := by
  unfold phatBin
  simp only
  have e : star (x1 * star x2) = x2 * star x1 := by rw [star_mul, star_star]
  have en : ‖x2 * star x1‖ = ‖x1 * star x2‖ := by rw [← e, norm_star]
  rw [en, star_div₀, e]
  congr 1
  exact (Complex.conj_ofReal _).symm

theorem phatAvg_norm {al : ℝ} (h0 : 0 ≤ al) (h1 : al ≤ 1) (l : List ℂ) (hl : ∀ v ∈ l, ‖v‖ ≤ 1) :
    ‖phatAvg al l‖ ≤ 1 := by
  cases l with
  | nil => simp [phatAvg]
  | cons x r =>
    unfold phatAvg
    have : ∀ (r : List ℂ) (a : ℂ), ‖a‖ ≤ 1 → (∀ v ∈ r, ‖v‖ ≤ 1) →
        ‖r.foldl (fun a v => (al : ℂ) * a + ((1 - al : ℝ) : ℂ) * v) a‖ ≤ 1 := by
      intro r
      induction r with
      | nil => intro a ha _; simpa using ha
      | cons v r ih =>
        intro a ha hr
        rw [List.foldl_cons]
        apply ih
        · refine (norm_add_le _ _).trans ?_
          rw [norm_mul, norm_mul, Complex.norm_real, Complex.norm_real, Real.norm_eq_abs,
            Real.norm_eq_abs, abs_of_nonneg h0, abs_of_nonneg (by linarith)]
          have hv := hr v (by simp)
          nlinarith [norm_nonneg a, norm_nonneg v]
        · intro w hw; exact hr w (by simp [hw])
    exact this r x (hl x (by simp)) (fun v hv => hl v (by simp [hv]))

end Danse
