import Verif.Proofs.Sro5

/-!
# Property C71: the coherence-drift estimator

`resProd`, `flagRotate`, `cohAverage`, `lsEstimate` model `cohdrift_sro_estimation` (d_sros.py 19-95);
`coherence` the instantaneous coherences it is called with. The golden-section search of the third
party package is not modelled: (b) and (c) say what it is given.
-/

namespace Danse

/-- C71 (a): instantaneous coherences carry phase only. -/
theorem C71_unit {y0 yq : ℂ} (h0 : y0 ≠ 0) (hq : yq ≠ 0) : ‖coherence y0 yq‖ = 1 :=
  coherence_norm h0 hq

example : ‖coherence (3 + Complex.I) (-2)‖ = 1 :=
  C71_unit (by intro h; simpa using congrArg Complex.im h) (by norm_num)

/-- C71 (b): suppose that at both frames the neighbour's spectrum is the local one through the same
transfer function, except that in the later frame it is delayed by `delay` more samples, and that the
buffer flags in between add up to `D`. Then the averaged product of the first round is the spectrum of
a unit impulse at lag `-(delay + D)`: the time-domain search sees exactly one peak, at the lag to be
estimated. -/
theorem C71_impulse {N P : Nat} (hP : 2 ≤ P) (hN : N = 2 * (P - 1)) {a b h : Nat → ℂ}
    (ha : ∀ κ < P, a κ ≠ 0) (hb : ∀ κ < P, b κ ≠ 0) (hh : ∀ κ < P, h κ ≠ 0) (delay D : Int)
    (alpha : ℝ) (avg : List ℂ) :
    let wPri := (List.range P).map fun κ => coherence (b κ) (h κ * b κ)
    let wPos := (List.range P).map fun κ => coherence (a κ) (h κ * a κ * phaseFactor N κ (delay : ℝ))
    idft (Complex.exp (2 * Real.pi * Complex.I / N)) N
        (cohAverage alpha true avg (flagRotate (D : ℝ) (resProd wPos wPri))) =
      circDelay N (-(delay + D)) (1 :: List.replicate (N - 1) 0) := by
  intro wPri wPos
  have key := pure_drift (N := N) (P := P) hP hN (wPos := wPos) (wPri := wPri) (by simp [wPos])
    (by simp [wPri]) (d := -delay) (D := D) (by
      intro κ hκ
      unfold prodAt
      have e1 : at0 wPos κ = coherence (a κ) (h κ * a κ * phaseFactor N κ (delay : ℝ)) :=
        at0_range_map hκ
      have e2 : at0 wPri κ = coherence (b κ) (h κ * b κ * 1) := by
        rw [mul_one]; exact at0_range_map hκ
      rw [e1, e2, coherence_eq _ _ _ (phaseFactor_norm _ _ _) (ha κ hκ) (hh κ hκ),
        coherence_eq _ _ _ (by simp) (hb κ hκ) (hh κ hκ)]
      have hnh : (‖h κ‖ : ℂ) ≠ 0 := by exact_mod_cast norm_ne_zero_iff.mpr (hh κ hκ)
      have e3 : star (h κ) * h κ = (‖h κ‖ : ℂ) ^ 2 := by
        have := Complex.normSq_eq_conj_mul_self (z := h κ)
        rw [Complex.normSq_eq_norm_sq] at this
        rw [← Complex.ofReal_pow, this]; rfl
      have e4 : star (phaseFactor N κ (delay : ℝ)) = phaseFactor N κ ((-delay : Int) : ℝ) := by
        unfold phaseFactor
        change (starRingEnd ℂ) _ = _
        rw [← Complex.exp_conj]
        congr 1
        simp only [map_mul, map_div₀, map_neg, map_one, Complex.conj_I, Complex.conj_ofReal, map_natCast,
          map_ofNat]
        push_cast; ring
      rw [← e4, star_one, mul_one, star_div₀, star_star]
      have e5 : star ((‖h κ‖ : ℝ) : ℂ) = ((‖h κ‖ : ℝ) : ℂ) := Complex.conj_ofReal _
      rw [e5]
      calc star (h κ) / (‖h κ‖ : ℂ) * star (phaseFactor N κ (delay : ℝ)) * (h κ / (‖h κ‖ : ℂ))
          = star (h κ) * h κ / (‖h κ‖ : ℂ) ^ 2 * star (phaseFactor N κ (delay : ℝ)) := by
            field_simp
        _ = star (phaseFactor N κ (delay : ℝ)) := by
            rw [e3, div_self (pow_ne_zero 2 hnh), one_mul])
  unfold cohAverage
  rw [if_pos rfl, key, neg_add_rev]
  congr 1
  ring

example : (fun (N : Nat) => idft (Complex.exp (2 * Real.pi * Complex.I / N)) N
      (cohAverage 0.95 true [] (flagRotate ((0 : Int) : ℝ) (resProd
        ((List.range 3).map fun κ => coherence 2 (1 * 2 * phaseFactor N κ ((1 : Int) : ℝ)))
        ((List.range 3).map fun _ => coherence Complex.I (1 * Complex.I)))))) 4 =
    circDelay 4 (-(1 + 0)) [1, 0, 0, 0] :=
  C71_impulse (N := 4) (P := 3) (by norm_num) rfl (a := fun _ => 2) (b := fun _ => Complex.I)
    (h := fun _ => 1) (by simp) (by simp) (by simp) 1 0 0.95 []

example : circDelay 4 (-(1 + 0)) [1, 0, 0, 0] = [0, 0, 0, (1 : ℚ)] := by decide +kernel

/-- C71 (b'): so, if the search returns the lag of the peak whenever the product is the spectrum of a
single unit impulse (at a lag of less than half a frame), the golden-section estimate is the drift in
samples, flags included, over the `ld * Ns` samples between the two frames: with its sign. -/
theorem C71_gs {N P : Nat} (hP : 2 ≤ P) (hN : N = 2 * (P - 1)) {a b h : Nat → ℂ}
    (ha : ∀ κ < P, a κ ≠ 0) (hb : ∀ κ < P, b κ ≠ 0) (hh : ∀ κ < P, h κ ≠ 0) (delay D : Int)
    (alpha : ℝ) (avg : List ℂ) (ld Ns : Nat) {search : List ℂ → ℝ}
    (hs : ∀ (x : List ℂ) (τ : Int), 2 * |τ| < N →
      idft (Complex.exp (2 * Real.pi * Complex.I / N)) N x = circDelay N τ (1 :: List.replicate (N - 1) 0) →
      search x = τ) (hd : 2 * |delay + D| < N) :
    let wPri := (List.range P).map fun κ => coherence (b κ) (h κ * b κ)
    let wPos := (List.range P).map fun κ => coherence (a κ) (h κ * a κ * phaseFactor N κ (delay : ℝ))
    gsEstimate search ld Ns (cohAverage alpha true avg (flagRotate (D : ℝ) (resProd wPos wPri))) =
      ((delay + D : Int) : ℝ) / (ld * Ns) := by
  intro wPri wPos
  have h1 := hs _ _ (by rw [abs_neg]; exact hd) (C71_impulse hP hN ha hb hh delay D alpha avg)
  unfold gsEstimate
  rw [h1]
  push_cast
  rw [neg_neg]

/-- A search as `C71_gs` assumes it exists, for every frame length: different lags of less than half a
frame have different impulses. -/
theorem C71_gs_search_exists (N : Nat) : ∃ search : List ℂ → ℝ, ∀ (x : List ℂ) (τ : Int), 2 * |τ| < N →
      idft (Complex.exp (2 * Real.pi * Complex.I / N)) N x = circDelay N τ (1 :: List.replicate (N - 1) 0) →
      search x = τ := by
  classical
  have inj : ∀ τ τ' : Int, 2 * |τ| < N → 2 * |τ'| < N →
      circDelay N τ (1 :: List.replicate (N - 1) (0 : ℂ)) = circDelay N τ' (1 :: List.replicate (N - 1) 0) →
      τ = τ' := by
    intro τ τ' h1 h2 h
    have hN : 0 < N := by have := abs_nonneg τ; omega
    have h3 := Int.emod_nonneg τ (show (N : Int) ≠ 0 by omega)
    have h4 := Int.emod_lt_of_pos τ (show (0 : Int) < N by omega)
    have ht : (τ % N).toNat < N := by omega
    have e := congrArg (fun l => at0 l (τ % N).toNat) h
    simp only [at0_circDelay ht, Int.toNat_of_nonneg h3] at e
    have e0 : (τ % N - τ) % (N : Int) = 0 := by rw [Int.sub_emod, Int.emod_emod, ← Int.sub_emod]; simp
    rw [e0] at e
    have h5 := Int.emod_nonneg (τ % N - τ') (show (N : Int) ≠ 0 by omega)
    have h6 := Int.emod_lt_of_pos (τ % N - τ') (show (0 : Int) < N by omega)
    have e7 : (τ % N - τ') % (N : Int) = 0 := by
      by_contra hne
      obtain ⟨m, hm⟩ : ∃ m, ((τ % N - τ') % (N : Int)).toNat = m + 1 := ⟨_, (Nat.succ_pred (by omega)).symm⟩
      rw [hm] at e
      simp [at0] at e
      rcases lt_or_ge m (N - 1) with hl | hl
      · rw [List.getElem?_replicate, if_pos hl] at e; simp at e
      · rw [List.getElem?_replicate, if_neg (by omega)] at e; simp at e
    rw [Int.sub_emod, Int.emod_emod, ← Int.sub_emod] at e7
    obtain ⟨c, hc⟩ := Int.dvd_of_emod_eq_zero e7
    have b1 : |τ - τ'| < N := by
      have := abs_sub τ τ'
      omega
    have hc0 : c = 0 := by
      by_contra hne
      have h8 : (1 : Int) ≤ |c| := Int.one_le_abs hne
      rw [hc, abs_mul, Nat.abs_cast] at b1
      nlinarith
    rw [hc0] at hc
    omega
  refine ⟨fun x => if h : ∃ τ : Int, 2 * |τ| < N ∧ idft (Complex.exp (2 * Real.pi * Complex.I / N)) N x =
    circDelay N τ (1 :: List.replicate (N - 1) 0) then (h.choose : ℝ) else 0, fun x τ h1 h2 => ?_⟩
  have hex : ∃ τ : Int, 2 * |τ| < N ∧ idft (Complex.exp (2 * Real.pi * Complex.I / N)) N x =
    circDelay N τ (1 :: List.replicate (N - 1) 0) := ⟨τ, h1, h2⟩
  simp only [dif_pos hex]
  exact_mod_cast inj _ _ hex.choose_spec.1 h1 (hex.choose_spec.2.symm.trans h2)

/-- Rounds of estimation: the first one without averaging. -/
noncomputable def cohRounds (alpha : ℝ) : List (List ℂ) → List ℂ
  | [] => []
  | r :: rs => rs.foldl (fun avg r => cohAverage alpha false avg r) (cohAverage alpha true [] r)

/-- C71 (c): if the products at frequency zero and at the Nyquist frequency are real, as they are for
real signals, then after any number of rounds the averaged product is the spectrum of a real
sequence. -/
theorem C71_real {N P : Nat} (hP : 2 ≤ P) (hN : N = 2 * (P - 1)) (alpha : ℝ)
    {ws : List (List ℂ × List ℂ × Int)} (hne : ws ≠ [])
    (hlen : ∀ w ∈ ws, w.1.length = P ∧ w.2.1.length = P)
    (hreal : ∀ w ∈ ws, (prodAt w.1 w.2.1 0).im = 0 ∧ (prodAt w.1 w.2.1 (P - 1)).im = 0) :
    ∀ v ∈ idft (Complex.exp (2 * Real.pi * Complex.I / N)) N
      (cohRounds alpha (ws.map fun w => flagRotate (w.2.2 : ℝ) (resProd w.1 w.2.1))), v.im = 0 := by
  have hN0 : 0 < N := by omega
  set ζ := Complex.exp (2 * Real.pi * Complex.I / N) with hζ
  have r : DftRoot ζ N := dft_root N hN0
  let Herm : List ℂ → Prop := fun X => X.length = N ∧ ∀ k < N, at0 X ((N - k) % N) = star (at0 X k)
  have hone : ∀ w ∈ ws, Herm (flagRotate (w.2.2 : ℝ) (resProd w.1 w.2.1)) := by
    intro w hw
    obtain ⟨l1, l2⟩ := hlen w hw
    obtain ⟨q1, q2⟩ := hreal w hw
    have hl : (resProd w.1 w.2.1).length = N := by rw [resProd_length l1 l2, hN]
    refine ⟨by rw [flagRotate_length, hl], fun k hk => ?_⟩
    have hm : (N - k) % N < N := Nat.mod_lt _ hN0
    have hre : ∀ z : ℂ, z.im = 0 → star z = z := fun z hz => Complex.conj_eq_iff_im.mpr hz
    have e1 : ∀ j : Nat, Complex.exp (Complex.I * 2 * Real.pi / (resProd w.1 w.2.1).length * j *
        ((w.2.2 : ℝ) : ℂ)) = ζ ^ ((j : Int) * w.2.2) := by
      intro j
      rw [hl, hζ, ← Complex.exp_int_mul]
      congr 1; push_cast; ring
    rw [at0_flagRotate, at0_flagRotate, e1, e1, star_mul', star_zpow₀, r.unit, inv_zpow']
    have e2 : ζ ^ ((((N - k) % N : Nat) : Int) * w.2.2) = ζ ^ (-((k : Int) * w.2.2)) := by
      apply zpow_congr_mod r
      rcases Nat.eq_zero_or_pos k with rfl | hk0
      · simp
      · rw [Nat.mod_eq_of_lt (by omega), Nat.cast_sub hk.le]
        exact ⟨w.2.2, by ring⟩
    rw [e2]
    congr 1
    rw [at0_resProd l1 l2 (by omega), at0_resProd l1 l2 (by omega)]
    rcases Nat.eq_zero_or_pos k with rfl | hk0
    · rw [Nat.sub_zero, Nat.mod_self, if_pos (by omega), hre _ q1]
    · rw [Nat.mod_eq_of_lt (by omega)]
      rcases Nat.lt_trichotomy k (P - 1) with hlt | heq | hgt
      · rw [if_neg (by omega), if_pos hlt]
        congr 2; omega
      · rw [if_neg (by omega), if_neg (by omega), show 2 * (P - 1) - (N - k) = P - 1 by omega,
          show 2 * (P - 1) - k = P - 1 by omega, star_star, hre _ q2]
      · rw [if_pos (by omega), if_neg (by omega), star_star]
        congr 1; omega
  have hall : ∀ rs : List (List ℂ), (∀ x ∈ rs, Herm x) → ∀ avg, Herm avg →
      Herm (rs.foldl (fun avg r => cohAverage alpha false avg r) avg) := by
    intro rs
    induction rs with
    | nil => intro _ avg h; exact h
    | cons x rs ih =>
      intro hx avg ha
      rw [List.foldl_cons]
      apply ih (fun y hy => hx y (List.mem_cons_of_mem _ hy))
      obtain ⟨xl, xh⟩ := hx x List.mem_cons_self
      obtain ⟨al, ah⟩ := ha
      refine ⟨by simp [cohAverage, al, xl], fun k hk => ?_⟩
      have hm : (N - k) % N < N := Nat.mod_lt _ hN0
      have hz : ∀ j < N, at0 (cohAverage alpha false avg x) j =
          (alpha : ℂ) * at0 avg j + ((1 - alpha : ℝ) : ℂ) * at0 x j := by
        intro j hj
        unfold cohAverage
        rw [if_neg (by simp)]
        exact at0_zipWith (by omega) (by omega)
      rw [hz _ hm, hz _ hk, ah k hk, xh k hk, star_add, star_mul', star_mul']
      congr 2
      · exact (Complex.conj_ofReal _).symm
      · exact (Complex.conj_ofReal _).symm
  have hfin : Herm (cohRounds alpha (ws.map fun w => flagRotate (w.2.2 : ℝ) (resProd w.1 w.2.1))) := by
    rcases ws with _ | ⟨w, ws⟩
    · exact absurd rfl hne
    · simp only [List.map_cons, cohRounds]
      apply hall
      · intro x hx
        obtain ⟨w', hw', rfl⟩ := List.mem_map.mp hx
        exact hone w' (List.mem_cons_of_mem _ hw')
      · have : cohAverage alpha true [] (flagRotate (w.2.2 : ℝ) (resProd w.1 w.2.1)) =
            flagRotate (w.2.2 : ℝ) (resProd w.1 w.2.1) := rfl
        rw [this]
        exact hone w List.mem_cons_self
  intro v hv
  obtain ⟨t, ht, hvt⟩ := List.getElem_of_mem hv
  have ht' : t < N := by rwa [idft_length] at ht
  have := idft_real r hfin.2 t ht'
  have hat : at0 (idft ζ N (cohRounds alpha (ws.map fun w => flagRotate (w.2.2 : ℝ)
      (resProd w.1 w.2.1)))) t = v := by
    rw [at0, List.getD_eq_getElem?_getD, List.getElem?_eq_getElem ht, hvt]; rfl
  rw [hat] at this
  exact Complex.conj_eq_iff_im.mp this

/-- The hypotheses of (c) are met, e.g. by two rounds of unequal coherences with three bins. -/
example : ∃ ws : List (List ℂ × List ℂ × Int), ws.length = 2 ∧
    (∀ w ∈ ws, w.1.length = 3 ∧ w.2.1.length = 3) ∧
    (∀ w ∈ ws, (prodAt w.1 w.2.1 0).im = 0 ∧ (prodAt w.1 w.2.1 (3 - 1)).im = 0) :=
  ⟨[([1, Complex.I, -1], [1, 1, 1], 0), ([1, 1, 1], [1, Complex.I, 1], 2)], rfl, by simp,
    by simp [prodAt, at0]⟩

/-- C71 (d): averaging rounds that all give the same product returns that product. -/
theorem C71_steady (alpha : ℝ) (r : List ℂ) (n : Nat) :
    cohRounds alpha (List.replicate (n + 1) r) = r := by
  rw [List.replicate_succ]
  simp only [cohRounds]
  have h1 : cohAverage alpha false r r = r := by
    unfold cohAverage
    rw [if_neg (by simp)]
    apply List.ext_getElem
    · simp
    · intro i _ _
      simp only [List.getElem_zipWith]
      push_cast; ring
  have h0 : cohAverage alpha true [] r = r := rfl
  rw [h0]
  induction n with
  | zero => rfl
  | succ n ih => rw [List.replicate_succ, List.foldl_cons, h1, ih]

/-- Each further round moves every bin of the average by the fraction `1 - alpha` towards the new
product. -/
theorem C71_average (alpha : ℝ) {avg r : List ℂ} (hl : avg.length = r.length) {k : Nat}
    (hk : k < r.length) :
    at0 (cohAverage alpha false avg r) k = at0 avg k + ((1 - alpha : ℝ) : ℂ) * (at0 r k - at0 avg k) := by
  unfold cohAverage
  rw [if_neg (by simp), at0_zipWith (by omega) hk]
  push_cast; ring

/-- C71 (e): the least-squares variant on an exact drift of `D` samples (less than one) between the
frames. The regressor is paired with the mirrored, negative frequencies and has half the slope of
the phase; the two cancel only asymptotically. The estimate is the offset times
`2 P (P + 1) / ((P - 1) (2 P - 1))`, with `P` the number of bins. -/
theorem C71_ls {N P ld Ns : Nat} (hP : 2 ≤ P) (hN : N = 2 * (P - 1)) (hld : 0 < ld) (hNs : 0 < Ns)
    {wPos wPri : List ℂ} (h1 : wPos.length = P) (h2 : wPri.length = P) {D : ℝ} (hD : |D| < 1)
    (h : ∀ κ < P, at0 wPos κ * star (at0 wPri κ) = phaseFactor N κ D) :
    lsEstimate ld Ns P (resProd wPos wPri) =
      .ok (-(D / (ld * Ns)) * (2 * P * (P + 1) / ((P - 1) * (2 * P - 1)))) :=
  ls_exact hP hN hld hNs h1 h2 hD h

/-- C71 (f), disagreement: the least-squares variant is therefore never exact: for every number of
bins it overestimates the magnitude of a non-zero offset, e.g. by 140 % for three bins. -/
theorem C71_refuted_ls_exact {N P ld Ns : Nat} (hP : 2 ≤ P) (hN : N = 2 * (P - 1)) (hld : 0 < ld)
    (hNs : 0 < Ns) {wPos wPri : List ℂ} (h1 : wPos.length = P) (h2 : wPri.length = P) {D : ℝ}
    (hD0 : D ≠ 0) (hD : |D| < 1) (h : ∀ κ < P, at0 wPos κ * star (at0 wPri κ) = phaseFactor N κ D) :
    ∃ e, lsEstimate ld Ns P (resProd wPos wPri) = .ok e ∧ |D / (ld * Ns)| < |e| := by
  refine ⟨_, C71_ls hP hN hld hNs h1 h2 hD h, ?_⟩
  rw [abs_mul, abs_neg]
  have hPr : (2 : ℝ) ≤ P := by exact_mod_cast hP
  have hld' : (0 : ℝ) < ld := by exact_mod_cast hld
  have hNs' : (0 : ℝ) < Ns := by exact_mod_cast hNs
  have hpos : 0 < |D / (ld * Ns)| := abs_pos.mpr (div_ne_zero hD0 (by positivity))
  have hfac : (1 : ℝ) < 2 * P * (P + 1) / ((P - 1) * (2 * P - 1)) := by
    rw [one_lt_div (by apply mul_pos <;> linarith)]
    nlinarith
  rw [abs_of_pos (show (0 : ℝ) < 2 * P * (P + 1) / ((P - 1) * (2 * P - 1)) by linarith)]
  nlinarith

example : ∃ (wPos wPri : List ℂ), wPos.length = 3 ∧ wPri.length = 3 ∧
    ∀ κ < 3, at0 wPos κ * star (at0 wPri κ) = phaseFactor 4 κ (1 / 2) :=
  ⟨(List.range 3).map fun κ => phaseFactor 4 κ (1 / 2), List.replicate 3 1, by simp, by simp, by
    intro κ hκ
    rw [at0_range_map hκ]
    have : at0 (List.replicate 3 (1 : ℂ)) κ = 1 := by
      interval_cases κ <;> rfl
    rw [this]; simp⟩

end Danse
