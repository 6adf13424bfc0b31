import Verif.Proofs.FwSnr
import Verif.Proofs.Evaluate
import Mathlib.Analysis.Complex.ExponentialBounds

/-! # C102: the frequency-weighted segmental SNR -/

namespace Danse

section
variable {c : FwCfg} {fs frameLen overlap : ℚ} {clean enh : List ℝ} {gamma : ℝ}

theorem FwCfg.For.even (hc : c.For fs frameLen overlap) : c.nfft = 2 * (c.nfft / 2) := by
  obtain ⟨m, h1, h2, h3⟩ := hc.nfft
  have h4 := hc.pos
  have h5 := hc.le
  cases m with
  | zero => simp at h2; omega
  | succ m => rw [h1, pow_succ]; omega

theorem FwCfg.For.clog (hc : c.For fs frameLen overlap) : 2 ^ Nat.clog 2 (2 * c.win) = c.nfft := by
  obtain ⟨m, h1, h2, h3⟩ := hc.nfft
  have h4 := hc.pos
  have h5 := hc.le
  rw [h1]
  congr 1
  apply le_antisymm
  · exact (Nat.clog_le_iff_le_pow (by norm_num)).mpr h2
  · by_contra h
    push Not at h
    have h6 : 2 ^ Nat.clog 2 (2 * c.win) * 2 ≤ 2 ^ m := by
      rw [← pow_succ]
      exact Nat.pow_le_pow_right (by norm_num) h
    have h7 := Nat.le_pow_clog (b := 2) (by norm_num) (2 * c.win)
    omega

theorem FwCfg.For.lens (hc : c.For fs frameLen overlap) :
    pyRoundInt (frameLen * fs) = c.win ∧ fwSkip overlap frameLen fs = c.skip :=
  ⟨pyRoundInt_spec hc.win.1 hc.win.2, hc.skip.symm⟩

theorem pySlice_take {T : Type} (x : List T) (n : Nat) : pySlice x 0 (n : Int) = x.take n := by
  have h : pySlice x ((0 : Nat) : Int) (n : Int) = (x.drop 0).take (n - 0) := pySlice_evalSeg x 0 n
  simpa using h

theorem frames_count {N w s : Nat} (hs : 0 < s) (h : w ≤ N) :
    pyInt ((N : ℚ) / ((s : Int) : ℚ) - ((w : Int) : ℚ) / ((s : Int) : ℚ)) = ((N - w) / s : Nat) := by
  have e : (N : ℚ) / ((s : Int) : ℚ) - ((w : Int) : ℚ) / ((s : Int) : ℚ) = ((N - w : Nat) : ℚ) / (s : ℚ) := by
    rw [Nat.cast_sub h]
    push_cast
    rw [sub_div]
  rw [e]
  unfold pyInt
  rw [if_pos (by positivity)]
  exact Rat.floor_natCast_div_natCast _ _

/-- C102 (a): the score of every frame. A signal of `N` samples, at least a frame and a shift, gets
`(N - win) / skip` scores; that of frame `t` is the formula of the specification on the signals with
the offset added, NaN if one of the two spectra vanishes or a critical band of the clean signal is
empty. -/
theorem C102_value (hc : c.For fs frameLen overlap) (hl : clean.length = enh.length)
    (hN : c.win + c.skip ≤ clean.length) :
    getFwsnrseg clean enh fs frameLen overlap gamma =
      .ok ((List.range ((clean.length - c.win) / c.skip)).map fun t =>
        open Classical in if c.total (offsetSig clean) t = 0 ∨ c.total (offsetSig enh) t = 0 ∨
            ∃ b ∈ fwBands, c.energy (offsetSig clean) t b = 0 then none
          else some (c.score gamma (offsetSig clean) (offsetSig enh) t)) := by
  obtain ⟨h1, h2⟩ := hc.lens
  have hp := hc.pos
  have hle := hc.le
  set M := (clean.length - c.win) / c.skip with hM
  have hM1 : 1 ≤ M := (Nat.le_div_iff_mul_le hp).mpr (by omega)
  have hM2 : M * c.skip + c.win ≤ clean.length := by
    have := Nat.div_mul_le_self (clean.length - c.win) c.skip
    rw [← hM] at this
    omega
  have hM3 : c.skip ≤ M * c.skip := Nat.le_mul_of_pos_left _ hM1
  unfold getFwsnrseg
  rw [if_neg (not_not.mpr hl)]
  simp only
  rw [h1, h2, if_neg (by omega : ¬ (c.skip : Int) = 0), List.length_map, frames_count hp (by omega), ← hM]
  have e1 : ((M : Nat) : Int) * (c.skip : Int) + ((c.win : Int) - c.skip) =
      ((M * c.skip + (c.win - c.skip) : Nat) : Int) := by
    rw [Nat.cast_add, Nat.cast_mul, Nat.cast_sub hle]
  rw [e1, pySlice_take, pySlice_take]
  have hlen : ((clean.map (· + fEps)).take (M * c.skip + (c.win - c.skip))).length =
      M * c.skip + (c.win - c.skip) := by
    rw [List.length_take, List.length_map]
    omega
  rw [if_neg, if_neg, hlen, Int.toNat_natCast, Int.toNat_natCast, hc.clog]
  · have e2 : ((((M * c.skip + (c.win - c.skip) : Nat) : Int) - ((c.win : Int) - c.skip)) / (c.skip : Int)).toNat =
        M := by
      have : ((M * c.skip + (c.win - c.skip) : Nat) : Int) - ((c.win : Int) - c.skip) = (M : Int) * c.skip := by
        rw [Nat.cast_add, Nat.cast_mul, Nat.cast_sub hle]; ring
      rw [this, Int.mul_ediv_cancel _ (by omega)]
      exact Int.toNat_natCast M
    rw [e2]
    congr 1
    refine List.map_congr_left fun t ht => ?_
    have ht := List.mem_range.mp ht
    have hg : ∀ z : List ℝ, z.length = clean.length → ∀ n < c.win,
        ((z.map (· + fEps)).take (M * c.skip + (c.win - c.skip))).getD (t * c.skip + n) 0 =
          offsetSig z (t * c.skip + n) := by
      intro z hz n hn
      have h3 : t * c.skip + c.skip ≤ M * c.skip := by
        have := Nat.mul_le_mul_right c.skip (by omega : t + 1 ≤ M)
        rwa [Nat.add_mul, one_mul] at this
      have h4 : t * c.skip + n < z.length := by omega
      unfold offsetSig fEps
      rw [List.getD_eq_getElem?_getD, List.getElem?_take, if_pos (by omega), List.getElem?_map,
        List.getElem?_eq_getElem h4, List.getD_eq_getElem?_getD, List.getElem?_eq_getElem h4]
      rfl
    have := fwFrame_eq (c := c) (by omega) (hc.freq ▸ hc.rate) hc.even gamma
      ((clean.map (· + fEps)).take (M * c.skip + (c.win - c.skip)))
      ((enh.map (· + fEps)).take (M * c.skip + (c.win - c.skip))) (offsetSig clean) (offsetSig enh) t
      (hg clean rfl) (hg enh hl.symm)
    rw [hc.freq] at this
    exact this
  · rw [hlen]
    push Not
    constructor <;> omega
  · intro h
    rw [h] at hlen
    simp at hlen
    omega

/-- C102 (b), refuted: that a signal as long as one frame can be scored. The last complete frame is never
used, and with fewer samples than a frame and a shift the call fails. -/
theorem C102_refuted_one_frame (hc : c.For fs frameLen overlap) (hN : clean.length < c.win + c.skip) :
    ∃ e, getFwsnrseg clean enh fs frameLen overlap gamma = .error e := by
  obtain ⟨h1, h2⟩ := hc.lens
  have hp := hc.pos
  have hle := hc.le
  unfold getFwsnrseg
  by_cases hl : clean.length = enh.length
  · rw [if_neg (not_not.mpr hl)]
    simp only
    rw [h1, h2, if_neg (by omega : ¬ (c.skip : Int) = 0)]
    generalize hnf : pyInt (((clean.map (· + fEps)).length : ℚ) / ((c.skip : Int) : ℚ) -
      ((c.win : Int) : ℚ) / ((c.skip : Int) : ℚ)) = nf
    by_cases h0 : pySlice (clean.map (· + fEps)) 0 (nf * (c.skip : Int) + ((c.win : Int) - c.skip)) = []
    · rw [if_pos h0]; exact ⟨_, rfl⟩
    · rw [if_neg h0, if_pos]
      · exact ⟨_, rfl⟩
      · left
        have hnf0 : nf ≤ 0 := by
          rw [← hnf, List.length_map]
          by_cases hw : c.win ≤ clean.length
          · rw [frames_count hp hw, Nat.div_eq_of_lt (by omega)]
            rfl
          · have hlt : (clean.length : ℚ) / ((c.skip : Int) : ℚ) - ((c.win : Int) : ℚ) / ((c.skip : Int) : ℚ) ≤ 0 := by
              rw [← sub_div]
              apply div_nonpos_of_nonpos_of_nonneg
              · have : (clean.length : ℚ) ≤ c.win := by exact_mod_cast (by omega : clean.length ≤ c.win)
                push_cast
                linarith
              · positivity
            calc pyInt _ ≤ pyInt ((0 : Int) : ℚ) := pyInt_mono (by rw [Int.cast_zero]; exact hlt)
              _ = 0 := pyInt_intCast 0
        have hneg : nf * (c.skip : Int) ≤ 0 := mul_nonpos_of_nonpos_of_nonneg hnf0 (by omega)
        by_cases hs : 0 ≤ nf * (c.skip : Int) + ((c.win : Int) - c.skip)
        · obtain ⟨n, hn⟩ := Int.eq_ofNat_of_zero_le hs
          rw [hn, pySlice_take, List.length_take]
          have : n < c.win := by omega
          omega
        · have hshort : nf ≠ 0 := by
            rintro rfl
            omega
          have hw : clean.length < c.win := by
            by_contra hw
            apply hshort
            rw [← hnf, List.length_map, frames_count hp (by omega), Nat.div_eq_of_lt (by omega)]
            rfl
          unfold pySlice
          rw [List.length_take, List.length_drop, List.length_map]
          omega
  · rw [if_pos hl]; exact ⟨_, rfl⟩

/-- C102 (c): every score that is not NaN lies between 0 and 35 dB. -/
theorem C102_range {r : List (Option ℝ)} (hc : c.For fs frameLen overlap)
    (h : getFwsnrseg clean enh fs frameLen overlap gamma = .ok r) : ∀ v, some v ∈ r → 0 ≤ v ∧ v ≤ 35 := by
  intro v hv
  by_cases hl : clean.length = enh.length
  · by_cases hN : c.win + c.skip ≤ clean.length
    · rw [C102_value hc hl hN] at h
      injection h with h
      rw [← h] at hv
      obtain ⟨t, _, ht⟩ := List.mem_map.mp hv
      split at ht
      · cases ht
      · injection ht with ht
        rw [← ht]
        unfold FwCfg.score
        exact ⟨le_min (by norm_num) (le_max_left _ _), min_le_left _ _⟩
    · obtain ⟨e, he⟩ := C102_refuted_one_frame (enh := enh) (gamma := gamma) hc (not_le.mp hN)
      rw [he] at h
      cases h
  · unfold getFwsnrseg at h
    rw [if_pos hl] at h
    cases h

theorem FwCfg.mag_congr {x y : Nat → ℝ} {t : Nat} (h : ∀ n < c.win, x (t * c.skip + n) = y (t * c.skip + n))
    (f : Nat) : c.mag x t f = c.mag y t f := by
  unfold FwCfg.mag
  congr 1
  exact Finset.sum_congr rfl fun n hn => by rw [h n (Finset.mem_range.mp hn)]

theorem FwCfg.total_congr {x y : Nat → ℝ} {t : Nat} (h : ∀ f, c.mag x t f = c.mag y t f) :
    c.total x t = c.total y t := Finset.sum_congr rfl fun f _ => h f

theorem FwCfg.energy_congr {x y : Nat → ℝ} {t : Nat} (h : ∀ f, c.mag x t f = c.mag y t f) (b : Nat × Nat) :
    c.energy x t b = c.energy y t b := by
  unfold FwCfg.energy
  rw [FwCfg.total_congr h]
  congr 1
  exact Finset.sum_congr rfl fun f _ => by rw [h f]

theorem FwCfg.score_congr {x y x' y' : Nat → ℝ} {t : Nat} (h : ∀ b, c.energy x t b = c.energy x' t b)
    (h' : ∀ b, c.energy y t b = c.energy y' t b) : c.score gamma x y t = c.score gamma x' y' t := by
  unfold FwCfg.score FwCfg.bandDb
  simp only [h, h']

/-- C102 (d): the score of frame `t` depends only on samples `t·skip` to `t·skip + win - 1` of the two
signals. -/
theorem C102_local {clean' enh' : List ℝ} {r r' : List (Option ℝ)} (hc : c.For fs frameLen overlap)
    (h : getFwsnrseg clean enh fs frameLen overlap gamma = .ok r)
    (h' : getFwsnrseg clean' enh' fs frameLen overlap gamma = .ok r') {t : Nat} (ht : t < r.length)
    (ht' : t < r'.length)
    (hx : ∀ n < c.win, clean.getD (t * c.skip + n) 0 = clean'.getD (t * c.skip + n) 0)
    (hy : ∀ n < c.win, enh.getD (t * c.skip + n) 0 = enh'.getD (t * c.skip + n) 0) : r[t] = r'[t] := by
  have get : ∀ {u v : List ℝ} {q : List (Option ℝ)}, getFwsnrseg u v fs frameLen overlap gamma = .ok q →
      q = (List.range ((u.length - c.win) / c.skip)).map fun t =>
        open Classical in if c.total (offsetSig u) t = 0 ∨ c.total (offsetSig v) t = 0 ∨
            ∃ b ∈ fwBands, c.energy (offsetSig u) t b = 0 then none
          else some (c.score gamma (offsetSig u) (offsetSig v) t) := by
    intro u v q hq
    by_cases hl : u.length = v.length
    · by_cases hN : c.win + c.skip ≤ u.length
      · rw [C102_value hc hl hN] at hq
        injection hq with hq
        exact hq.symm
      · obtain ⟨e, he⟩ := C102_refuted_one_frame (enh := v) (gamma := gamma) hc (not_le.mp hN)
        rw [he] at hq
        cases hq
    · unfold getFwsnrseg at hq
      rw [if_pos hl] at hq
      cases hq
  have m1 : ∀ f, c.mag (offsetSig clean) t f = c.mag (offsetSig clean') t f :=
    FwCfg.mag_congr fun n hn => by unfold offsetSig; rw [hx n hn]
  have m2 : ∀ f, c.mag (offsetSig enh) t f = c.mag (offsetSig enh') t f :=
    FwCfg.mag_congr fun n hn => by unfold offsetSig; rw [hy n hn]
  have e1 := get h
  have e2 := get h'
  subst e1 e2
  rw [List.getElem_map, List.getElem_map, List.getElem_range, List.getElem_range]
  simp only [FwCfg.total_congr m1, FwCfg.total_congr m2, FwCfg.energy_congr m1,
    FwCfg.score_congr (gamma := gamma) (FwCfg.energy_congr m1) (FwCfg.energy_congr m2)]

theorem FwCfg.mag_smul (g : ℝ) (x : Nat → ℝ) (t f : Nat) :
    c.mag (fun n => g * x n) t f = |g| * c.mag x t f := by
  unfold FwCfg.mag
  rw [← Real.norm_eq_abs, ← Complex.norm_real, ← norm_mul, Finset.mul_sum]
  congr 1
  refine Finset.sum_congr rfl fun n _ => ?_
  push_cast
  ring

theorem FwCfg.total_smul (g : ℝ) (x : Nat → ℝ) (t : Nat) :
    c.total (fun n => g * x n) t = |g| * c.total x t := by
  unfold FwCfg.total
  rw [Finset.mul_sum]
  exact Finset.sum_congr rfl fun f _ => FwCfg.mag_smul g x t f

theorem FwCfg.energy_smul {g : ℝ} (hg : g ≠ 0) (x : Nat → ℝ) (t : Nat) (b : Nat × Nat) :
    c.energy (fun n => g * x n) t b = c.energy x t b := by
  unfold FwCfg.energy
  rw [FwCfg.total_smul]
  simp only [FwCfg.mag_smul]
  rw [← mul_div_mul_left (∑ f ∈ Finset.range (c.nfft / 2), _) (c.total x t) (abs_ne_zero.mpr hg), Finset.mul_sum]
  congr 1
  exact Finset.sum_congr rfl fun f _ => by ring

/-- C102 (e): the scores are blind to a gain on the processed signal, and to its polarity (`g < 0`), up to the
offset of `2^-52` that is added to all samples. -/
theorem C102_gain (hc : c.For fs frameLen overlap) (hl : clean.length = enh.length)
    (hN : c.win + c.skip ≤ clean.length) {g : ℝ} (hg : g ≠ 0) :
    getFwsnrseg clean (enh.map fun v => g * (v + 1 / 2 ^ 52) - 1 / 2 ^ 52) fs frameLen overlap gamma =
      getFwsnrseg clean enh fs frameLen overlap gamma := by
  rw [C102_value hc hl hN, C102_value hc (by rw [List.length_map]; exact hl) hN]
  congr 1
  refine List.map_congr_left fun t ht => ?_
  have ht := List.mem_range.mp ht
  have hp := hc.pos
  have hb : (t + 1) * c.skip ≤ clean.length - c.win :=
    (Nat.mul_le_mul_right _ ht).trans (Nat.div_mul_le_self _ _)
  have m : ∀ f, c.mag (offsetSig (enh.map fun v => g * (v + 1 / 2 ^ 52) - 1 / 2 ^ 52)) t f =
      c.mag (fun n => g * offsetSig enh n) t f := by
    refine FwCfg.mag_congr fun n hn => ?_
    have : t * c.skip + n < enh.length := by
      rw [← hl]
      rw [Nat.add_mul, one_mul] at hb
      omega
    unfold offsetSig
    rw [List.getD_eq_getElem?_getD, List.getElem?_map, List.getElem?_eq_getElem this, List.getD_eq_getElem?_getD,
      List.getElem?_eq_getElem this]
    simp only [Option.map_some, Option.getD_some]
    ring
  have m0 : c.total (offsetSig (enh.map fun v => g * (v + 1 / 2 ^ 52) - 1 / 2 ^ 52)) t = 0 ↔
      c.total (offsetSig enh) t = 0 := by
    rw [FwCfg.total_congr m, FwCfg.total_smul, mul_eq_zero]
    exact or_iff_right (abs_ne_zero.mpr hg)
  have m1 : ∀ b, c.energy (offsetSig (enh.map fun v => g * (v + 1 / 2 ^ 52) - 1 / 2 ^ 52)) t b =
      c.energy (offsetSig enh) t b := fun b => by rw [FwCfg.energy_congr m, FwCfg.energy_smul hg]
  simp only [m0, FwCfg.score_congr (gamma := gamma) (x := offsetSig clean) (fun _ => rfl) m1]

theorem sum_pos_bands (w : Nat × Nat → ℝ) (h : ∀ b ∈ fwBands, 0 < w b) : 0 < (fwBands.map w).sum := by
  refine List.sum_pos _ (fun v hv => ?_) (by simp [fwBands])
  obtain ⟨b, hb, rfl⟩ := List.mem_map.mp hv
  exact h b hb

/-- C102 (f): a frame of a signal compared with itself gets the highest score if every critical band holds at
least a millionth of the spectrum. -/
theorem C102_identical (hc : c.For fs frameLen overlap) (hN : c.win + c.skip ≤ clean.length) {t : Nat}
    (ht : t < (clean.length - c.win) / c.skip)
    (hE : ∀ b ∈ fwBands, 1 / 10 ^ 6 ≤ c.energy (offsetSig clean) t b) :
    ∃ r, getFwsnrseg clean clean fs frameLen overlap gamma = .ok r ∧ r[t]? = some (some 35) := by
  refine ⟨_, C102_value hc rfl hN, ?_⟩
  rw [List.getElem?_map, List.getElem?_range ht]
  simp only [Option.map_some]
  have hEp : ∀ b ∈ fwBands, 0 < c.energy (offsetSig clean) t b := fun b hb =>
    lt_of_lt_of_le (by positivity) (hE b hb)
  have ht0 : c.total (offsetSig clean) t ≠ 0 := by
    intro h0
    have := hEp (500000, 700000) (by decide)
    unfold FwCfg.energy at this
    rw [h0, div_zero] at this
    exact lt_irrefl _ this
  rw [if_neg]
  · congr 2
    unfold FwCfg.score
    apply min_eq_left
    refine le_trans ?_ (le_max_right _ _)
    rw [le_div_iff₀ (sum_pos_bands _ fun b hb => Real.rpow_pos_of_pos (hEp b hb) _), ← List.sum_map_mul_left]
    refine List.sum_le_sum fun b hb => ?_
    rw [mul_comm]
    refine mul_le_mul_of_nonneg_left ?_ (Real.rpow_nonneg (hEp b hb).le _)
    unfold FwCfg.bandDb
    rw [sub_self, zero_pow (by norm_num), max_eq_left (by positivity)]
    have h1 : (4500 : ℝ) ≤ c.energy (offsetSig clean) t b ^ 2 / (1 / 2 ^ 52) := by
      rw [le_div_iff₀ (by positivity)]
      have : (1 / 10 ^ 6 : ℝ) ^ 2 ≤ c.energy (offsetSig clean) t b ^ 2 :=
        pow_le_pow_left₀ (by positivity) (hE b hb) 2
      refine le_trans ?_ this
      norm_num
    have h2 : (7 / 2 : ℝ) ≤ Real.logb 10 4500 := by
      rw [Real.le_logb_iff_rpow_le (by norm_num) (by norm_num)]
      have h3 : ((10 : ℝ) ^ (7 / 2 : ℝ)) ^ 2 = 10 ^ 7 := by
        rw [← Real.rpow_natCast, ← Real.rpow_mul (by norm_num)]
        norm_num
      by_contra h
      push Not at h
      have : (4500 : ℝ) ^ 2 < ((10 : ℝ) ^ (7 / 2 : ℝ)) ^ 2 := pow_lt_pow_left₀ h (by norm_num) (by norm_num)
      rw [h3] at this
      norm_num at this
    have h3 := Real.logb_le_logb_of_le (b := 10) (by norm_num) (by norm_num) h1
    linarith
  · rintro (h | h | ⟨b, hb, h⟩)
    · exact ht0 h
    · exact ht0 h
    · exact (hEp b hb).ne' h

/-- C102 (g), refuted: that speech at low sampling frequencies can be scored. Up to 6 kHz the highest critical
band (around 3.6 kHz) is empty for every signal, and every score is NaN. -/
theorem C102_refuted_low_rate {r : List (Option ℝ)} (hc : c.For fs frameLen overlap) (hfs : fs ≤ 6000)
    (hl : clean.length = enh.length) (hN : c.win + c.skip ≤ clean.length)
    (h : getFwsnrseg clean enh fs frameLen overlap gamma = .ok r) : r ≠ [] ∧ ∀ v ∈ r, v = none := by
  rw [C102_value hc hl hN] at h
  injection h with h
  subst h
  have hp := hc.pos
  constructor
  · intro h
    have := congrArg List.length h
    rw [List.length_map, List.length_range, List.length_nil] at this
    have h1 : 1 ≤ (clean.length - c.win) / c.skip := (Nat.le_div_iff_mul_le hp).mpr (by omega)
    omega
  · intro v hv
    obtain ⟨t, _, ht⟩ := List.mem_map.mp hv
    rw [← ht, if_pos]
    refine .inr (.inr ⟨(35976300, 3461360), by decide, ?_⟩)
    unfold FwCfg.energy
    rw [Finset.sum_eq_zero, zero_div]
    intro f hf
    have hf := Finset.mem_range.mp hf
    suffices h0 : c.weight (((35976300, 3461360) : Nat × Nat).1 / 10000) (((35976300, 3461360) : Nat × Nat).2 / 10000) f = 0 by
      rw [h0, zero_mul]
    have hrate := hc.rate
    have hn : 0 < c.nfft := by
      obtain ⟨m, hm, _⟩ := hc.nfft
      rw [hm]; positivity
    have hev := hc.even
    unfold FwCfg.weight
    simp only
    rw [if_neg, ]
    push Not
    rw [hc.freq]
    have key : (1700 / 1000 : ℝ) ^ 2 ≤ (((f : ℝ) - ⌊(((35976300 : Nat) : ℚ) / 10000) * c.nfft / fs⌋) /
        (((((3461360 : Nat) : ℚ) / 10000) * c.nfft / fs : ℚ) : ℝ)) ^ 2 := by
      refine le_trans (pow_le_pow_left₀ (by norm_num) ?_ 2) (le_of_eq (sq_abs _))
      rw [abs_div]
      have hbw : (0 : ℚ) < (((3461360 : Nat) : ℚ) / 10000) * c.nfft / fs := by positivity
      have hbw' : (0 : ℝ) < (((((3461360 : Nat) : ℚ) / 10000) * c.nfft / fs : ℚ) : ℝ) := by exact_mod_cast hbw
      rw [abs_of_pos hbw', le_div_iff₀ hbw']
      have hf2 : (2 * f + 2 : ℚ) ≤ c.nfft := by
        have : 2 * f + 2 ≤ c.nfft := by omega
        exact_mod_cast this
      have hfl := Int.lt_floor_add_one ((((35976300 : Nat) : ℚ) / 10000) * c.nfft / fs)
      have hq : (1700 / 1000 : ℚ) * ((((3461360 : Nat) : ℚ) / 10000) * c.nfft / fs) ≤
          ⌊(((35976300 : Nat) : ℚ) / 10000) * c.nfft / fs⌋ - f := by
        have hk : (1 / 6000 : ℚ) * c.nfft ≤ c.nfft / fs := by
          rw [div_mul_eq_mul_div, one_mul]
          exact div_le_div_of_nonneg_left (by positivity) hrate hfs
        have e1 : (((35976300 : Nat) : ℚ) / 10000) * c.nfft / fs = (35976300 / 10000) * (c.nfft / fs) := by
          push_cast; ring
        have e2 : (((3461360 : Nat) : ℚ) / 10000) * c.nfft / fs = (3461360 / 10000) * (c.nfft / fs) := by
          push_cast; ring
        rw [e1] at hfl ⊢
        rw [e2]
        linarith
      have hq' : (1700 / 1000 : ℝ) * (((((3461360 : Nat) : ℚ) / 10000) * c.nfft / fs : ℚ) : ℝ) ≤
          (⌊(((35976300 : Nat) : ℚ) / 10000) * c.nfft / fs⌋ : ℝ) - f := by
        generalize (((3461360 : Nat) : ℚ) / 10000) * c.nfft / fs = q3 at hq ⊢
        generalize ⌊(((35976300 : Nat) : ℚ) / 10000) * c.nfft / fs⌋ = z at hq ⊢
        have := (Rat.cast_le (K := ℝ)).mpr hq
        push_cast at this
        exact this
      refine hq'.trans ?_
      rw [abs_sub_comm]
      exact le_abs_self _
    have hle : (70 : ℝ) / ((((3461360 : Nat) : ℚ) / 10000 : ℚ) : ℝ) ≤ 1 := by
      push_cast
      norm_num
    calc _ ≤ 1 * Real.exp (-11 * (1700 / 1000 : ℝ) ^ 2) := by
          refine mul_le_mul hle (Real.exp_le_exp.mpr ?_) (Real.exp_pos _).le (by norm_num)
          linarith
      _ ≤ Real.exp (-30 / 4.606) := by
          rw [one_mul]
          exact Real.exp_le_exp.mpr (by norm_num)

end

/-! ## Concrete layouts and a concrete signal -/

def exFw16 : FwCfg := ⟨16000, 480, 120, 1024⟩

theorem exFw16_for : exFw16.For 16000 (3 / 100) (3 / 4) where
  freq := rfl
  rate := by norm_num
  win := by
    show |((480 : Nat) : ℚ) - 3 / 100 * 16000| ≤ 1 / 2 ∧ (|((480 : Nat) : ℚ) - 3 / 100 * 16000| = 1 / 2 → Even 480)
    norm_num
  skip := by show ((120 : Nat) : Int) = ⌊(1 - 3 / 4 : ℚ) * (3 / 100) * 16000⌋; norm_num
  pos := by decide
  le := by decide
  nfft := ⟨10, rfl, by decide, by decide⟩

/-- 6 kHz: the hypotheses of `C102_refuted_low_rate`. -/
example : (⟨6000, 180, 45, 512⟩ : FwCfg).For 6000 (3 / 100) (3 / 4) where
  freq := rfl
  rate := by norm_num
  win := by
    show |((180 : Nat) : ℚ) - 3 / 100 * 6000| ≤ 1 / 2 ∧ (|((180 : Nat) : ℚ) - 3 / 100 * 6000| = 1 / 2 → Even 180)
    norm_num
  skip := by show ((45 : Nat) : Int) = ⌊(1 - 3 / 4 : ℚ) * (3 / 100) * 6000⌋; norm_num
  pos := by decide
  le := by decide
  nfft := ⟨9, rfl, by decide, by decide⟩

/-- 600 samples: an impulse at sample 100, less the offset. -/
noncomputable def exImpulse : List ℝ :=
  (List.range 600).map fun n => (if n = 100 then 1 else 0) - 1 / 2 ^ 52

theorem exImpulse_offset {n : Nat} (h : n < 600) : offsetSig exImpulse n = if n = 100 then 1 else 0 := by
  unfold offsetSig exImpulse
  rw [List.getD_eq_getElem?_getD, List.getElem?_map, List.getElem?_range h]
  simp only [Option.map_some, Option.getD_some]
  ring

theorem exImpulse_mag (f : Nat) : exFw16.mag (offsetSig exImpulse) 0 f = hannAt 480 100 := by
  unfold FwCfg.mag
  rw [Finset.sum_eq_single 100]
  · rw [exImpulse_offset (by decide), if_pos (by rw [zero_mul, zero_add]), norm_mul]
    have : ‖Complex.exp (-2 * Real.pi * Complex.I * f * (100 : Nat) / (exFw16.nfft : ℂ))‖ = 1 := by
      rw [Complex.norm_exp]
      have : (-2 * Real.pi * Complex.I * f * (100 : Nat) / (exFw16.nfft : ℂ)) =
          ((-2 * Real.pi * f * (100 : Nat) / (exFw16.nfft : ℝ) : ℝ) : ℂ) * Complex.I := by
        push_cast
        ring
      rw [this, Complex.re_ofReal_mul, Complex.I_re, mul_zero, Real.exp_zero]
    rw [this, mul_one, Complex.norm_real, mul_one, hannAt_eq, Real.norm_eq_abs, abs_of_nonneg]
    · rfl
    · have := Real.cos_le_one (2 * Real.pi * ((100 : Nat) + 1) / ((exFw16.win : ℝ) + 1))
      linarith
  · intro n hn hne
    have hn : n < 480 := Finset.mem_range.mp hn
    rw [exImpulse_offset (by rw [zero_mul]; omega), if_neg (by rw [zero_mul]; omega), mul_zero, Complex.ofReal_zero,
      zero_mul]
  · intro h
    exact absurd (Finset.mem_range.mpr (by decide : 100 < 480)) h

theorem exp_cut_lt : Real.exp (-30 / 4.606) < 1 / 7 := by
  rw [show (-30 / 4.606 : ℝ) = -(30 / 4.606) by norm_num, Real.exp_neg, ← one_div]
  apply one_div_lt_one_div_of_lt (by norm_num)
  have := Real.add_one_le_exp (30 / 4.606 : ℝ)
  refine lt_of_lt_of_le ?_ this
  norm_num

theorem exBands_in : ∀ b ∈ fwBands, b.1 * 1024 < 16000 * 10000 * 512 ∧ b.2 ≤ 3461360 := by decide

/-- All critical bands of the first frame hold more than a millionth of the spectrum, so that
`C102_identical` applies: the score is 35. -/
theorem exImpulse_energy : ∀ b ∈ fwBands, 1 / 10 ^ 6 ≤ exFw16.energy (offsetSig exImpulse) 0 b := by
  intro b hb
  obtain ⟨h1, h2⟩ := exBands_in b hb
  have hpos := fwBands_pos hb
  have hw : (0 : ℝ) < hannAt 480 100 := hannAt_pos (by decide)
  have ht : exFw16.total (offsetSig exImpulse) 0 = 512 * hannAt 480 100 := by
    unfold FwCfg.total
    rw [Finset.sum_congr rfl fun f _ => exImpulse_mag f, Finset.sum_const, Finset.card_range, nsmul_eq_mul]
    rfl
  unfold FwCfg.energy
  rw [ht, Finset.sum_congr rfl fun f _ => by rw [exImpulse_mag f], ← Finset.sum_mul,
    mul_div_mul_right _ _ hw.ne', le_div_iff₀ (by norm_num)]
  have hnn : ∀ f, 0 ≤ exFw16.weight (b.1 / 10000) (b.2 / 10000) f := by
    intro f
    unfold FwCfg.weight
    simp only
    split
    · exact le_trans (Real.exp_pos _).le (le_of_lt ‹_›)
    · exact le_rfl
  set j := ⌊(b.1 : ℚ) / 10000 * exFw16.nfft / exFw16.fs⌋ with hj
  have hf : (exFw16.fs : ℚ) = 16000 := rfl
  have hn : ((exFw16.nfft : Nat) : ℚ) = 1024 := rfl
  have hj0 : 0 ≤ j := Int.floor_nonneg.mpr (by rw [hf, hn]; positivity)
  have hj1 : j < 512 := by
    rw [hj, Int.floor_lt, hf, hn]
    have : (b.1 : ℚ) * 1024 < 16000 * 10000 * 512 := by exact_mod_cast h1
    rw [div_lt_iff₀ (by norm_num)]
    push_cast
    linarith
  obtain ⟨m, hm⟩ := Int.eq_ofNat_of_zero_le hj0
  have hwt : (1 / 7 : ℝ) < exFw16.weight (b.1 / 10000) (b.2 / 10000) m := by
    unfold FwCfg.weight
    simp only
    have hv : 70 / (((b.2 : ℚ) / 10000 : ℚ) : ℝ) * Real.exp (-11 * (((m : ℝ) - (⌊(b.1 : ℚ) / 10000 * exFw16.nfft / exFw16.fs⌋ : ℝ)) /
        (((b.2 : ℚ) / 10000 * exFw16.nfft / exFw16.fs : ℚ) : ℝ)) ^ 2) = 70 / (((b.2 : ℚ) / 10000 : ℚ) : ℝ) := by
      rw [← hj, hm]
      simp
    rw [hv]
    have hb2 : (1 / 7 : ℝ) < 70 / (((b.2 : ℚ) / 10000 : ℚ) : ℝ) := by
      push_cast
      have hb3 : (0 : ℝ) < (b.2 : ℝ) := by exact_mod_cast hpos
      have hb4 : (b.2 : ℝ) ≤ 3461360 := by exact_mod_cast h2
      rw [lt_div_iff₀ (by positivity)]
      linarith
    rw [if_pos (exp_cut_lt.trans hb2)]
    exact hb2
  have hle := Finset.single_le_sum (f := exFw16.weight (b.1 / 10000) (b.2 / 10000)) (s := Finset.range (exFw16.nfft / 2))
    (fun f _ => hnn f) (Finset.mem_range.mpr (by show m < 512; omega))
  refine le_trans ?_ hle
  refine le_trans ?_ hwt.le
  norm_num

example : ∃ r, getFwsnrseg exImpulse exImpulse 16000 (3 / 100) (3 / 4) (1 / 5) = .ok r ∧ r[0]? = some (some 35) := by
  refine C102_identical exFw16_for ?_ ?_ exImpulse_energy
  · show 600 ≤ exImpulse.length
    unfold exImpulse
    rw [List.length_map, List.length_range]
  · unfold exImpulse
    rw [List.length_map, List.length_range]
    decide

end Danse
