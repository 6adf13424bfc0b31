import Verif.Proofs.SiSnr

/-! # C101: the speech-intelligibility-weighted SNR -/

namespace Danse

variable {design : ℝ → ℝ → List Sos} {s n : List ℝ} {vad : List Bool} {fs : ℝ}

/-- C101 (a): what is returned, at sampling frequencies above 2858.5 Hz (`8000·2^(1/6)/π`): the weighted sum of
the SNRs in the bands from `fc·2^(-1/6)/(2π)` to `fc·2^(1/6)/(2π)`. -/
theorem C101_value (hl : s.length = n.length) (hfs : 8000 * (2 : ℝ) ^ (1 / 6 : ℝ) < Real.pi * fs) :
    getSisnr design s n (some vad) fs true = .ok (weightedSnr design fs
      (fun fc => thirdLo fc / (2 * Real.pi)) (fun fc => thirdHi fc / (2 * Real.pi)) s n) := by
  have hp : 0 < fs := by
    by_contra h
    have h1 : Real.pi * fs ≤ 0 := mul_nonpos_of_nonneg_of_nonpos Real.pi_pos.le (not_lt.mp h)
    have := sixth_pos
    linarith
  unfold getSisnr
  rw [sum_foldlM (siBandTerm design s n (some vad) fs true) (fun b => (b.1 : ℝ) / 10000 *
      bandSnr design fs (thirdLo b.2 / (2 * Real.pi)) (thirdHi b.2 / (2 * Real.pi)) s n), zero_add]
  · rfl
  · intro b hb
    refine siBandTerm_ok design hl vad hp hb ?_
    have : (b.2 : ℝ) ≤ 8000 := by exact_mod_cast (siBands_mem hb).2.2
    exact lt_of_le_of_lt (mul_le_mul_of_nonneg_right this sixth_pos.le) hfs

/-- C101 (b): at lower sampling frequencies the call fails. -/
theorem C101_low_rate {vad : Option (List Bool)} {byp : Bool} (hp : 0 < fs)
    (hfs : Real.pi * fs ≤ 8000 * (2 : ℝ) ^ (1 / 6 : ℝ)) :
    getSisnr design s n vad fs byp = .error .valueError := by
  unfold getSisnr
  refine foldlM_error _ _ _ (fun b hb => ?_) ⟨(185, 8000), by decide, ?_⟩ _
  · by_cases h : (b.2 : ℝ) * 2 ^ (1 / 6 : ℝ) < Real.pi * fs
    · left
      have hfc : (0 : ℝ) < b.2 := by exact_mod_cast (siBands_mem hb).2.1.trans_lt' (by norm_num)
      unfold siBandTerm butterBand
      rw [if_pos ((edges_ok hp hfc).mpr h)]
      exact ⟨_, rfl⟩
    · exact .inr (siBandTerm_error design vad byp hp hb h)
  · refine siBandTerm_error design vad byp hp (by decide) ?_
    push Not
    exact_mod_cast hfs

/-- C101 (c): the weights are positive and sum to exactly 1, and the bands are third-octave bands around 1 kHz
(within 2 %). -/
theorem C101_weights : (siBands.map (·.1)).sum = 10000 ∧ (∀ b ∈ siBands, 0 < b.1) ∧
    ∀ k (hk : k < siBands.length), 98 ^ 3 * (10 ^ 9 * 2 ^ k) ≤ 100 ^ 3 * (siBands[k].2 ^ 3 * 2 ^ 8) ∧
      100 ^ 3 * (siBands[k].2 ^ 3 * 2 ^ 8) ≤ 102 ^ 3 * (10 ^ 9 * 2 ^ k) := by
  refine ⟨by decide, by decide, by decide⟩

theorem weights_sum : (siBands.map fun b => (b.1 : ℝ) / 10000).sum = 1 := by
  simp only [siBands, List.map_cons, List.map_nil, List.sum_cons, List.sum_nil]
  norm_num

theorem weighted_le {B : Type} (w u v : B → ℝ) (l : List B) (hw : ∀ b ∈ l, 0 ≤ w b) (h : ∀ b ∈ l, u b ≤ v b) :
    (l.map fun b => w b * u b).sum ≤ (l.map fun b => w b * v b).sum :=
  List.sum_le_sum fun b hb => mul_le_mul_of_nonneg_left (h b hb) (hw b hb)

/-- C101 (d): the result lies between the smallest and the largest SNR of the bands; in particular, if the
SNR is the same in all bands, it is returned. -/
theorem C101_mean {lo hi : ℝ → ℝ} {u v : ℝ}
    (h : ∀ b ∈ siBands, u ≤ bandSnr design fs (lo b.2) (hi b.2) s n ∧
      bandSnr design fs (lo b.2) (hi b.2) s n ≤ v) :
    u ≤ weightedSnr design fs lo hi s n ∧ weightedSnr design fs lo hi s n ≤ v := by
  have hc : ∀ z : ℝ, (siBands.map fun b => (b.1 : ℝ) / 10000 * z).sum = z := by
    intro z
    rw [List.sum_map_mul_right, weights_sum, one_mul]
  constructor
  · rw [← hc u]
    exact weighted_le (fun b : Nat × Nat => (b.1 : ℝ) / 10000) (fun _ => u) _ _ (fun b _ => by positivity)
      fun b hb => (h b hb).1
  · rw [← hc v]
    exact weighted_le (fun b : Nat × Nat => (b.1 : ℝ) / 10000) _ (fun _ => v) _ (fun b _ => by positivity)
      fun b hb => (h b hb).2

theorem inBand_smul (g lo hi : ℝ) (x : List ℝ) :
    inBand design fs lo hi (x.map (g * ·)) = (inBand design fs lo hi x).map (g * ·) := sosFilt_smul _ _ _

/-- C101 (e): amplifying the speech by `g` raises the result by `20 log10 |g|`, amplifying the noise by `g`
lowers it by that much; speech and noise exchanged change its sign. -/
theorem C101_gain {lo hi : ℝ → ℝ} {g : ℝ} (hg : g ≠ 0) (hs : HeardInBands design fs lo hi s)
    (hn : HeardInBands design fs lo hi n) :
    weightedSnr design fs lo hi (s.map (g * ·)) n = weightedSnr design fs lo hi s n + 20 * Real.logb 10 |g| ∧
    weightedSnr design fs lo hi s (n.map (g * ·)) = weightedSnr design fs lo hi s n - 20 * Real.logb 10 |g| ∧
    weightedSnr design fs lo hi n s = -weightedSnr design fs lo hi s n := by
  have hg2 : Real.logb 10 (g ^ 2) = 2 * Real.logb 10 |g| := by
    rw [← sq_abs, Real.logb_pow]
    norm_num
  have add : ∀ (u : Nat × Nat → ℝ) (z : ℝ), (siBands.map fun b => (b.1 : ℝ) / 10000 * (u b + z)).sum =
      (siBands.map fun b => (b.1 : ℝ) / 10000 * u b).sum + z := by
    intro u z
    have : (siBands.map fun b => (b.1 : ℝ) / 10000 * z).sum = z := by
      rw [List.sum_map_mul_right, weights_sum, one_mul]
    conv_rhs => rw [← this]
    rw [← List.sum_map_add]
    simp only [mul_add]
  have congr : ∀ u v : Nat × Nat → ℝ, (∀ b ∈ siBands, u b = v b) →
      (siBands.map fun b => (b.1 : ℝ) / 10000 * u b).sum = (siBands.map fun b => (b.1 : ℝ) / 10000 * v b).sum := by
    intro u v h
    rw [List.map_congr_left fun b hb => by rw [h b hb]]
  refine ⟨?_, ?_, ?_⟩
  · unfold weightedSnr
    rw [← add]
    refine congr _ _ fun b hb => ?_
    unfold bandSnr
    rw [inBand_smul, avgPow_gain, mul_div_assoc,
      Real.logb_mul (pow_ne_zero 2 hg) (div_ne_zero (hs b hb) (hn b hb)), hg2]
    ring
  · unfold weightedSnr
    rw [sub_eq_add_neg, ← add]
    refine congr _ _ fun b hb => ?_
    unfold bandSnr
    rw [inBand_smul, avgPow_gain, Real.logb_div (hs b hb) (mul_ne_zero (pow_ne_zero 2 hg) (hn b hb)),
      Real.logb_div (hs b hb) (hn b hb), Real.logb_mul (pow_ne_zero 2 hg) (hn b hb), hg2]
    ring
  · unfold weightedSnr
    rw [neg_eq_neg_one_mul, ← List.sum_map_mul_left]
    congr 1
    refine List.map_congr_left fun b hb => ?_
    unfold bandSnr
    rw [Real.logb_div (hs b hb) (hn b hb), Real.logb_div (hn b hb) (hs b hb)]
    ring

/-- C101 (f), refuted: that the SNR of a third-octave band is that of the signals around its centre frequency.
The edges are 2π times too low: no band contains its centre frequency, and all bands end below
1430 Hz, although the table goes up to 8 kHz. -/
theorem C101_refuted_bands : ∀ b ∈ siBands, thirdHi (b.2 : ℝ) / (2 * Real.pi) < b.2 ∧
    thirdHi (b.2 : ℝ) / (2 * Real.pi) < 1430 ∧
    thirdLo (b.2 : ℝ) < b.2 ∧ (b.2 : ℝ) < thirdHi b.2 := by
  intro b hb
  have h1 : (160 : ℝ) ≤ b.2 := by exact_mod_cast (siBands_mem hb).2.1
  have h2 : (b.2 : ℝ) ≤ 8000 := by exact_mod_cast (siBands_mem hb).2.2
  have h3 := sixth_lt
  have h4 := sixth_gt
  have h5 := Real.pi_gt_d2
  have h6 : (2 : ℝ) ^ (-(1 / 6) : ℝ) < 1 := Real.rpow_lt_one_of_one_lt_of_neg (by norm_num) (by norm_num)
  unfold thirdHi thirdLo
  refine ⟨?_, ?_, ?_, ?_⟩
  · rw [div_lt_iff₀ (by positivity)]
    nlinarith
  · rw [div_lt_iff₀ (by positivity)]
    nlinarith
  · nlinarith
  · nlinarith

/-- C101 (g): each section of the band-pass filters answers, from rest, as its difference equation says, and
the response is determined by that; sections act one after the other. -/
theorem C101_section (q : Sos) (x y : List ℝ) : (y = sosFilt [q] x ↔ Responds q x y) ∧
    ∀ a b : List Sos, sosFilt (a ++ b) x = sosFilt b (sosFilt a x) := by
  refine ⟨⟨fun h => h ▸ sosSection_responds q x, fun h => ?_⟩, fun a b => List.foldl_append ..⟩
  have h' : Responds q x (sosFilt [q] x) := sosSection_responds q x
  have key : ∀ k, k < x.length → y.getD k 0 = (sosFilt [q] x).getD k 0 := by
    intro k
    induction k using Nat.strongRecOn with
    | _ k ih =>
      intro hk
      have e1 : sosDelayed y 1 k = sosDelayed (sosFilt [q] x) 1 k := by
        unfold sosDelayed
        split
        · exact ih _ (by omega) (by omega)
        · rfl
      have e2 : sosDelayed y 2 k = sosDelayed (sosFilt [q] x) 2 k := by
        unfold sosDelayed
        split
        · exact ih _ (by omega) (by omega)
        · rfl
      rw [h.2 k hk, h'.2 k hk, e1, e2]
  refine List.ext_getElem (h.1.trans h'.1.symm) fun k h1 h2 => ?_
  have := key k (h.1 ▸ h1)
  simpa [List.getD_eq_getElem?_getD, h1, h2] using this

/-- Non-vacuity: a recursive section; the response to an impulse goes on for ever. -/
example : Responds ⟨1, 2, 0, -1, 3⟩ [1, 0, 0, 0] [1, 3, 0, -9] := by
  refine ⟨rfl, fun k hk => ?_⟩
  match k, hk with
  | 0, _ => norm_num [sosDelayed]
  | 1, _ => norm_num [sosDelayed]
  | 2, _ => norm_num [sosDelayed]
  | 3, _ => norm_num [sosDelayed]

/-- Non-vacuity: a design whose filters are plain gains; every sampling frequency of 16 kHz is high enough;
a signal with one non-zero sample is audible in every band. -/
example : HeardInBands (fun lo _ => [⟨1 + lo ^ 2, 0, 0, 0, 0⟩]) 16000 (fun fc => thirdLo fc / (2 * Real.pi))
      (fun fc => thirdHi fc / (2 * Real.pi)) [0, 3] ∧
    8000 * (2 : ℝ) ^ (1 / 6 : ℝ) < Real.pi * 16000 ∧ Real.pi * 2000 ≤ 8000 * (2 : ℝ) ^ (1 / 6 : ℝ) := by
  refine ⟨fun b _ => ?_, ?_, ?_⟩
  · unfold inBand sosFilt
    simp only [List.foldl_cons, List.foldl_nil, sosSection, avgPow, List.map_cons, List.map_nil, List.sum_cons,
      List.sum_nil, List.length_cons, List.length_nil]
    generalize (thirdLo (b.2 : ℝ) / (2 * Real.pi) / (16000 / 2)) = q
    have : 0 < 1 + q ^ 2 := by positivity
    norm_num
    positivity
  · have := sixth_lt
    have := Real.pi_gt_d2
    nlinarith
  · have := sixth_gt
    have := Real.pi_lt_d2
    nlinarith

end Danse
