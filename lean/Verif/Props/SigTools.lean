import Verif.Model.SigTools
import Verif.Proofs.Topo
import Verif.Proofs.Vad

/-!
# Properties C39 (resampling), C41 (noise level), C42 (source length), C63 (signal decomposition),
# C64 (pauses)
-/

namespace Danse

/-! ## C39 -/

/-- C39: the signal and its time stamps keep the length of the input, the stamps are `i / fsSRO`, and
the samples are the resampler's, zero-padded or cut. If the resampler returns at least two samples (or
enough of them) the call succeeds. -/
theorem C39_length_and_clock (rs : ℚ → ℚ → List ℚ → List ℚ) (x : List ℚ) (fs sro : ℚ)
    (hrs : 2 ≤ (rs fs (fs * (1 + sro / 1000000)) x).length ∨
      x.length ≤ (rs fs (fs * (1 + sro / 1000000)) x).length) :
    ∃ x' t, resampleForSro rs x fs sro = .ok (x', t, fs * (1 + sro / 1000000)) ∧
      x'.length = x.length ∧ t.length = x.length ∧
      (∀ i < x.length, t[i]? = some ((i : ℚ) / (fs * (1 + sro / 1000000)))) ∧
      (∀ i < x.length, x'[i]? = some (if fs = fs * (1 + sro / 1000000) then smp x i
        else smp (rs fs (fs * (1 + sro / 1000000)) x) i)) := by
  unfold resampleForSro
  simp only
  generalize hf : fs * (1 + sro / 1000000) = f at hrs ⊢
  generalize hxr : (if fs ≠ f then rs fs f x else x) = xr
  have hsel : ∀ i, (if fs = f then smp x i else smp (rs fs f x) i) = smp xr i := by
    intro i
    rw [← hxr]
    by_cases h : fs = f
    · rw [if_pos h, if_neg (by simpa using h)]
    · rw [if_neg h, if_pos h]
  simp only [hsel]
  have hxr2 : 2 ≤ xr.length ∨ x.length ≤ xr.length := by
    rw [← hxr]
    by_cases h : fs ≠ f
    · rw [if_pos h]; exact hrs
    · rw [if_neg h]; exact Or.inr le_rfl
  have ht : ∀ i < xr.length, ((List.range xr.length).map fun (i : Nat) => (i : ℚ) / f)[i]? =
      some ((i : ℚ) / f) := by
    intro i hi
    rw [List.getElem?_map, List.getElem?_range hi]; rfl
  by_cases hle : x.length ≤ xr.length
  · rw [if_pos hle]
    refine ⟨_, _, rfl, by simp [hle], by simp [hle], fun i hi => ?_, fun i hi => ?_⟩
    · rw [List.getElem?_take_of_lt hi, ht i (by omega)]
    · rw [List.getElem?_take_of_lt hi]
      simp [smp, List.getD, List.getElem?_eq_getElem (show i < xr.length by omega)]
  · rw [if_neg hle]
    have h2 : 2 ≤ xr.length := by omega
    have e1 : pyGet ((List.range xr.length).map fun (i : Nat) => (i : ℚ) / f) 1 = .ok (1 / f) := by
      have := pyGet_nat ((List.range xr.length).map fun (i : Nat) => (i : ℚ) / f) 1
      rw [ht 1 (by omega)] at this
      simpa using this
    have e0 : pyGet ((List.range xr.length).map fun (i : Nat) => (i : ℚ) / f) 0 = .ok (0 / f) := by
      have := pyGet_nat ((List.range xr.length).map fun (i : Nat) => (i : ℚ) / f) 0
      rw [ht 0 (by omega)] at this
      simpa using this
    have el : pyGet ((List.range xr.length).map fun (i : Nat) => (i : ℚ) / f) (-1) =
        .ok (((xr.length - 1 : Nat) : ℚ) / f) := by
      unfold pyGet
      simp only [List.length_map, List.length_range]
      rw [if_pos (by decide : (-1 : Int) < 0)]
      have : ¬ ((-1 : Int) + (xr.length : Int) < 0) := by omega
      rw [if_neg this, show ((-1 : Int) + (xr.length : Int)).toNat = xr.length - 1 by omega,
        ht _ (by omega)]
    rw [e1, e0, el]
    refine ⟨_, _, rfl, by simp; omega, ?_, fun i hi => ?_, fun i hi => ?_⟩
    · rw [List.length_append, npLinspace]
      by_cases h1 : x.length - xr.length = 1
      · rw [if_pos h1]; simp; omega
      · rw [if_neg h1]; simp; omega
    · rw [List.getElem?_append]
      by_cases hi2 : i < xr.length
      · rw [if_pos (by simpa using hi2), ht i hi2]
      · rw [if_neg (by simpa using hi2)]
        have hlast : ((xr.length - 1 : Nat) : ℚ) = (xr.length : ℚ) - 1 := by
          rw [Nat.cast_sub (by omega)]; simp
        simp only [List.length_map, List.length_range]
        unfold npLinspace
        by_cases h1 : x.length - xr.length = 1
        · have : i - xr.length = 0 := by omega
          have hie : (i : ℚ) = xr.length := by
            have : i = xr.length := by omega
            rw [this]
          rw [if_pos h1, this, hlast, hie]
          simp only [List.getElem?_cons_zero, Option.some.injEq]
          ring
        · rw [if_neg h1, List.getElem?_map, List.getElem?_range (by omega), Option.map_some, hlast]
          have hcast : ((i - xr.length : Nat) : ℚ) = (i : ℚ) - xr.length := by
            rw [Nat.cast_sub (by omega)]
          have hne : (((x.length - xr.length : Nat) : ℚ) - 1) ≠ 0 := by
            have : (1 : ℚ) < ((x.length - xr.length : Nat) : ℚ) := by
              exact_mod_cast (by omega : 1 < x.length - xr.length)
            linarith
          rw [hcast, Option.some.injEq]
          have hd : (((xr.length : ℚ) - 1) / f + (1 / f - 0 / f) * ((x.length - xr.length : Nat) : ℚ) -
              (((xr.length : ℚ) - 1) / f + (1 / f - 0 / f))) /
              (((x.length - xr.length : Nat) : ℚ) - 1) = 1 / f := by
            rw [div_eq_iff hne]; ring
          rw [hd]; ring
    · rw [List.getElem?_append]
      by_cases hi2 : i < xr.length
      · rw [if_pos hi2, List.getElem?_eq_getElem hi2]
        simp [smp, List.getD, List.getElem?_eq_getElem hi2]
      · rw [if_neg hi2, List.getElem?_replicate, if_pos (by omega)]
        simp [smp, List.getD, List.getElem?_eq_none (by omega : xr.length ≤ i)]

/-- C39: without SRO the signal is untouched. -/
theorem C39_no_sro (rs : ℚ → ℚ → List ℚ → List ℚ) (x : List ℚ) (fs : ℚ) :
    ∃ t, resampleForSro rs x fs 0 = .ok (x, t, fs) := by
  unfold resampleForSro
  simp

/-- C39: "the call succeeds for every signal" fails if the resampler returns a single sample for a
longer signal. -/
theorem C39_refuted_one_sample :
    resampleForSro (fun _ _ _ => [1]) [1, 2] 16000 (-500000) = .error .indexError := by
  unfold resampleForSro
  norm_num [bind, Except.bind, pyGet]

example : (2 : Nat) ≤ ((fun _ _ x => x.take 2 : ℚ → ℚ → List ℚ → List ℚ) 16000
    (16000 * (1 + 100 / 1000000)) [1, 2, 3]).length := by simp

/-! ## C41 -/

section
variable {n : Nat}

theorem meanPow_smul (g : ℝ) (x : Fin n → ℝ) : meanPow (g • x) = g ^ 2 * meanPow x := by
  unfold meanPow
  rw [mul_div_assoc', Finset.mul_sum]
  congr 1
  refine Finset.sum_congr rfl fun i _ => ?_
  rw [Pi.smul_apply, smul_eq_mul, abs_mul, mul_pow, sq_abs g]

theorem meanPow_nonneg (x : Fin n → ℝ) : 0 ≤ meanPow x :=
  div_nonneg (Finset.sum_nonneg fun _ _ => sq_nonneg _) (Nat.cast_nonneg n)

theorem gain_sq {a b snr : ℝ} (ha : 0 < a) (hb : 0 < b) :
    a / (((10 : ℝ) ^ (-(snr - 10 * Real.logb 10 (a / b)) / 20)) ^ 2 * b) = 10 ^ (snr / 10) := by
  have h10 : (0 : ℝ) < 10 := by norm_num
  have e : ((10 : ℝ) ^ (-(snr - 10 * Real.logb 10 (a / b)) / 20)) ^ 2 =
      (a / b) / 10 ^ (snr / 10) := by
    rw [← Real.rpow_natCast, ← Real.rpow_mul h10.le,
      show -(snr - 10 * Real.logb 10 (a / b)) / 20 * ((2 : ℕ) : ℝ) =
        Real.logb 10 (a / b) - snr / 10 by push_cast; ring,
      Real.rpow_sub h10, Real.rpow_logb h10 (by norm_num) (div_pos ha hb)]
  rw [e]
  have := Real.rpow_pos_of_pos h10 (snr / 10)
  field_simp

/-- C41: the noise is scaled by a positive factor and added, and the signal-to-noise power ratio is
exactly the requested one. -/
theorem C41_self_noise_snr {sig noise sig' noise' : Fin n → ℝ} {snr : ℝ}
    (h : applyNoise sig noise snr = .ok (sig', noise')) (hs : meanPow sig ≠ 0) :
    sig' = sig + noise' ∧ (∃ g : ℝ, 0 < g ∧ noise' = g • noise) ∧
      meanPow sig / meanPow noise' = 10 ^ (snr / 10) := by
  unfold applyNoise at h
  by_cases h1 : n = 0 ∨ meanPow noise = 0
  · rw [if_pos h1] at h; cases h
  rw [if_neg h1, if_neg hs] at h
  obtain ⟨rfl, rfl⟩ := Prod.mk.inj (Except.ok.inj h)
  have h10 : (0 : ℝ) < 10 := by norm_num
  refine ⟨rfl, ⟨(10 : ℝ) ^ (-(snr - 10 * Real.logb 10 (meanPow sig / meanPow noise)) / 20),
    Real.rpow_pos_of_pos h10 _, rfl⟩, ?_⟩
  rw [meanPow_smul]
  rw [not_or] at h1
  exact gain_sq (lt_of_le_of_ne (meanPow_nonneg _) (Ne.symm hs))
    (lt_of_le_of_ne (meanPow_nonneg _) (Ne.symm h1.2))

/-- C41: a silent signal stays silent; a zero noise cannot be scaled (NaN). -/
theorem C41_degenerate (sig noise : Fin n → ℝ) (snr : ℝ) :
    (n ≠ 0 → meanPow noise ≠ 0 → meanPow sig = 0 → applyNoise sig noise snr = .ok (sig, 0)) ∧
    (meanPow noise = 0 → applyNoise sig noise snr = .error .nan) := by
  unfold applyNoise
  constructor
  · intro h0 h1 h2
    rw [if_neg (by tauto), if_pos h2]
    simp
  · intro h; rw [if_pos (Or.inr h)]

theorem lfilter_smul (ir : List ℝ) (g : ℝ) (x : Fin n → ℝ) :
    lfilter ir (g • x) = g • lfilter ir x := by
  funext i
  rw [Pi.smul_apply, smul_eq_mul]
  unfold lfilter
  rw [Finset.mul_sum]
  refine Finset.sum_congr rfl fun j _ => ?_
  by_cases h : j ≤ i
  · rw [if_pos h, if_pos h, Pi.smul_apply, smul_eq_mul]; ring
  · rw [if_neg h, if_neg h, mul_zero]

/-- C41: with an SNR defined at a reference microphone, the wet noise of each noise source at that
microphone is exactly `snr` dB below the wet target. -/
theorem C41_mic_snr {ir : List ℝ} {yRef x : Fin n → ℝ} {snr g : ℝ}
    (h : micGain yRef (lfilter ir x) snr = .ok g) (hy : ∑ i, yRef i ^ 2 ≠ 0) :
    (∑ i, yRef i ^ 2) / (∑ i, lfilter ir (g • x) i ^ 2) = 10 ^ (snr / 10) := by
  unfold micGain at h
  by_cases h1 : ∑ i, lfilter ir x i ^ 2 = 0
  · rw [if_pos h1] at h; cases h
  rw [if_neg h1, if_neg hy] at h
  rw [lfilter_smul]
  have e : ∑ i, (g • lfilter ir x) i ^ 2 = g ^ 2 * ∑ i, lfilter ir x i ^ 2 := by
    rw [Finset.mul_sum]
    exact Finset.sum_congr rfl fun i _ => by rw [Pi.smul_apply, smul_eq_mul, mul_pow]
  rw [e, ← Except.ok.inj h]
  have hpos : ∀ {f : Fin n → ℝ}, ∑ i, f i ^ 2 ≠ 0 → 0 < ∑ i, f i ^ 2 := fun h =>
    lt_of_le_of_ne (Finset.sum_nonneg fun _ _ => sq_nonneg _) (Ne.symm h)
  rw [← gain_sq (snr := snr) (hpos hy) (hpos h1)]
  congr 4
  ring

/-- C41: for unit-power sources, the dry SNR is exactly `snr` dB. -/
theorem C41_dry_snr {y x : Fin n → ℝ} {snr : ℝ} (hy : meanPow y = 1) (hx : meanPow x = 1) :
    meanPow y / meanPow (dryGain snr • x) = 10 ^ (snr / 10) := by
  rw [meanPow_smul, hx, hy, mul_one]
  unfold dryGain
  have h10 : (0 : ℝ) < 10 := by norm_num
  rw [← Real.rpow_natCast, ← Real.rpow_mul h10.le, one_div, ← Real.rpow_neg h10.le]
  congr 1
  push_cast
  ring

/-- Non-trivial case: a signal of power 4 with unit noise at 20 dB. -/
example : ∃ sig' noise' : Fin 1 → ℝ, applyNoise (fun _ => 2) (fun _ => 1) 20 = .ok (sig', noise') ∧
    meanPow (fun _ : Fin 1 => (2 : ℝ)) ≠ 0 := by
  have h1 : meanPow (fun _ : Fin 1 => (1 : ℝ)) ≠ 0 := by simp [meanPow]
  unfold applyNoise
  rw [if_neg (by simp [h1])]
  exact ⟨_, _, rfl, by simp [meanPow]⟩

end

/-! ## C42 -/

theorem loopTo_spec {α : Type} (n : Nat) (y : List α) :
    ∀ (fuel : Nat) (z : List α), n < z.length + fuel → z ≠ [] → z.length ≤ n →
      (z.length = n ∨ y.length ∣ z.length) → (∀ i < z.length, z[i]? = y[i % y.length]?) →
      ∃ r, loopTo n fuel z = some r ∧ r.length = n ∧ ∀ i < n, r[i]? = y[i % y.length]? := by
  intro fuel
  induction fuel with
  | zero => intro z h1 h2 h3; omega
  | succ f ih =>
    intro z h1 h2 h3 h4 h5
    rw [loopTo]
    by_cases hlt : z.length < n
    · rw [if_pos hlt]
      have hz : 0 < z.length := List.length_pos_iff.mpr h2
      have hdvd : y.length ∣ z.length := h4.resolve_left (by omega)
      have hget : ∀ i < 2 * z.length, (z ++ z)[i]? = y[i % y.length]? := by
        intro i hi
        rw [List.getElem?_append]
        by_cases hiz : i < z.length
        · rw [if_pos hiz, h5 i hiz]
        · rw [if_neg hiz, h5 _ (by omega)]
          obtain ⟨c, hc⟩ := hdvd
          congr 1
          conv_rhs => rw [show i = i - z.length + y.length * c by omega, Nat.add_mul_mod_self_left]
      have hlen : ((z ++ z).take n).length = min n (2 * z.length) := by
        rw [List.length_take, List.length_append]; omega
      refine ih _ (by rw [hlen]; omega) (by
        rw [← List.length_pos_iff, hlen]; omega) (by rw [hlen]; omega) ?_ ?_
      · rw [hlen]
        rcases Nat.le_total n (2 * z.length) with h | h
        · left; omega
        · right; rw [Nat.min_eq_right h]; exact Dvd.dvd.mul_left hdvd 2
      · intro i hi
        rw [hlen] at hi
        rw [List.getElem?_take_of_lt (by omega), hget i (by omega)]
    · rw [if_neg hlt]
      exact ⟨z, rfl, by omega, fun i hi => h5 i (by omega)⟩

/-- C42: any non-empty source becomes exactly `n` samples: its periodic repetition, or its first `n`
samples, after at most `n + 1` turns of the loop. -/
theorem C42_exact_length {α : Type} (n : Nat) (y : List α) (hy : y ≠ []) (fuel : Nat)
    (hf : n + 1 ≤ fuel) :
    ∃ r, adjustLen n fuel y = some r ∧ r.length = n ∧ ∀ i < n, r[i]? = y[i % y.length]? := by
  unfold adjustLen
  by_cases h1 : n < y.length
  · rw [if_pos h1]
    refine ⟨_, rfl, by rw [List.length_take]; omega, fun i hi => ?_⟩
    rw [List.getElem?_take_of_lt hi, Nat.mod_eq_of_lt (by omega)]
  rw [if_neg h1]
  by_cases h2 : y.length < n
  · rw [if_pos h2]
    exact loopTo_spec n y fuel y (by omega) hy (by omega) (Or.inr dvd_rfl)
      (fun i hi => by rw [Nat.mod_eq_of_lt hi])
  · rw [if_neg h2]
    exact ⟨y, rfl, by omega, fun i hi => by rw [Nat.mod_eq_of_lt (by omega)]⟩

/-- C42: "every source is adjusted" fails for an empty one: the loop never ends. -/
theorem C42_refuted_empty_source {α : Type} (n : Nat) (hn : 0 < n) (fuel : Nat) :
    adjustLen n fuel ([] : List α) = none := by
  unfold adjustLen
  rw [if_neg (by simp), if_pos (by simpa using hn)]
  induction fuel with
  | zero => rfl
  | succ f ih => rw [loopTo, if_pos (by simpa using hn)]; simpa using ih

example : adjustLen 7 8 [1, 2, 3] = some [1, 2, 3, 1, 2, 3, 1] := by decide

/-! ## C63 -/

section
variable {n M : Nat} {async : (Fin n → ℝ) → (Fin n → ℝ)}
  {speech noise diffuse white data cs cn : Fin (M + 1) → Fin n → ℝ} {snr : ℝ}

/-- C63: what the three signals of a sensor are, in terms of its own self-noise (scaled to `snr`). -/
theorem C63_signals
    (h : buildNode async speech noise diffuse white snr = .ok (data, cs, cn)) :
    ∃ self : Fin (M + 1) → Fin n → ℝ,
      (∀ m, applyNoise (async (noise m + speech m) + diffuse m) (white m) snr =
        .ok (data m, self m)) ∧
      (∀ m, cs m = async (speech m)) ∧
      ∀ m, cn m = async (noise m + diffuse m) + self 0 := by
  unfold buildNode at h
  cases hr : (List.finRange (M + 1)).mapM (fun m =>
      applyNoise (async (noise m + speech m) + diffuse m) (white m) snr) with
  | error e => rw [hr] at h; cases h
  | ok r =>
    rw [hr] at h
    have h := Except.ok.inj h
    rw [Prod.mk.injEq, Prod.mk.injEq] at h
    obtain ⟨rfl, rfl, rfl⟩ := h
    refine ⟨fun m => (r.getD m.val (0, 0)).2, fun m => ?_, fun _ => rfl, fun m => rfl⟩
    have hg : ∀ (l : List (Fin (M + 1))) (r : List ((Fin n → ℝ) × (Fin n → ℝ))),
        l.mapM (fun m => applyNoise (async (noise m + speech m) + diffuse m) (white m) snr) = .ok r →
        ∀ (i : Nat) m, l[i]? = some m → applyNoise (async (noise m + speech m) + diffuse m) (white m) snr =
          .ok (r.getD i (0, 0)) := by
      intro l
      induction l with
      | nil => intro r _ i m hi; simp at hi
      | cons a l ih =>
        intro r hr i m hi
        rw [List.mapM_cons] at hr
        cases ha : applyNoise (async (noise a + speech a) + diffuse a) (white a) snr with
        | error e => rw [ha] at hr; cases hr
        | ok v =>
          rw [ha] at hr
          cases hl : l.mapM (fun m =>
              applyNoise (async (noise m + speech m) + diffuse m) (white m) snr) with
          | error e => rw [hl] at hr; cases hr
          | ok vs =>
            rw [hl] at hr
            rw [← Except.ok.inj hr]
            cases i with
            | zero => simp at hi; subst hi; simpa using ha
            | succ i => simpa using ih vs hl i m (by simpa using hi)
    have := hg _ r hr m.val m (by
      rw [List.getElem?_eq_getElem (by rw [List.length_finRange]; exact m.isLt),
        List.getElem_finRange]; rfl)
    simpa using this

/-- C63: at the first sensor of a node, the signal is the sum of its target and noise components,
when resampling is additive and there is no diffuse noise or no SRO. -/
theorem C63_first_sensor
    (h : buildNode async speech noise diffuse white snr = .ok (data, cs, cn))
    (hadd : ∀ x y, async (x + y) = async x + async y)
    (hd : diffuse = 0 ∨ ∀ x, async x = x) (hs : ∀ m, meanPow (async (noise m + speech m) + diffuse m) ≠ 0) :
    data 0 = cs 0 + cn 0 := by
  obtain ⟨self, h1, h2, h3⟩ := C63_signals h
  have := (C41_self_noise_snr (h1 0) (hs 0)).1
  rw [this, h2, h3, hadd]
  have hz : async 0 = 0 := by
    have := hadd 0 0
    rw [add_zero] at this
    simpa using this
  rcases hd with rfl | hid
  · simp only [Pi.zero_apply, add_zero]; abel
  · rw [hid, hid, hid, ← add_assoc]; abel

/-- C63: at the other sensors the difference is the difference between the two self-noises. -/
theorem C63_other_sensors
    (h : buildNode async speech noise diffuse white snr = .ok (data, cs, cn))
    (hadd : ∀ x y, async (x + y) = async x + async y) (hd : diffuse = 0)
    (hs : ∀ m, meanPow (async (noise m + speech m) + diffuse m) ≠ 0) (m : Fin (M + 1)) :
    ∃ self0 selfm : Fin n → ℝ, data m - (cs m + cn m) = selfm - self0 ∧
      meanPow (async (noise m + speech m)) / meanPow selfm = 10 ^ (snr / 10) ∧
      meanPow (async (noise 0 + speech 0)) / meanPow self0 = 10 ^ (snr / 10) := by
  obtain ⟨self, h1, h2, h3⟩ := C63_signals h
  have a := C41_self_noise_snr (h1 m) (hs m)
  have b := C41_self_noise_snr (h1 0) (hs 0)
  subst hd
  simp only [Pi.zero_apply, add_zero] at a b
  refine ⟨self 0, self m, ?_, a.2.2, b.2.2⟩
  rw [a.1, h2, h3, hadd, Pi.zero_apply, add_zero]
  abel

end

/-- C63: "every sensor signal is the sum of its target and noise components" fails at the second
sensor of a node: the noise component carries the self-noise of the first sensor. -/
theorem C63_refuted_second_sensor :
    ∃ data cs cn : Fin 2 → Fin 1 → ℝ,
      buildNode (M := 1) id (fun _ _ => 1) 0 0 (fun m _ => if m = 0 then 1 else -1) 0 =
        .ok (data, cs, cn) ∧ data 1 ≠ cs 1 + cn 1 := by
  have hp1 : meanPow (fun _ : Fin 1 => (1 : ℝ)) = 1 := by simp [meanPow]
  have hpm : meanPow (fun _ : Fin 1 => (-1 : ℝ)) = 1 := by simp [meanPow]
  have h0 : applyNoise (fun _ : Fin 1 => (1 : ℝ)) (fun _ => 1) 0 = .ok (fun _ => 2, fun _ => 1) := by
    unfold applyNoise
    rw [hp1, if_neg (by simp)]
    simp only [div_self (one_ne_zero : (1 : ℝ) ≠ 0), Real.logb_one, if_neg (one_ne_zero : (1 : ℝ) ≠ 0)]
    congr 2
    · funext i; norm_num
    · funext i; norm_num
  have h1 : applyNoise (fun _ : Fin 1 => (1 : ℝ)) (fun _ => -1) 0 = .ok (fun _ => 0, fun _ => -1) := by
    unfold applyNoise
    rw [hp1, hpm, if_neg (by simp)]
    simp only [div_self (one_ne_zero : (1 : ℝ) ≠ 0), Real.logb_one, if_neg (one_ne_zero : (1 : ℝ) ≠ 0)]
    congr 2
    · funext i; norm_num
    · funext i; norm_num
  have hl : List.finRange (1 + 1) = [0, 1] := rfl
  have hsig : ∀ m : Fin 2, id ((0 : Fin 2 → Fin 1 → ℝ) m + fun _ => 1) + (0 : Fin 2 → Fin 1 → ℝ) m =
      fun _ => (1 : ℝ) := by intro m; funext i; simp
  refine ⟨fun m _ => if m = 0 then 2 else 0, fun _ _ => 1, fun _ _ => 1, ?_, ?_⟩
  · unfold buildNode
    simp only [hl, List.mapM_cons, List.mapM_nil, hsig, if_true, if_neg (one_ne_zero : (1 : Fin 2) ≠ 0),
      h0, h1, bind, Except.bind, pure, Except.pure]
    congr 2
    · funext m i
      fin_cases m <;> simp
    · congr 1
      funext m i; simp
  · intro e
    have := congrFun e 0
    norm_num at this

/-- C63: nor does it hold with diffuse noise and an SRO: the diffuse noise is resampled in the noise
component but not in the sensor signal. -/
theorem C63_refuted_diffuse_with_sro {n M : Nat} {async : (Fin n → ℝ) → (Fin n → ℝ)}
    {speech noise diffuse white data cs cn : Fin (M + 1) → Fin n → ℝ} {snr : ℝ}
    (h : buildNode async speech noise diffuse white snr = .ok (data, cs, cn))
    (hadd : ∀ x y, async (x + y) = async x + async y)
    (hs : ∀ m, meanPow (async (noise m + speech m) + diffuse m) ≠ 0)
    (hd : async (diffuse 0) ≠ diffuse 0) : data 0 ≠ cs 0 + cn 0 := by
  obtain ⟨self, h1, h2, h3⟩ := C63_signals h
  have := (C41_self_noise_snr (h1 0) (hs 0)).1
  rw [this, h2, h3, hadd, hadd]
  intro e
  apply hd
  have e2 : async (noise 0) + async (speech 0) + diffuse 0 + self 0 =
      async (noise 0) + async (speech 0) + async (diffuse 0) + self 0 := by
    rw [e]; abel
  exact (add_left_cancel (add_right_cancel e2)).symm

/-- The signals are always produced when noise was drawn. -/
theorem C63_total {n M : Nat} (async : (Fin n → ℝ) → (Fin n → ℝ))
    (speech noise diffuse white : Fin (M + 1) → Fin n → ℝ) (snr : ℝ)
    (hw : ∀ m, meanPow (white m) ≠ 0) :
    ∃ r, buildNode async speech noise diffuse white snr = .ok r := by
  have hn : n ≠ 0 := by
    rintro rfl
    exact hw 0 (by simp [meanPow])
  have h1 : ∀ m, ∃ v, applyNoise (async (noise m + speech m) + diffuse m) (white m) snr = .ok v := by
    intro m
    unfold applyNoise
    rw [if_neg (by simp [hn, hw m])]
    exact ⟨_, rfl⟩
  have h2 : ∀ l : List (Fin (M + 1)), ∃ r, l.mapM (fun m =>
      applyNoise (async (noise m + speech m) + diffuse m) (white m) snr) = .ok r := by
    intro l
    induction l with
    | nil => exact ⟨[], rfl⟩
    | cons a l ih =>
      obtain ⟨v, hv⟩ := h1 a
      obtain ⟨r, hr⟩ := ih
      exact ⟨v :: r, by rw [List.mapM_cons, hv, hr]; rfl⟩
  obtain ⟨r, hr⟩ := h2 (List.finRange (M + 1))
  unfold buildNode
  rw [hr]
  exact ⟨_, rfl⟩

/-- Hypotheses of the previous theorems met: a doubling "resampler", diffuse noise. -/
example : ∃ r, buildNode (n := 1) (M := 1) (fun x => x + x) (fun _ _ => 1) 0 (fun _ _ => 1)
      (fun _ _ => 1) 10 = .ok r ∧
    (∀ m : Fin 2, meanPow (((0 : Fin 2 → Fin 1 → ℝ) m + fun _ => 1) +
      ((0 : Fin 2 → Fin 1 → ℝ) m + fun _ => 1) + fun _ : Fin 1 => 1) ≠ 0) ∧
    (fun x : Fin 1 → ℝ => x + x) (fun _ => 1) ≠ fun _ => 1 := by
  obtain ⟨r, hr⟩ := C63_total (n := 1) (M := 1) (fun x => x + x) (fun _ _ => 1) 0 (fun _ _ => 1)
    (fun _ _ => 1) 10 (fun m => by simp [meanPow])
  refine ⟨r, hr, fun m => ?_, fun h => ?_⟩
  · simp [meanPow]; norm_num
  · have := congrFun h 0
    norm_num at this

/-! ## C64 -/

theorem zeroSlice_get (y : List ℚ) {a b : Int} (ha : 0 ≤ a) (hb : 0 ≤ b) (j : Nat) :
    (zeroSlice y a b)[j]? = if a ≤ (j : Int) ∧ (j : Int) < b then y[j]?.map fun _ => 0 else y[j]? := by
  unfold zeroSlice
  simp only [List.getElem?_map, List.getElem?_zipIdx]
  rcases Nat.lt_or_ge j y.length with hj | hj
  · rw [List.getElem?_eq_getElem hj]
    have h1 : pySliceBound y.length a ≤ j ↔ a ≤ (j : Int) := by
      unfold pySliceBound; rw [if_neg (by omega)]; omega
    have h2 : j < pySliceBound y.length b ↔ (j : Int) < b := by
      unfold pySliceBound; rw [if_neg (by omega)]; omega
    simp only [Option.map_some, Nat.zero_add, h1, h2]
    split <;> rfl
  · rw [List.getElem?_eq_none hj]
    simp

theorem pyInt_nonneg {x : ℚ} (h : 0 ≤ x) : 0 ≤ pyInt x := by
  unfold pyInt; rw [if_pos h]; exact Int.floor_nonneg.mpr h

/-- C64: with regular pauses, the sample `j` of a random source is zero if it lies in a pause and
untouched otherwise. Pause number `i` covers `[⌊s⌋, ⌊s + duration⌋)`, `s` its start; starts are
`duration + spacing` apart, from 0 or from `spacing`, up to the end of the signal. -/
theorem C64_regular_pauses {y r : List ℚ} {dur space fs : ℚ} {st : Bool}
    (h : addPauses y dur space fs st = .ok r) (hd : 0 ≤ dur * fs) (hsp : 0 ≤ space * fs) (j : Nat) :
    r.length = y.length ∧
    ((∃ i : Nat, (if st then 0 else space * fs) + i * (space * fs + dur * fs) < y.length ∧
        ⌊(if st then 0 else space * fs) + i * (space * fs + dur * fs)⌋ ≤ (j : Int) ∧
        (j : Int) < ⌊(if st then 0 else space * fs) + i * (space * fs + dur * fs) + dur * fs⌋) →
      smp r j = 0) ∧
    ((¬ ∃ i : Nat, (if st then 0 else space * fs) + i * (space * fs + dur * fs) < y.length ∧
        ⌊(if st then 0 else space * fs) + i * (space * fs + dur * fs)⌋ ≤ (j : Int) ∧
        (j : Int) < ⌊(if st then 0 else space * fs) + i * (space * fs + dur * fs) + dur * fs⌋) →
      r[j]? = y[j]?) := by
  unfold addPauses at h
  simp only at h
  by_cases h0 : space * fs + dur * fs = 0
  · rw [if_pos h0] at h; cases h
  rw [if_neg h0] at h
  have h := Except.ok.inj h
  generalize hstart : (if st then 0 else space * fs) = s0 at h ⊢
  have hs0 : 0 ≤ s0 := by rw [← hstart]; cases st <;> simp [hsp]
  have hstep : 0 < space * fs + dur * fs := lt_of_le_of_ne (by linarith) (Ne.symm h0)
  have key : ∀ (ps : List ℚ) (y r : List ℚ), (∀ p ∈ ps, 0 ≤ p) →
      ps.foldl (fun y p => zeroSlice y (pyInt p) (pyInt (p + dur * fs))) y = r →
      r.length = y.length ∧
      ((∃ p ∈ ps, ⌊p⌋ ≤ (j : Int) ∧ (j : Int) < ⌊p + dur * fs⌋) → smp r j = 0) ∧
      ((¬ ∃ p ∈ ps, ⌊p⌋ ≤ (j : Int) ∧ (j : Int) < ⌊p + dur * fs⌋) → r[j]? = y[j]?) ∧
      (smp y j = 0 → smp r j = 0) := by
    intro ps
    induction ps with
    | nil => rintro y r _ rfl; simp
    | cons p ps ih =>
      intro y r hp hr
      rw [List.foldl_cons] at hr
      have hp0 := hp p (by simp)
      have hz := zeroSlice_get y (pyInt_nonneg hp0) (pyInt_nonneg (x := p + dur * fs) (by linarith)) j
      have e1 : pyInt p = ⌊p⌋ := by unfold pyInt; rw [if_pos hp0]
      have e2 : pyInt (p + dur * fs) = ⌊p + dur * fs⌋ := by
        unfold pyInt; rw [if_pos (by linarith)]
      rw [e1, e2] at hz hr
      obtain ⟨g1, g2, g3, g4⟩ := ih _ r (fun q hq => hp q (by simp [hq])) hr
      have hlen : (zeroSlice y ⌊p⌋ ⌊p + dur * fs⌋).length = y.length := by simp [zeroSlice]
      refine ⟨g1.trans hlen, ?_, ?_, ?_⟩
      · rintro ⟨q, hq, hin⟩
        rcases List.mem_cons.mp hq with rfl | hq
        · apply g4
          rw [smp, List.getD, hz, if_pos hin]
          cases y[j]? <;> rfl
        · exact g2 ⟨q, hq, hin⟩
      · intro hno
        rw [g3 (fun ⟨q, hq, hin⟩ => hno ⟨q, by simp [hq], hin⟩), hz,
          if_neg (fun hin => hno ⟨p, by simp, hin⟩)]
      · intro hy
        apply g4
        rw [smp, List.getD, hz]
        split
        · cases y[j]? <;> rfl
        · exact hy
  have hmem : ∀ p, p ∈ npArange s0 y.length (space * fs + dur * fs) ↔
      ∃ i : Nat, s0 + i * (space * fs + dur * fs) < y.length ∧
        p = s0 + i * (space * fs + dur * fs) := by
    intro p
    unfold npArange
    simp only [List.mem_map, List.mem_range]
    have hi : ∀ i : Nat, i < ⌈((y.length : ℚ) - s0) / (space * fs + dur * fs)⌉.toNat ↔
        s0 + i * (space * fs + dur * fs) < y.length := by
      intro i
      rw [Int.lt_toNat, Int.lt_ceil, lt_div_iff₀ hstep]
      push_cast
      constructor <;> intro h <;> linarith
    constructor
    · rintro ⟨i, h1, rfl⟩; exact ⟨i, (hi i).mp h1, rfl⟩
    · rintro ⟨i, h1, rfl⟩; exact ⟨i, (hi i).mpr h1, rfl⟩
  obtain ⟨g1, g2, g3, -⟩ := key _ y r (fun p hp => by
    obtain ⟨i, -, rfl⟩ := (hmem p).mp hp
    have : 0 ≤ (i : ℚ) * (space * fs + dur * fs) := mul_nonneg (Nat.cast_nonneg i) hstep.le
    linarith) h
  refine ⟨g1, ?_, ?_⟩
  · rintro ⟨i, h1, h2⟩
    exact g2 ⟨_, (hmem _).mpr ⟨i, h1, rfl⟩, h2⟩
  · intro hno
    refine g3 ?_
    rintro ⟨p, hp, h2⟩
    obtain ⟨i, h1, rfl⟩ := (hmem p).mp hp
    exact hno ⟨i, h1, h2⟩

example : addPauses [1, 1, 1, 1, 1, 1, 1] 2 1 1 false = .ok [1, 0, 0, 1, 0, 0, 1] := by
  decide +kernel

end Danse
