import Verif.Model.DemoEval
import Mathlib.Tactic.Linarith
import Mathlib.Tactic.Ring
import Mathlib.Tactic.NormNum
import Mathlib.Tactic.Positivity
import Mathlib.Algebra.BigOperators.Intervals

/-!
# C136: evaluation of a simulated synchronisation
-/

namespace Danse

theorem mseT_nonneg (est : Nat → ℝ) (tr : ℝ) (t : Nat) : 0 ≤ mseT est tr t := by
  induction t with
  | zero => unfold mseT; positivity
  | succ t ih => unfold mseT; positivity

theorem rmseT_sq (est : Nat → ℝ) (tr : ℝ) (t : Nat) : rmseT est tr t ^ 2 = mseT est tr t :=
  Real.sq_sqrt (mseT_nonneg est tr t)

/-- C136: the squared error curve of a node is the exponentially weighted mean of its squared rate errors:
weight `0.9 ^ t` for the first frame, `0.1 * 0.9 ^ (t - i)` for frame `i`. -/
theorem C136_error_curve (est : Nat → ℝ) (tr : ℝ) (t : Nat) :
    rmseT est tr t ^ 2 = 0.9 ^ t * (est 0 - tr) ^ 2 +
      ∑ i ∈ Finset.range t, 0.1 * 0.9 ^ (t - (i + 1)) * (est (i + 1) - tr) ^ 2 := by
  rw [rmseT_sq]
  induction t with
  | zero => simp [mseT]
  | succ t ih =>
    rw [mseT, ih, Finset.sum_range_succ, mul_add, Finset.mul_sum, Nat.sub_self, pow_zero, pow_succ]
    have : ∀ i ∈ Finset.range t, (0.9 : ℝ) * (0.1 * 0.9 ^ (t - (i + 1)) * (est (i + 1) - tr) ^ 2) =
        0.1 * 0.9 ^ (t + 1 - (i + 1)) * (est (i + 1) - tr) ^ 2 := by
      intro i hi
      have hi := Finset.mem_range.mp hi
      rw [show t + 1 - (i + 1) = (t - (i + 1)) + 1 by omega, pow_succ]
      ring
    rw [Finset.sum_congr rfl this]
    ring

/-- C136: the error curve lies between the smallest and the largest error so far. -/
theorem C136_error_between (est : Nat → ℝ) (tr lo hi : ℝ) (t : Nat) (hlo : 0 ≤ lo)
    (h : ∀ i ≤ t, lo ≤ |est i - tr| ∧ |est i - tr| ≤ hi) :
    lo ≤ rmseT est tr t ∧ rmseT est tr t ≤ hi := by
  have hhi : 0 ≤ hi := hlo.trans ((h 0 (Nat.zero_le _)).1.trans (h 0 (Nat.zero_le _)).2)
  have sq : ∀ i ≤ t, lo ^ 2 ≤ (est i - tr) ^ 2 ∧ (est i - tr) ^ 2 ≤ hi ^ 2 := by
    intro i hi'
    obtain ⟨h1, h2⟩ := h i hi'
    rw [← sq_abs (est i - tr)]
    exact ⟨pow_le_pow_left₀ hlo h1 2, pow_le_pow_left₀ (abs_nonneg _) h2 2⟩
  have key : ∀ s ≤ t, lo ^ 2 ≤ mseT est tr s ∧ mseT est tr s ≤ hi ^ 2 := by
    intro s
    induction s with
    | zero => intro _; exact sq 0 (Nat.zero_le _)
    | succ s ih =>
      intro hs
      obtain ⟨a1, a2⟩ := ih (by omega)
      obtain ⟨b1, b2⟩ := sq (s + 1) hs
      rw [mseT]
      constructor <;> linarith
  obtain ⟨k1, k2⟩ := key t le_rfl
  unfold rmseT
  exact ⟨Real.le_sqrt_of_sq_le k1, Real.sqrt_le_iff.mpr ⟨hhi, k2⟩⟩

/-- C136: from a frame `t₀` on with errors of at most `b`, the squared error curve exceeds `b²` by at most
`0.9 ^ (t - t₀)` times its value at `t₀`. -/
theorem C136_error_settles (est : Nat → ℝ) (tr b : ℝ) (t₀ n : Nat)
    (h : ∀ i, t₀ < i → i ≤ t₀ + n → |est i - tr| ≤ b) :
    rmseT est tr (t₀ + n) ^ 2 ≤ b ^ 2 + 0.9 ^ n * rmseT est tr t₀ ^ 2 := by
  rw [rmseT_sq, rmseT_sq]
  induction n with
  | zero => simp; positivity
  | succ n ih =>
    have h1 := ih fun i a c => h i a (by omega)
    have h2 : (est (t₀ + n + 1) - tr) ^ 2 ≤ b ^ 2 := by
      rw [← sq_abs]
      exact pow_le_pow_left₀ (abs_nonneg _) (h (t₀ + n + 1) (by omega) (by omega)) 2
    rw [← Nat.add_assoc, mseT, pow_succ (0.9 : ℝ) n]
    linarith

theorem unsettled_mem (est : Nat → ℝ) (tr : ℝ) (n t : Nat) :
    t ∈ unsettled est tr n ↔ t < n ∧ rmseT est tr t > 1 := by
  unfold unsettled; simp

theorem unsettled_last (est : Nat → ℝ) (tr : ℝ) (n t : Nat)
    (h : (unsettled est tr n).getLast? = some t) :
    t < n ∧ rmseT est tr t > 1 ∧ ∀ s, t < s → s < n → rmseT est tr s ≤ 1 := by
  have hm := List.mem_of_getLast? h
  obtain ⟨h1, h2⟩ := (unsettled_mem est tr n t).mp hm
  refine ⟨h1, h2, fun s hs hn => ?_⟩
  by_contra hc
  have hs' := (unsettled_mem est tr n s).mpr ⟨hn, not_le.mp hc⟩
  have hp : (unsettled est tr n).Pairwise (· < ·) := by
    unfold unsettled; exact List.Pairwise.filter _ List.pairwise_lt_range
  obtain ⟨l, hl⟩ := List.getLast?_eq_some_iff.mp h
  rw [hl, List.mem_append] at hs'
  rw [hl, List.pairwise_append] at hp
  rcases hs' with hs' | hs'
  · exact absurd (hp.2.2 s hs' t (by simp)) (by omega)
  · simp at hs'; omega

/-- C136: the settling time is `-1` if the error curve never exceeds 1 ppm; otherwise it is the time (in frames
of 2048 samples) of the last frame that does, and every later frame is below. -/
theorem C136_settling (est : Nat → ℝ) (tr : ℝ) {fs : ℝ} (hfs : 0 < fs) (n : Nat) :
    (settlingTime est tr fs n = -1 ↔ ∀ t < n, rmseT est tr t ≤ 1) ∧
    ∀ t : Nat, settlingTime est tr fs n = (t : ℝ) * 2048 / fs ↔
      t < n ∧ rmseT est tr t > 1 ∧ ∀ s, t < s → s < n → rmseT est tr s ≤ 1 := by
  unfold settlingTime
  rcases hl : (unsettled est tr n).getLast? with _ | t
  · have he : unsettled est tr n = [] := List.getLast?_eq_none_iff.mp hl
    have hall : ∀ t < n, rmseT est tr t ≤ 1 := by
      intro t ht
      by_contra hc
      have := (unsettled_mem est tr n t).mpr ⟨ht, not_le.mp hc⟩
      rw [he] at this; cases this
    refine ⟨⟨fun _ => hall, fun _ => rfl⟩, fun t => ⟨fun h => ?_, fun h => ?_⟩⟩
    · have : (0 : ℝ) ≤ (t : ℝ) * 2048 / fs := by positivity
      simp only at h; linarith
    · exact absurd (hall t h.1) (not_le.mpr h.2.1)
  · obtain ⟨h1, h2, h3⟩ := unsettled_last est tr n t hl
    refine ⟨⟨fun h => ?_, fun h => absurd (h t h1) (not_le.mpr h2)⟩, fun t' => ⟨fun h => ?_, fun h => ?_⟩⟩
    · have : (0 : ℝ) ≤ (t : ℝ) * 2 ^ 11 / fs := by positivity
      simp only at h; linarith
    · have : t = t' := by
        simp only at h
        rw [div_left_inj' hfs.ne'] at h
        norm_num at h
        exact h
      subst this; exact ⟨h1, h2, h3⟩
    · have : t = t' := by
        obtain ⟨a1, a2, a3⟩ := h
        rcases lt_trichotomy t t' with c | c | c
        · exact absurd (h3 t' c a1) (not_le.mpr a2)
        · exact c
        · exact absurd (a3 t c h1) (not_le.mpr h2)
      subst this; norm_num

/-- C136: a run whose error curve never exceeds 1 ppm, however good, is not rated: its settling time is `-1`
and the ratio is `None`. -/
theorem C136_perfect_not_rated (G : List ℝ → ℝ → List ℝ) (est : Nat → ℝ) (tr fs tMax rto : ℝ) (hfs : 0 < fs)
    (n : Nat) (h : ∀ t < n, |est t - tr| ≤ 1) (ref num x synced : List ℝ) :
    ssnrOf G ref num x synced (settlingTime est tr fs n) fs tMax rto = none := by
  unfold ssnrOf
  rw [if_pos]
  refine Or.inl ((C136_settling est tr hfs n).1.mpr fun t ht => ?_)
  exact (C136_error_between est tr 0 1 t le_rfl fun i hi => ⟨abs_nonneg _, h i (by omega)⟩).2

/-- C136: a rated node: `a` is the first sample of the last frame above 1 ppm. The signal is cut at `a`, shifted
by the residual offset, and compared with the synchronous signal from `a` on, over the length of the shifted
signal or `tMax`, whichever is shorter: the compared section ends at `Tc + tMax`, not at `tMax`. -/
theorem C136_rated (G : List ℝ → ℝ → List ℝ) (est : Nat → ℝ) (tr fs tMax rto : ℝ) (hfs : 0 < fs)
    (n t : Nat) (ht : t < n) (h1 : rmseT est tr t > 1) (h2 : ∀ s, t < s → s < n → rmseT est tr s ≤ 1)
    (hT : 0 ≤ tMax) (ref num x synced : List ℝ)
    (hlong : t * 2048 + 2 ^ 13 ≤ min ⌊tMax * fs⌋.toNat synced.length) :
    ssnrOf G ref num x synced (settlingTime est tr fs n) fs tMax rto =
      let s := (G (x.drop (t * 2048)) rto).take ⌊tMax * fs⌋.toNat
      some (10 * Real.logb 10 (npVar ((num.drop (t * 2048)).take s.length) /
        npVar (List.zipWith (· - ·) ((ref.drop (t * 2048)).take s.length) s))) := by
  have htc : settlingTime est tr fs n = (t : ℝ) * 2048 / fs := ((C136_settling est tr hfs n).2 t).mpr ⟨ht, h1, h2⟩
  have ha : pyIntR (settlingTime est tr fs n * fs) = ((t * 2048 : ℕ) : Int) := by
    rw [htc, div_mul_cancel₀ _ hfs.ne']
    unfold pyIntR
    rw [if_pos (by positivity)]
    have : ((t : ℝ) * 2048) = ((t * 2048 : ℕ) : ℝ) := by push_cast; ring
    rw [this, Int.floor_natCast]
  have hne : settlingTime est tr fs n ≠ -1 := by
    rw [htc]
    have : (0 : ℝ) ≤ (t : ℝ) * 2048 / fs := by positivity
    intro h; linarith
  have hM0 : 0 ≤ tMax * fs := by positivity
  have hM : pyIntR (tMax * fs) = (⌊tMax * fs⌋.toNat : Int) := by
    unfold pyIntR
    rw [if_pos hM0, Int.toNat_of_nonneg (Int.floor_nonneg.mpr hM0)]
  have hsl : ∀ (l : List ℝ) (a b : Nat), pySlice l (a : Int) (b : Int) = (l.drop a).take (b - a) := by
    intro l a b
    unfold pySlice pySliceBound
    simp only
    rw [if_neg (by omega), if_neg (by omega), Int.toNat_natCast, Int.toNat_natCast]
    rcases Nat.lt_or_ge a l.length with h | h
    · rw [Nat.min_eq_left h.le]
      rcases Nat.lt_or_ge b l.length with h' | h'
      · rw [Nat.min_eq_left h'.le]
      · rw [Nat.min_eq_right h', List.take_of_length_le (by simp), List.take_of_length_le (by simp; omega)]
    · rw [Nat.min_eq_right h]
      rw [List.drop_eq_nil_of_le le_rfl, List.drop_eq_nil_of_le h]; simp
  have hlen : ¬ (pySlice synced (pyIntR (settlingTime est tr fs n * fs)) (pyIntR (tMax * fs))).length < 2 ^ 13 := by
    rw [ha, hM, hsl, List.length_take, List.length_drop]
    simp only [Nat.le_min] at hlong
    omega
  unfold ssnrOf
  rw [if_neg (by rintro (h | h); exacts [hne h, hlen h])]
  simp only
  rw [ha, hM]
  have e1 : pySlice x ((t * 2048 : ℕ) : Int) (x.length : Int) = x.drop (t * 2048) := by
    rw [hsl, List.take_of_length_le (by simp)]
  rw [e1]
  generalize G (x.drop (t * 2048)) rto = g
  have e2 : (if (g.length : ℝ) > tMax * fs then pySlice g 0 (⌊tMax * fs⌋.toNat : Int) else g) =
      g.take ⌊tMax * fs⌋.toNat := by
    split_ifs with h
    · have := hsl g 0 ⌊tMax * fs⌋.toNat
      rw [Nat.cast_zero] at this
      rw [this, List.drop_zero, Nat.sub_zero]
    · rw [List.take_of_length_le]
      have : (g.length : Int) ≤ ⌊tMax * fs⌋ := Int.le_floor.mpr (by exact_mod_cast not_lt.mp h)
      omega
  rw [e2]
  generalize g.take ⌊tMax * fs⌋.toNat = s
  have e3 : ∀ l : List ℝ, pySlice l ((t * 2048 : ℕ) : Int) ((s.length : Int) + ((t * 2048 : ℕ) : Int)) =
      (l.drop (t * 2048)).take s.length := by
    intro l
    rw [show (s.length : Int) + ((t * 2048 : ℕ) : Int) = ((s.length + t * 2048 : ℕ) : Int) by push_cast; ring,
      hsl, Nat.add_sub_cancel]
  rw [e3, e3]

/-- C136: the frame at which the residual offset is taken exists and is the last complete one before `tMax`, and estimates that do not change leave no
residual offset; estimates that were `d` ppm lower during the first `j` frames leave `d / 1e6` samples per sample of these. -/
theorem C136_residual (est : Nat → ℝ) (n : Nat) (tMax fs frameLen : ℝ) (hn : 0 < n)
    (hT : 1 ≤ tMax * fs / frameLen) :
    (∃ k : Nat, rtoFrame n tMax fs frameLen = k ∧ k < n ∧ (k + 1 : ℝ) ≤ tMax * fs / frameLen ∧
      (k + 1 < n → tMax * fs / frameLen < k + 2)) ∧
    (∀ k : Nat, (∀ t ≤ k, est t = est k) → residualOffset est k frameLen = 0) ∧
    ∀ k j : Nat, j ≤ k → ∀ d : ℝ, (∀ t < j, est t = est k - d) → (∀ t, j ≤ t → t ≤ k → est t = est k) →
      residualOffset est k frameLen = d / 1000000 * (j * frameLen) := by
  refine ⟨?_, ?_, ?_⟩
  · have h1 : 1 ≤ ⌊tMax * fs / frameLen⌋ := Int.le_floor.mpr (by exact_mod_cast hT)
    unfold rtoFrame
    split_ifs with h
    · refine ⟨n - 1, by omega, by omega, ?_, fun h => by omega⟩
      have : ((n : Int) : ℝ) ≤ tMax * fs / frameLen := Int.le_floor.mp h.le
      have e : ((n - 1 : ℕ) : ℝ) = n - 1 := by rw [Nat.cast_sub (by omega)]; simp
      rw [e]
      push_cast at this
      linarith
    · obtain ⟨k, hk⟩ : ∃ k : Nat, ⌊tMax * fs / frameLen⌋ = (k : Int) + 1 := ⟨(⌊tMax * fs / frameLen⌋ - 1).toNat, by omega⟩
      refine ⟨k, by omega, by omega, ?_, fun _ => ?_⟩
      · have := Int.floor_le (tMax * fs / frameLen)
        rw [hk] at this
        push_cast at this
        exact this
      · have := Int.lt_floor_add_one (tMax * fs / frameLen)
        rw [hk] at this
        push_cast at this
        linarith
  · intro k hk
    unfold residualOffset
    rw [Finset.sum_eq_zero]
    · ring
    · intro t ht
      rw [hk t (Finset.mem_range.mp ht).le]; ring
  · intro k j hj d h1 h2
    unfold residualOffset
    obtain ⟨i, rfl⟩ := Nat.exists_eq_add_of_le hj
    rw [Finset.sum_range_add, Finset.sum_congr rfl (g := fun _ => d), Finset.sum_eq_zero (s := Finset.range i)]
    · rw [Finset.sum_const, Finset.card_range, nsmul_eq_mul]; ring
    · intro t ht
      rw [h2 (j + t) (by omega) (by have := Finset.mem_range.mp ht; omega)]; ring
    · intro t ht
      rw [h1 t (Finset.mem_range.mp ht)]; ring

/-- C136: the power curve of a node never falls below the assumed noise power, nor rises above the largest
squared sample so far. -/
theorem C136_power_bounds {alpha nv : ℝ} (ha0 : 0 ≤ alpha) (ha1 : alpha ≤ 1) (hnv : 0 < nv) (sig : Nat → ℝ)
    (B : ℝ) (hB : nv ≤ B) (t : Nat) (h : ∀ i ≤ t, sig i ^ 2 ≤ B) :
    nv ≤ sigVar alpha nv sig t ∧ sigVar alpha nv sig t ≤ B := by
  induction t with
  | zero => unfold sigVar; rw [if_pos hnv]; exact ⟨le_rfl, hB⟩
  | succ t ih =>
    obtain ⟨h1, h2⟩ := ih fun i hi => h i (by omega)
    have h3 := h (t + 1) le_rfl
    unfold sigVar
    simp only
    split_ifs with c
    · exact ⟨le_rfl, hB⟩
    · refine ⟨not_lt.mp c, ?_⟩
      nlinarith [mul_le_mul_of_nonneg_left h2 ha0, mul_le_mul_of_nonneg_left h3 (sub_nonneg.mpr ha1)]

/-- C136: the SNR curve of a node is a number exactly where the power curve is above the noise power (and
`-inf` elsewhere, never NaN); it starts at `-inf`, and a signal whose samples never exceed the noise power has
`-inf` throughout. -/
theorem C136_snr_curve {alpha nv : ℝ} (ha0 : 0 ≤ alpha) (ha1 : alpha ≤ 1) (hnv : 0 < nv) (sig : Nat → ℝ) :
    (∀ t, (nodeSnr alpha nv sig t = none ∧ sigVar alpha nv sig t = nv) ∨
      (nv < sigVar alpha nv sig t ∧
        nodeSnr alpha nv sig t = some (10 * Real.logb 10 (sigVar alpha nv sig t / nv - 1)))) ∧
    nodeSnr alpha nv sig 0 = none ∧
    ∀ t, (∀ i ≤ t, sig i ^ 2 ≤ nv) → nodeSnr alpha nv sig t = none := by
  have hlow : ∀ t, nv ≤ sigVar alpha nv sig t := by
    intro t
    cases t with
    | zero => unfold sigVar; rw [if_pos hnv]
    | succ t => unfold sigVar; simp only; split_ifs with c; exacts [le_rfl, not_lt.mp c]
  have hnone : ∀ t, sigVar alpha nv sig t = nv → nodeSnr alpha nv sig t = none := by
    intro t h; unfold nodeSnr; simp [h]
  refine ⟨fun t => ?_, hnone 0 (by unfold sigVar; rw [if_pos hnv]), fun t h => hnone t ?_⟩
  · rcases (hlow t).eq_or_lt with h | h
    · exact Or.inl ⟨hnone t h.symm, h.symm⟩
    · refine Or.inr ⟨h, ?_⟩
      unfold nodeSnr
      simp only
      rw [if_neg (by linarith), sub_div, div_self hnv.ne']
  · exact le_antisymm (C136_power_bounds ha0 ha1 hnv sig nv le_rfl t h).2 (hlow t)

/-- C136: the smoothed power at sample `t` (window of `2 * H` samples) is the sum over `[t - H, t + H)` divided by
the full window length: samples outside the recording count as zero. -/
theorem C136_smoothed (v : Nat → ℝ) (H n t : Nat) (hH : 0 < H) :
    sigVarSmoothed (2 * H) n v t = (∑ u ∈ Finset.Ico (t - H) (min n (t + H)), v u) / (2 * H) := by
  unfold sigVarSmoothed
  push_cast
  congr 1
  refine Finset.sum_congr ?_ fun _ _ => rfl
  ext u
  simp only [Finset.mem_filter, Finset.mem_range, Finset.mem_Ico, lt_min_iff]
  omega

/-- C136: so at the beginning of a recording of constant power `c` the smoothed curve sees half of it: `-inf` for
every signal-to-noise ratio up to 0 dB. -/
theorem C136_smoothed_edge {alpha nv c : ℝ} (H n : Nat) (hH : 0 < H) (hn : H ≤ n) (sig : Nat → ℝ)
    (hc : ∀ t, sigVar alpha nv sig t = c) (hlow : c ≤ 2 * nv) :
    nodeSnrSmoothed alpha nv (2 * H) n sig 0 = none := by
  unfold nodeSnrSmoothed
  simp only
  rw [if_pos]
  rw [C136_smoothed _ _ _ _ hH]
  simp only [hc, Nat.zero_sub, Nat.zero_add, Nat.min_eq_right hn]
  have hH' : (0 : ℝ) < H := by exact_mod_cast hH
  simp only [Finset.sum_const, Nat.Ico_zero_eq_range, Finset.card_range, nsmul_eq_mul]
  rw [sub_nonpos, div_le_iff₀ (by positivity)]
  nlinarith

/-- Estimates 3, 0, 0, … for a true offset of 0: the curve is 3, 2.84…, and goes below 1 later. -/
example : rmseT (fun t => if t = 0 then 3 else 0) 0 0 > 1 ∧
    rmseT (fun t => if t = 0 then 3 else 0) 0 30 ≤ 1 := by
  constructor
  · exact lt_of_lt_of_le (by norm_num : (1 : ℝ) < 3)
      ((C136_error_between _ 0 3 3 0 (by norm_num) fun i hi => by
        rw [Nat.le_zero.mp hi]; norm_num).1)
  · have h := C136_error_settles (fun t => if t = 0 then (3 : ℝ) else 0) 0 0 0 30 fun i hi _ => by
      rw [if_neg (by omega)]; norm_num
    have h0 := (C136_error_between (fun t => if t = 0 then (3 : ℝ) else 0) 0 3 3 0 (by norm_num) fun i hi => by
        rw [Nat.le_zero.mp hi]; norm_num)
    have h3 : rmseT (fun t => if t = 0 then (3 : ℝ) else 0) 0 0 = 3 := le_antisymm h0.2 h0.1
    rw [h3] at h
    have h1 : rmseT (fun t => if t = 0 then (3 : ℝ) else 0) 0 (0 + 30) ^ 2 ≤ 1 ^ 2 := by
      refine h.trans ?_
      norm_num
    exact (pow_le_pow_iff_left₀ (Real.sqrt_nonneg _) (by norm_num) (by norm_num)).mp h1

end Danse
