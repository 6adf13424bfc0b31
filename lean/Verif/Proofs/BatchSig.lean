import Verif.Spec.BatchSig
import Verif.Proofs.Batch3
import Verif.Proofs.BatchTI
import Verif.Props.Signals
import Mathlib.Analysis.SpecialFunctions.Complex.Log

/-! # Lemmas about the signal path of batch mode -/

namespace Danse
open Matrix

theorem stftPad_eq {L N Ns : Nat} (h0 : 0 < Ns) (h1 : Ns ≤ N) (h2 : N ≤ L) :
    stftPad L N Ns = if Ns ∣ L - N then 0 else Ns - (L - N) % Ns := by
  unfold stftPad
  have e : ((L : Int) - N) = ((L - N : Nat) : Int) := by omega
  rw [e]
  generalize L - N = m
  have hm := Nat.mod_lt m h0
  split
  · next h =>
    have : (-(m : Int)) % Ns = 0 := by
      apply Int.emod_eq_zero_of_dvd
      exact (Int.dvd_neg).mpr (Int.natCast_dvd_natCast.mpr h)
    rw [this]; rfl
  · next h =>
    have hr : m % Ns ≠ 0 := fun e => h (Nat.dvd_of_mod_eq_zero e)
    have h3 : (-(m : Int)) % Ns = ((Ns - m % Ns : Nat) : Int) := by
      have hd := Nat.div_add_mod m Ns
      have : -(m : Int) = ((Ns - m % Ns : Nat) : Int) + Ns * (-((m / Ns : Nat) : Int) - 1) := by
        have : (m : Int) = Ns * (m / Ns : Nat) + (m % Ns : Nat) := by exact_mod_cast hd.symm
        rw [Nat.cast_sub hm.le]
        nlinarith
      rw [this, Int.add_mul_emod_self_left, Int.emod_eq_of_lt (by omega) (by omega)]
    rw [h3, Int.emod_eq_of_lt (by omega) (by omega)]
    omega

theorem stftCount_eq {L N Ns : Nat} (h0 : 0 < Ns) (h1 : Ns ≤ N) (h2 : N ≤ L) :
    stftCount L N Ns = (L - N) / Ns + 1 + if Ns ∣ L - N then 0 else 1 := by
  unfold stftCount
  rw [stftPad_eq h0 h1 h2]
  have hd := Nat.div_add_mod (L - N) Ns
  have hm := Nat.mod_lt (L - N) h0
  split
  · next h =>
    have : L + 0 + Ns - N = (L - N) + Ns := by omega
    rw [this, Nat.add_div_right _ h0]
  · next h =>
    have hr : (L - N) % Ns ≠ 0 := fun e => h (Nat.dvd_of_mod_eq_zero e)
    have : L + (Ns - (L - N) % Ns) + Ns - N = 0 + Ns * ((L - N) / Ns + 2) := by
      rw [Nat.mul_add]; omega
    rw [this, Nat.add_mul_div_left _ _ h0, Nat.zero_div]
    omega

theorem stftScale_eq {win : List ℝ} (h : 0 < win.sum) : stftScale win = 1 := by
  unfold stftScale winSum
  rw [Real.sqrt_div zero_le_one, Real.sqrt_one, Real.sqrt_sq h.le, one_div, inv_mul_cancel₀ h.ne']

theorem list_sum_range_map {M : Type} [AddCommMonoid M] (n : Nat) (g : Nat → M) :
    ((List.range n).map g).sum = ∑ i ∈ Finset.range n, g i := by
  rw [Finset.sum_range]
  rw [← List.sum_ofFn]
  congr 1
  apply List.ext_getElem (by simp)
  intro i h1 h2
  simp

theorem rfftBin_map (N : Nat) (g : Nat → ℝ) (f : Nat) :
    rfftBin N ((List.range N).map g) f = ∑ n ∈ Finset.range N,
      ((g n : ℝ) : ℂ) * Complex.exp (-2 * Real.pi * Complex.I * f * n / N) := by
  unfold rfftBin
  rw [list_sum_range_map, List.length_map, List.length_range]
  apply Finset.sum_congr rfl
  intro n hn
  have := Finset.mem_range.mp hn
  congr 3
  simp [List.getD_eq_getElem?_getD, this]

theorem exp_pow_eq (N f n : Nat) :
    Complex.exp (-2 * Real.pi * Complex.I * f * n / N) =
      (Complex.exp (2 * Real.pi * Complex.I / N))⁻¹ ^ (f * n) := by
  rw [← Complex.exp_neg, ← Complex.exp_nat_mul]
  congr 1
  push_cast
  ring

/-- The inverse transform only reads the bins up to `N / 2`. -/
theorem irfft_congr {N : Nat} {X Y : Nat → ℂ} (h : ∀ f < N / 2 + 1, X f = Y f) (t : Nat) :
    irfft N X t = irfft N Y t := by
  unfold irfft
  congr 1
  apply Finset.sum_congr rfl
  intro k hk
  have := Finset.mem_range.mp hk
  by_cases h2 : 2 * k ≤ N
  · rw [if_pos h2, if_pos h2, h k (by omega)]
  · rw [if_neg h2, if_neg h2, h (N - k) (by omega)]

theorem irfft_add (N : Nat) (X Y : Nat → ℂ) (t : Nat) :
    irfft N (fun f => X f + Y f) t = irfft N X t + irfft N Y t := by
  unfold irfft
  rw [← add_div, ← Finset.sum_add_distrib]
  congr 1
  apply Finset.sum_congr rfl
  intro k _
  rw [← Complex.add_re]
  congr 1
  split
  · ring
  · rw [star_add]; ring

/-- The transform of a real frame, back in the time domain. -/
theorem irfft_rfft {N : Nat} (g : Nat → ℝ) {t : Nat} (ht : t < N) :
    irfft N (fun f => ∑ n ∈ Finset.range N,
      ((g n : ℝ) : ℂ) * Complex.exp (-2 * Real.pi * Complex.I * f * n / N)) t = g t := by
  have hN : 0 < N := by omega
  have r := dftRoot_complex hN
  generalize hz : Complex.exp (2 * Real.pi * Complex.I / N) = ζ at r
  set x : List ℂ := (List.range N).map fun n => ((g n : ℝ) : ℂ) with hx
  have hxr : ∀ s < N, star (at0 x s) = at0 x s := by
    intro s hs
    rw [hx, at0_range_map hs]
    exact Complex.conj_ofReal _
  have hd : ∀ k < N, (if 2 * k ≤ N then (∑ n ∈ Finset.range N,
      ((g n : ℝ) : ℂ) * Complex.exp (-2 * Real.pi * Complex.I * k * n / N)) else
      star (∑ n ∈ Finset.range N,
        ((g n : ℝ) : ℂ) * Complex.exp (-2 * Real.pi * Complex.I * (N - k : Nat) * n / N))) =
      at0 (dft ζ N x) k := by
    have key : ∀ k < N, (∑ n ∈ Finset.range N,
      ((g n : ℝ) : ℂ) * Complex.exp (-2 * Real.pi * Complex.I * k * n / N)) =
      at0 (dft ζ N x) k := by
      intro k hk
      unfold dft
      rw [at0_range_map hk]
      apply Finset.sum_congr rfl
      intro n hn
      rw [exp_pow_eq, hz, hx, at0_range_map (Finset.mem_range.mp hn)]
    intro k hk
    by_cases h2 : 2 * k ≤ N
    · rw [if_pos h2, key k hk]
    · rw [if_neg h2, key (N - k) (by omega)]
      have hs := dft_symm r hxr hk
      rw [Nat.mod_eq_of_lt (by omega)] at hs
      rw [hs, star_star]
  have hi : at0 (idft ζ N (dft ζ N x)) t = at0 x t := by rw [idft_dft r (x := x) (by simp [hx])]
  unfold irfft
  rw [hz]
  have h1 : ∀ k ∈ Finset.range N, _ = _ := fun k hk => congrArg
    (fun z : ℂ => (z * ζ ^ (k * t)).re) (hd k (Finset.mem_range.mp hk))
  rw [Finset.sum_congr rfl h1, ← Complex.re_sum]
  unfold idft at hi
  rw [at0_range_map ht, hx, at0_range_map ht] at hi
  have := congrArg Complex.re hi
  rw [Complex.ofReal_re] at this
  rw [← this, hx]
  rw [Complex.div_natCast_re]

/-- The window's samples of one signal, transformed: frame `t` of the recordings. -/
theorem stft_frame {win : List ℝ} {Ns L : Nat} (x : Nat → ℝ) (hs : 0 < win.sum) (h0 : 0 < Ns)
    (h2 : win.length ≤ L) :
    ∃ X, stft win Ns L x = .ok X ∧ X.length = stftCount L win.length Ns ∧
      ∀ t < stftCount L win.length Ns, X.getD t 0 = fun f => winSpectrum win Ns
        (fun n => if n < L then x n else 0) t f := by
  unfold stft
  rw [if_neg (by omega), if_neg (by omega)]
  refine ⟨_, rfl, by simp, ?_⟩
  intro t ht
  rw [List.getD_eq_getElem?_getD, List.getElem?_map, List.getElem?_range ht]
  simp only [Option.map_some, Option.getD_some]
  funext f
  rw [stftScale_eq hs, rfftBin_map]
  unfold winSpectrum
  simp

theorem winSpectrum_congr {win : List ℝ} {Ns t : Nat} {x y : Nat → ℝ} (f : Nat)
    (h : ∀ n < win.length, x (t * Ns + n) = y (t * Ns + n)) :
    winSpectrum win Ns x t f = winSpectrum win Ns y t f := by
  unfold winSpectrum
  apply Finset.sum_congr rfl
  intro n hn
  rw [h n (Finset.mem_range.mp hn)]

theorem istft_length (win : List ℝ) (Ns : Nat) (fr : List (Nat → ℂ)) :
    (istft win Ns fr).length = win.length + (fr.length - 1) * Ns := by
  simp [istft]

theorem istft_get (win : List ℝ) (Ns : Nat) (fr : List (Nat → ℂ)) {n : Nat}
    (hn : n < win.length + (fr.length - 1) * Ns) :
    (istft win Ns fr)[n]? = some (winSum win * olaSample win Ns fr.length (fun t => fr.getD t 0) n) := by
  unfold istft
  simp only []
  rw [List.getElem?_map, List.getElem?_range hn, Option.map_some]
  congr 1
  unfold olaSample olaNorm hits
  have hb : ∀ t : Nat, (decide (t * Ns ≤ n) && decide (n < t * Ns + win.length)) =
      decide (t * Ns ≤ n ∧ n < t * Ns + win.length) := fun t => by rw [Bool.decide_and]
  simp only [hb, decide_eq_true_eq]
  rw [Finset.sum_filter, Finset.sum_filter, ← mul_div_assoc, Finset.mul_sum]
  congr 1
  apply Finset.sum_congr rfl
  intro t _
  split
  · ring
  · ring

/-- Where no frame reaches, the result is zero. -/
theorem olaSample_none {win : List ℝ} {Ns T n : Nat} (X : Nat → Nat → ℂ) (hT : 0 < T)
    (h : win.length + (T - 1) * Ns ≤ n) : olaSample win Ns T X n = 0 := by
  have : hits win.length Ns T n = ∅ := by
    unfold hits
    rw [Finset.filter_eq_empty_iff]
    intro t ht h3
    have ht := Finset.mem_range.mp ht
    have : t * Ns ≤ (T - 1) * Ns := Nat.mul_le_mul_right _ (by omega)
    omega
  unfold olaSample
  rw [this, Finset.sum_empty, zero_div]

theorem batchOut_get {win : List ℝ} {Ns L : Nat} {fr : List (Nat → ℂ)} (hs : 0 < win.sum)
    (hT : 0 < fr.length) (hL : win.length + (fr.length - 1) * Ns ≤ L) :
    (batchOut win Ns L fr).length = L ∧ ∀ n < L, (batchOut win Ns L fr)[n]? =
      some (olaSample win Ns fr.length (fun t => fr.getD t 0) n) := by
  unfold batchOut
  have hl := istft_length win Ns fr
  constructor
  · rw [List.length_map]
    split
    · rw [List.length_append, List.length_replicate]; omega
    · omega
  · intro n hn
    rw [List.getElem?_map]
    by_cases h : n < win.length + (fr.length - 1) * Ns
    · have : (if (istft win Ns fr).length < L then
          istft win Ns fr ++ List.replicate (L - (istft win Ns fr).length) 0 else istft win Ns fr)[n]?
          = (istft win Ns fr)[n]? := by
        split
        · rw [List.getElem?_append_left (by omega)]
        · rfl
      rw [this, istft_get win Ns fr h, Option.map_some]
      congr 1
      unfold winSum
      rw [mul_comm, mul_div_assoc, div_self hs.ne', mul_one]
    · rw [if_pos (by omega), List.getElem?_append_right (by omega), hl,
        List.getElem?_replicate, if_pos (by omega), Option.map_some, zero_div,
        olaSample_none _ hT (by omega)]

theorem olaSample_congr {win : List ℝ} {Ns T n : Nat} {X Y : Nat → Nat → ℂ}
    (h : ∀ t < T, ∀ f < win.length / 2 + 1, X t f = Y t f) :
    olaSample win Ns T X n = olaSample win Ns T Y n := by
  unfold olaSample
  congr 1
  apply Finset.sum_congr rfl
  intro t ht
  have := Finset.mem_range.mp (Finset.mem_filter.mp ht).1
  rw [irfft_congr (h t this)]

theorem olaSample_add {win : List ℝ} {Ns T : Nat} (X Y : Nat → Nat → ℂ) (n : Nat) :
    olaSample win Ns T (fun t f => X t f + Y t f) n =
      olaSample win Ns T X n + olaSample win Ns T Y n := by
  unfold olaSample
  rw [← add_div, ← Finset.sum_add_distrib]
  congr 1
  apply Finset.sum_congr rfl
  intro t _
  rw [irfft_add]
  ring

/-- Frames of a signal, put together again. -/
theorem olaSample_winSpectrum {win : List ℝ} {Ns T n : Nat} (x : Nat → ℝ)
    (h : 1e-10 < olaNorm win Ns T n) :
    olaSample win Ns T (winSpectrum win Ns x) n = x n := by
  have h0 : olaNorm win Ns T n ≠ 0 := by
    intro e; rw [e] at h; norm_num at h
  unfold olaSample
  rw [if_pos h]
  have : ∑ t ∈ hits win.length Ns T n, irfft win.length (winSpectrum win Ns x t) (n - t * Ns) *
      win.getD (n - t * Ns) 0 = x n * olaNorm win Ns T n := by
    unfold olaNorm
    rw [Finset.mul_sum]
    apply Finset.sum_congr rfl
    intro t ht
    have h3 := (Finset.mem_filter.mp ht).2
    unfold winSpectrum
    rw [irfft_rfft _ (by omega : n - t * Ns < win.length)]
    rw [show t * Ns + (n - t * Ns) = n by omega]
    ring
  rw [this, mul_div_assoc, div_self h0, mul_one]

end Danse
