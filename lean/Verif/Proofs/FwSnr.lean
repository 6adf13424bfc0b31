import Verif.Spec.FwSnr
import Verif.Proofs.BatchSig
import Verif.Proofs.Metrics
import Mathlib.Data.Nat.Log

/-! # Lemmas on the frequency-weighted segmental SNR -/

namespace Danse

theorem pyRoundInt_spec {x : ℚ} {n : Nat} (h : |(n : ℚ) - x| ≤ 1 / 2)
    (he : |(n : ℚ) - x| = 1 / 2 → Even n) : pyRoundInt x = n := by
  have h1 := Int.floor_le x
  have h2 := Int.lt_floor_add_one x
  have ha := abs_le.mp h
  unfold pyRoundInt
  simp only
  have hcast : ((n : Int) : ℚ) = (n : ℚ) := by norm_cast
  by_cases h3 : x - ⌊x⌋ < 1 / 2
  · rw [if_pos h3]
    have e1 : ((⌊x⌋ : Int) : ℚ) < ((n : Int) : ℚ) + 1 := by rw [hcast]; linarith
    have e2 : ((n : Int) : ℚ) < ((⌊x⌋ : Int) : ℚ) + 1 := by rw [hcast]; linarith
    have e1 : ⌊x⌋ < (n : Int) + 1 := by exact_mod_cast e1
    have e2 : (n : Int) < ⌊x⌋ + 1 := by exact_mod_cast e2
    omega
  · rw [if_neg h3]
    by_cases h4 : 1 / 2 < x - ⌊x⌋
    · rw [if_pos h4]
      have e1 : ((⌊x⌋ : Int) : ℚ) < ((n : Int) : ℚ) := by rw [hcast]; linarith
      have e2 : ((n : Int) : ℚ) < ((⌊x⌋ : Int) : ℚ) + 2 := by rw [hcast]; linarith
      have e1 : ⌊x⌋ < (n : Int) := by exact_mod_cast e1
      have e2 : (n : Int) < ⌊x⌋ + 2 := by exact_mod_cast e2
      omega
    · rw [if_neg h4]
      have hx : x = ⌊x⌋ + 1 / 2 := by linarith
      have e1 : ((⌊x⌋ : Int) : ℚ) ≤ ((n : Int) : ℚ) := by rw [hcast]; linarith
      have e2 : ((n : Int) : ℚ) ≤ ((⌊x⌋ : Int) : ℚ) + 1 := by rw [hcast]; linarith
      have e1 : ⌊x⌋ ≤ (n : Int) := by exact_mod_cast e1
      have e2 : (n : Int) ≤ ⌊x⌋ + 1 := by exact_mod_cast e2
      have hev : Even n := by
        apply he
        rcases (by omega : (n : Int) = ⌊x⌋ ∨ (n : Int) = ⌊x⌋ + 1) with h5 | h5
        · have : (n : ℚ) = ⌊x⌋ := by rw [← hcast, h5]
          rw [this]
          rw [abs_of_nonpos (by linarith)]
          linarith
        · have : (n : ℚ) = ⌊x⌋ + 1 := by rw [← hcast, h5]; push_cast; rfl
          rw [this]
          rw [abs_of_nonneg (by linarith)]
          linarith
      obtain ⟨m, hm⟩ := hev
      split <;> omega

theorem hannAt_eq (win t : Nat) : hannAt win t = (1 - Real.cos (2 * Real.pi * (t + 1) / (win + 1))) / 2 := by
  unfold hannAt
  ring

theorem hannAt_pos {win t : Nat} (h : t < win) : 0 < hannAt win t := by
  rw [hannAt_eq]
  have hp := Real.pi_pos
  have hw : (0 : ℝ) < win + 1 := by positivity
  have h0 : 0 < 2 * Real.pi * (t + 1) / (win + 1) := by positivity
  have h1 : 2 * Real.pi * (t + 1) / (win + 1) < 2 * Real.pi := by
    rw [div_lt_iff₀ hw]
    have : (t : ℝ) + 1 < win + 1 := by exact_mod_cast Nat.succ_lt_succ h
    nlinarith
  have : Real.cos (2 * Real.pi * (t + 1) / (win + 1)) < 1 := by
    refine lt_of_le_of_ne (Real.cos_le_one _) fun h => ?_
    have := (Real.cos_eq_one_iff_of_lt_of_lt (by linarith) h1).mp h
    linarith
  linarith

theorem hannSum_pos {win : Nat} (h : 0 < win) : 0 < ((List.range win).map (hannAt win)).sum := by
  refine List.sum_pos _ (fun v hv => ?_) ?_
  · obtain ⟨t, ht, rfl⟩ := List.mem_map.mp hv
    exact hannAt_pos (List.mem_range.mp ht)
  · simp; omega

theorem zipWith_map_same {T U V W : Type} (f : U → V → W) (g : T → U) (h : T → V) (l : List T) :
    List.zipWith f (l.map g) (l.map h) = l.map fun a => f (g a) (h a) := by
  induction l with
  | nil => rfl
  | cons a r ih => rw [List.map_cons, List.map_cons, List.zipWith_cons_cons, ih]; rfl

variable {c : FwCfg}

/-- Magnitudes of the code. -/
theorem fwMag_eq (x : List ℝ) (y : Nat → ℝ) (t f : Nat)
    (h : ∀ n < c.win, x.getD (t * c.skip + n) 0 = y (t * c.skip + n)) :
    fwMag c.win c.skip c.nfft x t f = c.mag y t f / ((List.range c.win).map (hannAt c.win)).sum := by
  unfold fwMag FwCfg.mag
  congr 2
  unfold rfftBin hannFrame
  rw [List.length_map, List.length_range, list_sum_range_map]
  refine Finset.sum_congr rfl fun n hn => ?_
  have hn := Finset.mem_range.mp hn
  rw [List.getD_eq_getElem?_getD, List.getElem?_map, List.getElem?_range hn]
  simp only [Option.map_some, Option.getD_some]
  rw [hannAt_eq, h n hn]

theorem fwSpec_eq (hw : 0 < c.win) (x : List ℝ) (y : Nat → ℝ) (t : Nat)
    (h : ∀ n < c.win, x.getD (t * c.skip + n) 0 = y (t * c.skip + n)) :
    fwSpec c.win c.skip c.nfft x t = open Classical in if c.total y t = 0 then none else
      some ((List.range (c.nfft / 2)).map fun f => c.mag y t f / c.total y t) := by
  have hs := hannSum_pos hw
  have h1 : (List.range (c.nfft / 2)).map (fwMag c.win c.skip c.nfft x t) =
      (List.range (c.nfft / 2)).map fun f => c.mag y t f / ((List.range c.win).map (hannAt c.win)).sum :=
    List.map_congr_left fun f _ => fwMag_eq x y t f h
  have h2 : ((List.range (c.nfft / 2)).map (fwMag c.win c.skip c.nfft x t)).sum =
      c.total y t / ((List.range c.win).map (hannAt c.win)).sum := by
    rw [h1, list_sum_range_map, ← Finset.sum_div]
    rfl
  unfold fwSpec
  simp only
  rw [h2]
  by_cases h0 : c.total y t = 0
  · rw [if_pos (by rw [h0, zero_div]), if_pos h0]
  · rw [if_neg (div_ne_zero h0 hs.ne'), if_neg h0, h1, List.map_map]
    congr 1
    refine List.map_congr_left fun f _ => ?_
    simp only [Function.comp]
    rw [div_div_div_cancel_right₀ hs.ne']

theorem critFilter_eq (hfs : 0 < c.fs) (hev : c.nfft = 2 * (c.nfft / 2)) {b : Nat × Nat} (hb : 0 < b.2)
    (j : Nat) : critFilter c.fs (c.nfft / 2) b j = c.weight (b.1 / 10000) (b.2 / 10000) j := by
  unfold critFilter FwCfg.weight
  simp only
  have e : (c.nfft : ℚ) = 2 * ((c.nfft / 2 : Nat) : ℚ) := by exact_mod_cast hev
  have e1 : ∀ z : ℚ, z / (c.fs / 2) * ((c.nfft / 2 : Nat) : ℚ) = z * c.nfft / c.fs := by
    intro z
    rw [e]
    field_simp
  rw [e1, e1]
  have hb' : (0 : ℝ) < (((b.2 : ℚ) / 10000 : ℚ) : ℝ) := by
    have : (0 : ℚ) < (b.2 : ℚ) / 10000 := by positivity
    exact_mod_cast this
  rw [Real.exp_add, Real.exp_sub, Real.exp_log (by norm_num), Real.exp_log hb', mul_comm,
    show (-30 : ℝ) / (2 * (2303 / 1000)) = -30 / 4.606 by norm_num]

theorem critEnergy_eq (hfs : 0 < c.fs) (hev : c.nfft = 2 * (c.nfft / 2)) {b : Nat × Nat} (hb : 0 < b.2)
    (y : Nat → ℝ) (t : Nat) :
    critEnergy c.fs (c.nfft / 2) b ((List.range (c.nfft / 2)).map fun f => c.mag y t f / c.total y t) =
      c.energy y t b := by
  unfold critEnergy FwCfg.energy
  rw [zipWith_map_same, list_sum_range_map, Finset.sum_div]
  refine Finset.sum_congr rfl fun f _ => ?_
  rw [critFilter_eq hfs hev hb, mul_div_assoc]

theorem atLeast_eq (e v : ℝ) : atLeast e v = max e v := by
  unfold atLeast
  by_cases h : v < e
  · rw [if_pos h, max_eq_left h.le]
  · rw [if_neg h, max_eq_right (not_lt.mp h)]

theorem fwBound_eq (d : ℝ) : fwBound d = min 35 (max 0 d) := by
  unfold fwBound
  simp only
  have e1 : (open Classical in if d < 0 then 0 else d) = max 0 d := by
    by_cases h : d < 0
    · rw [if_pos h, max_eq_left h.le]
    · rw [if_neg h, max_eq_right (not_lt.mp h)]
  rw [e1]
  by_cases h : max 0 d > 35
  · rw [if_pos h, min_eq_left (le_of_lt h)]
  · rw [if_neg h, min_eq_right (not_lt.mp h)]

theorem fwBands_pos {b : Nat × Nat} (h : b ∈ fwBands) : 0 < b.2 := by
  have : ∀ b ∈ fwBands, 0 < b.2 := by decide
  exact this b h

/-- The score of a frame. -/
theorem fwFrame_eq (hw : 0 < c.win) (hfs : 0 < c.fs) (hev : c.nfft = 2 * (c.nfft / 2)) (gamma : ℝ)
    (x x' : List ℝ) (y y' : Nat → ℝ) (t : Nat)
    (h : ∀ n < c.win, x.getD (t * c.skip + n) 0 = y (t * c.skip + n))
    (h' : ∀ n < c.win, x'.getD (t * c.skip + n) 0 = y' (t * c.skip + n)) :
    fwFrame c.fs c.win c.skip c.nfft gamma fEps x x' t = open Classical in
      if c.total y t = 0 ∨ c.total y' t = 0 ∨ ∃ b ∈ fwBands, c.energy y t b = 0 then none
      else some (c.score gamma y y' t) := by
  have key : ∀ {p : Prop}, ((c.total y t = 0 ∨ c.total y' t = 0 ∨ ∃ b ∈ fwBands, c.energy y t b = 0) ↔ p) →
      (open Classical in if c.total y t = 0 ∨ c.total y' t = 0 ∨ ∃ b ∈ fwBands, c.energy y t b = 0 then none
        else some (c.score gamma y y' t)) = (open Classical in if p then none
        else some (c.score gamma y y' t)) := by
    intro p hp
    by_cases h : p
    · rw [if_pos h, if_pos (hp.mpr h)]
    · rw [if_neg h, if_neg (fun hh => h (hp.mp hh))]
  unfold fwFrame
  rw [fwSpec_eq hw x y t h, fwSpec_eq hw x' y' t h']
  by_cases h0 : c.total y t = 0
  · rw [key (p := True) ⟨fun _ => trivial, fun _ => .inl h0⟩, if_pos h0, if_pos trivial]; rfl
  rw [if_neg h0]
  by_cases h1 : c.total y' t = 0
  · rw [key (p := True) ⟨fun _ => trivial, fun _ => .inr (.inl h1)⟩, if_pos h1, if_pos trivial]; rfl
  rw [if_neg h1]
  show fwScore gamma fEps _ _ = _
  have e : ∀ z : Nat → ℝ, (fwBands.map fun b => critEnergy c.fs (c.nfft / 2) b
      ((List.range (c.nfft / 2)).map fun f => c.mag z t f / c.total z t)) = fwBands.map (c.energy z t) := by
    intro z
    exact List.map_congr_left fun b hb => critEnergy_eq hfs hev (fwBands_pos hb) z t
  rw [e, e]
  unfold fwScore
  by_cases h2 : ∃ b ∈ fwBands, c.energy y t b = 0
  · rw [if_pos (List.mem_map.mpr h2), key (p := True) ⟨fun _ => trivial, fun _ => .inr (.inr h2)⟩, if_pos trivial]
  · rw [if_neg (fun hh => h2 (List.mem_map.mp hh)),
      key (p := False) ⟨fun hh => hh.elim h0 (fun hh => hh.elim h1 h2), fun hh => hh.elim⟩, if_neg not_false]
    simp only
    rw [fwBound_eq]
    unfold FwCfg.score
    congr 4
    · rw [zipWith_map_same, List.map_map, zipWith_map_same]
      simp only [Function.comp, atLeast_eq, FwCfg.bandDb, fEps]

end Danse
