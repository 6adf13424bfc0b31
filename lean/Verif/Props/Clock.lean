import Verif.Proofs.Clock
import Mathlib.Tactic.IntervalCases

/-!
# Property C79: the sampling frequencies that a run infers from the time stamps

`inferFs` models the loop body of `check_clock_jitter` (d_base.py 454-480), `baseChecks` models
`base_event_checks` (d_base.py 496-510). The sampling frequencies that they return are the ones with
which `danse` cuts the frames (d_core.py 55, 80-86).
-/

namespace Danse

/-- C79 (a): from the time stamps of a regular clock (at least two samples, 1e-4 Hz or more), a
sampling frequency is inferred; it is within 1/19999 (50 ppm) and half a millihertz of the true one. -/
theorem C79_accuracy {fs : ℚ} (hfs : 1 / 10000 ≤ fs) {n : Nat} (hn : 2 ≤ n) :
    ∃ f, inferFs (clockStamps fs n) = .ok f ∧ |f - fs| ≤ fs / 19999 + 1 / 2000 := by
  have h0 : 0 < fs := by linarith
  obtain ⟨p, hp⟩ := clockPrecision_total (m := 1 / fs) (by positivity)
  refine ⟨_, inferFs_clock hfs hn hp, ?_⟩
  have hm : 1 / fs ≤ 10000 := by rw [div_le_iff₀ h0]; linarith
  have hp1 := ((clockPrecision_spec (by positivity) hm).mp hp).1
  have e1 := npRoundDec_err (1 / fs) p
  have e2 : |npRoundDec (1 / fs) p - 1 / fs| ≤ 1 / fs / 20000 := by
    refine e1.trans ?_
    have : (1 : ℚ) / 2 / 10 ^ p = 1 / 10 ^ p / 2 := by ring
    rw [this]
    linarith
  generalize hd : npRoundDec (1 / fs) p = d at e2 ⊢
  have e3 := npRoundDec_err (1 / d) 3
  rw [abs_le] at e2
  have hq : 0 < 1 / fs := by positivity
  have hdp : 1 / fs * (19999 / 20000) ≤ d := by linarith
  have hd0 : 0 < d := lt_of_lt_of_le (by positivity) hdp
  have e4 : |1 / d - fs| ≤ fs / 19999 := by
    have : 1 / d - fs = (1 / fs - d) * (fs / d) := by field_simp
    rw [this, abs_mul, abs_of_pos (show 0 < fs / d by positivity)]
    have h1 : |1 / fs - d| ≤ 1 / fs / 20000 := by rw [abs_le]; constructor <;> linarith
    have h2 : fs / d ≤ fs * (fs * (20000 / 19999)) := by
      rw [div_eq_mul_one_div]
      apply mul_le_mul_of_nonneg_left _ h0.le
      rw [div_le_iff₀ hd0]
      have := mul_le_mul_of_nonneg_left hdp (show 0 ≤ fs * (20000 / 19999) by positivity)
      have h3 : fs * (20000 / 19999) * (1 / fs * (19999 / 20000)) = 1 := by field_simp
      linarith
    calc |1 / fs - d| * (fs / d) ≤ (1 / fs / 20000) * (fs * (fs * (20000 / 19999))) := by
          apply mul_le_mul h1 h2 (by positivity) (by positivity)
      _ = fs / 19999 := by field_simp
  calc |npRoundDec (1 / d) 3 - fs| = |(npRoundDec (1 / d) 3 - 1 / d) + (1 / d - fs)| := by congr 1; ring
    _ ≤ |npRoundDec (1 / d) 3 - 1 / d| + |1 / d - fs| := abs_add_le _ _
    _ ≤ fs / 19999 + 1 / 2000 := by
      have : (1 : ℚ) / 2 / 10 ^ 3 = 1 / 2000 := by norm_num
      linarith

/-- C79 (b): it is exact for every whole sampling frequency that divides the power of ten with four
more digits than it has (8, 10, 16, 20, 25, 32, 40, 50, 64 kHz, ...). -/
theorem C79_exact {f : Nat} (hf : 0 < f) (hd : f ∣ 10 ^ (4 + Nat.clog 10 f)) {n : Nat} (hn : 2 ≤ n) :
    inferFs (clockStamps f n) = .ok (f : ℚ) := by
  have h1 : (1 : ℚ) ≤ f := by exact_mod_cast hf
  have hf0 : (f : ℚ) ≠ 0 := by positivity
  have hp : clockPrecision (1 / (f : ℚ)) = .ok (4 + Nat.clog 10 f) := by
    have hm : 1 / (f : ℚ) ≤ 10000 := by
      rw [div_le_iff₀ (by linarith)]
      linarith
    rw [clockPrecision_spec (by positivity) hm]
    have key : ∀ q : Nat, 1 / (10 : ℚ) ^ (4 + q) ≤ 1 / f / 10000 ↔ f ≤ 10 ^ q := by
      intro q
      rw [pow_add, div_div, div_le_div_iff₀ (by positivity) (by positivity)]
      constructor
      · intro h
        have : (f : ℚ) ≤ 10 ^ q := by norm_num at h; linarith
        exact_mod_cast this
      · intro h
        have : (f : ℚ) ≤ 10 ^ q := by exact_mod_cast h
        norm_num
        linarith
    refine ⟨(key _).mpr (Nat.le_pow_clog (by norm_num) _), fun q hq => ?_⟩
    by_cases h4 : q < 4
    · have : (1 : ℚ) / f / 10000 ≤ 1 / 10000 := by
        rw [div_div, div_le_div_iff₀ (by positivity) (by norm_num)]
        linarith
      refine lt_of_le_of_lt this ?_
      interval_cases q <;> norm_num
    · obtain ⟨r, rfl⟩ : ∃ r, q = 4 + r := ⟨q - 4, by omega⟩
      rw [← not_le, key]
      intro h
      have := (Nat.clog_le_iff_le_pow (by norm_num : 1 < 10)).mpr h
      omega
  rw [inferFs_clock (by linarith) hn hp]
  obtain ⟨c, hc⟩ := hd
  have e1 : npRoundDec (1 / (f : ℚ)) (4 + Nat.clog 10 f) = 1 / f := by
    apply npRoundDec_exact (z := c)
    have : ((10 : ℚ) ^ (4 + Nat.clog 10 f)) = f * c := by exact_mod_cast hc
    rw [this]
    push_cast
    field_simp
  rw [e1, one_div_one_div, npRoundDec_exact (z := (f * 1000 : Nat))]
  push_cast
  norm_num

/-- C79 (c): a clock is only accepted when all its sampling intervals are within 1e-4 of their mean;
otherwise an error is raised. -/
theorem C79_jitter {stamps : List ℚ} {f : ℚ} (h : inferFs stamps = .ok f)
    (hm : meanInterval stamps ≤ 10000) :
    0 < meanInterval stamps ∧
    ∀ a ∈ npDiff stamps, |a - meanInterval stamps| ≤ meanInterval stamps / 10000 := by
  unfold inferFs at h
  simp only at h
  by_cases h0 : npDiff stamps = []
  · rw [if_pos h0] at h; cases h
  rw [if_neg h0] at h
  obtain ⟨p, hp, h⟩ := Except.bind_ok h
  change clockPrecision (meanInterval stamps) = .ok p at hp
  generalize hM : meanInterval stamps = m at hp hm ⊢
  have hpos : 0 < m := by
    by_contra hle
    unfold clockPrecision at hp
    simp only at hp
    rw [if_pos (by linarith [not_lt.mp hle])] at hp
    cases hp
  refine ⟨hpos, ?_⟩
  obtain ⟨d, hd⟩ : ∃ d, npUnique ((npDiff stamps).map (npRoundDec · p)) = [d] := by
    split at h
    · exact ⟨_, by assumption⟩
    · cases h
  have hall : ∀ b ∈ npDiff stamps, |b - d| ≤ 1 / 2 / 10 ^ p := by
    intro b hb
    have : npRoundDec b p ∈ npUnique ((npDiff stamps).map (npRoundDec · p)) := by
      rw [mem_npUnique]; exact List.mem_map_of_mem hb
    rw [hd, List.mem_singleton] at this
    rw [← this, abs_sub_comm]
    exact npRoundDec_err b p
  have hp1 := ((clockPrecision_spec hpos hm).mp hp).1
  have hmean : |m - d| ≤ 1 / 2 / 10 ^ p := by
    rw [← hM]
    unfold meanInterval
    have hl : (0 : ℚ) < (npDiff stamps).length := by
      have := List.length_pos_of_ne_nil h0
      exact_mod_cast this
    have bound : ∀ l : List ℚ, (∀ b ∈ l, |b - d| ≤ 1 / 2 / 10 ^ p) →
        |l.sum - l.length * d| ≤ l.length * (1 / 2 / 10 ^ p) := by
      intro l
      induction l with
      | nil => intro _; simp
      | cons b l ih =>
        intro hb
        have i1 := ih fun c hc => hb c (List.mem_cons_of_mem _ hc)
        have i2 := hb b (by simp)
        rw [List.sum_cons, List.length_cons]
        push_cast
        rw [abs_le] at *
        constructor <;> linarith
    have hb := bound _ hall
    have e : (npDiff stamps).sum / ((npDiff stamps).length : ℚ) - d =
        ((npDiff stamps).sum - (npDiff stamps).length * d) / (npDiff stamps).length := by field_simp
    rw [e, abs_div, abs_of_pos hl, div_le_iff₀ hl]
    linarith
  intro a ha
  have := hall a ha
  have e : (1 : ℚ) / 2 / 10 ^ p = 1 / 10 ^ p / 2 := by ring
  rw [e] at this hmean
  rw [abs_le] at *
  constructor <;> linarith

/-- C79 (d): with simultaneous node-updating, a run is only started when the inferred sampling
frequencies of all nodes are equal. -/
theorem C79_simultaneous {stamps : List (List ℚ)} {r : Nat} {fs : List ℚ}
    (h : baseChecks stamps true r = .ok fs) :
    List.Forall₂ (fun s f => inferFs s = .ok f) stamps fs ∧ ∀ a ∈ fs, ∀ b ∈ fs, a = b := by
  unfold baseChecks at h
  obtain ⟨l, hl, h⟩ := Except.bind_ok h
  rw [if_pos rfl] at h
  obtain ⟨f, hf, h⟩ := Except.bind_ok h
  by_cases ha : l.any (fun x => decide (x ≠ f)) = true
  · rw [if_pos ha] at h; cases h
  · rw [if_neg ha] at h
    injection h with h
    subst h
    refine ⟨?_, ?_⟩
    · exact mapM_inferFs hl
    · simp only [List.any_eq_true, decide_eq_true_eq, not_exists, not_and, not_not] at ha
      intro a h1 b h2
      rw [ha a h1, ha b h2]

/-- C79 (e), refuted property "the inferred sampling frequency of a clock without jitter is its
sampling frequency": at 48 kHz it is 48000.768 Hz, for recordings of any length. -/
theorem C79_refuted_48kHz {n : Nat} (hn : 2 ≤ n) :
    inferFs (clockStamps 48000 n) = .ok (48000768 / 1000) := by
  have hp : clockPrecision (1 / (48000 : ℚ)) = .ok 9 := by
    rw [clockPrecision_spec (by norm_num) (by norm_num)]
    refine ⟨by norm_num, fun q hq => ?_⟩
    interval_cases q <;> norm_num
  rw [inferFs_clock (by norm_num) hn hp]
  have e : npRoundDec (1 / (48000 : ℚ)) 9 = 20833 / 1000000000 := by decide +kernel
  rw [e]
  congr 1
  decide +kernel

/-- C79 (e), consequence: a frame that should end at sample `i` ends at sample `i + ⌊i / 62500⌋`: the
frames drift ahead of the recording by one sample every 1.3 seconds. -/
theorem C79_refuted_frames_in_step (i : Nat) :
    ⌊((i : ℚ) / 48000) * (48000768 / 1000)⌋ = ((i + i / 62500 : Nat) : Int) := by
  have : ((i : ℚ) / 48000) * (48000768 / 1000) = (i : Int) + ((i : Int) : ℚ) / ((62500 : Nat) : ℚ) := by
    push_cast; ring
  rw [this, Int.floor_intCast_add, Rat.floor_intCast_div_natCast]
  push_cast
  rfl

/-- C79 (f), refuted property "nodes with a sampling rate offset are told apart": at 16 kHz all
offsets up to 7 ppm are inferred as no offset at all, so simultaneous updating is not refused and the
frames of the node are cut as if it had no offset. -/
theorem C79_refuted_small_sro {ppm : ℚ} (h1 : -7 ≤ ppm) (h2 : ppm ≤ 7) {n : Nat} (hn : 2 ≤ n) :
    inferFs (clockStamps (16000 * (1 + ppm / 1000000)) n) = .ok 16000 := by
  generalize hfs : 16000 * (1 + ppm / 1000000) = fs
  have l1 : 15999.888 ≤ fs := by rw [← hfs]; norm_num; linarith
  have l2 : fs ≤ 16000.112 := by rw [← hfs]; norm_num; linarith
  have h0 : 0 < fs := by norm_num at l1; linarith
  have b1 : 1 / fs < 62500.5 / 1000000000 := by
    rw [div_lt_iff₀ h0]; norm_num at l1 ⊢; linarith
  have b2 : 62499.5 / 1000000000 < 1 / fs := by
    rw [lt_div_iff₀ h0]; norm_num at l2 ⊢; linarith
  have hp : clockPrecision (1 / fs) = .ok 9 := by
    norm_num at b1 b2
    rw [clockPrecision_spec (by positivity) (by rw [one_div]; linarith)]
    rw [one_div]
    refine ⟨by norm_num; linarith, fun q hq => ?_⟩
    interval_cases q <;> norm_num <;> linarith
  rw [inferFs_clock (by norm_num at l1 ⊢; linarith) hn hp]
  have e : npRoundDec (1 / fs) 9 = 1 / 16000 := by
    unfold npRoundDec
    have hr : roundHE (1 / fs * 10 ^ 9) = 62500 := by
      obtain ⟨c1, c2⟩ := roundHE_bounds (1 / fs * 10 ^ 9)
      have d1 : (62499 : ℚ) < roundHE (1 / fs * 10 ^ 9) := by norm_num at *; linarith
      have d2 : (roundHE (1 / fs * 10 ^ 9) : ℚ) < 62501 := by norm_num at *; linarith
      have d3 : 62499 < roundHE (1 / fs * 10 ^ 9) := by exact_mod_cast d1
      have d4 : roundHE (1 / fs * 10 ^ 9) < 62501 := by exact_mod_cast d2
      omega
    rw [hr]
    norm_num
  rw [e, one_div_one_div, npRoundDec_exact (z := 16000000)]
  norm_num

/-- C79 (g), refuted property "simultaneous updating is possible whenever all nodes have the same
clock": the sampling frequencies are compared with that of the node whose index is the index of the
reference *sensor*; if there is no such node, an `IndexError` is raised. -/
theorem C79_refuted_reference_index {f n K : Nat} (hf : 0 < f) (hd : f ∣ 10 ^ (4 + Nat.clog 10 f))
    (hn : 2 ≤ n) {r : Nat} (hr : K ≤ r) :
    baseChecks (List.replicate K (clockStamps f n)) true r = .error .indexError := by
  have hm : (List.replicate K (clockStamps f n)).mapM inferFs = .ok (List.replicate K (f : ℚ)) := by
    clear hr
    induction K with
    | zero => rfl
    | succ K ih => rw [List.replicate_succ, List.mapM_cons, C79_exact hf hd hn, ih]; rfl
  unfold baseChecks
  rw [hm]
  simp only [bind, Except.bind, if_true]
  have : pyGet (List.replicate K (f : ℚ)) (r : Int) = .error .indexError := by
    unfold pyGet
    simp only
    rw [if_neg (by omega), if_neg (by omega), List.getElem?_eq_none (by simp; omega)]
  rw [this]

/-- Sampling frequencies to which `C79_exact` applies; `C79_accuracy` applies to all of them. -/
example : (8000 ∣ 10 ^ (4 + Nat.clog 10 8000)) ∧ (16000 ∣ 10 ^ (4 + Nat.clog 10 16000)) ∧
    (32000 ∣ 10 ^ (4 + Nat.clog 10 32000)) ∧ ¬ (48000 ∣ 10 ^ (4 + Nat.clog 10 48000)) := by
  have h : ∀ f, 1000 < f → f ≤ 10000 → Nat.clog 10 f = 4 := fun f h1 h2 =>
    le_antisymm ((Nat.clog_le_iff_le_pow (by norm_num)).mpr (by norm_num; omega))
      ((Nat.lt_clog_iff_pow_lt (by norm_num)).mpr (by norm_num; omega))
  have h' : ∀ f, 10000 < f → f ≤ 100000 → Nat.clog 10 f = 5 := fun f h1 h2 =>
    le_antisymm ((Nat.clog_le_iff_le_pow (by norm_num)).mpr (by norm_num; omega))
      ((Nat.lt_clog_iff_pow_lt (by norm_num)).mpr (by norm_num; omega))
  rw [h 8000 (by norm_num) (by norm_num), h' 16000 (by norm_num) (by norm_num),
    h' 32000 (by norm_num) (by norm_num), h' 48000 (by norm_num) (by norm_num)]
  norm_num

/-- A clock with little jitter is accepted, one with more is not (`C79_jitter`). -/
example : inferFs [0, 1 / 8, 2 / 8 + 1 / 10 ^ 7, 3 / 8] = .ok 8 ∧
    inferFs [0, 1 / 8, 2 / 8 + 1 / 10 ^ 4, 3 / 8] = .error .valueError := by
  constructor <;> decide_cbv

/-- `C79_simultaneous`: two equal clocks pass, different ones do not. -/
example : baseChecks [[0, 1 / 8, 2 / 8], [0, 1 / 8, 2 / 8]] true 0 = .ok [8, 8] ∧
    baseChecks [[0, 1 / 8, 2 / 8], [0, 1 / 9, 2 / 9]] true 0 = .error .valueError := by
  constructor <;> decide +kernel

end Danse
