import Verif.Proofs.CohDrift2
import Verif.Proofs.CohDrift

/-!
# Property C116: coherence-drift estimates of a run

`CohSt.run` (`Verif/Model/CohDrift.lean`) is the estimator of one neighbour as `update_sro_estimates`
drives it; the vocabulary is in `Verif/Spec/CohDrift.lean`.
-/

namespace Danse

section
variable {c : CohCfg} {xs : List CohIn} {s : CohSt} {os : List (Option (Option ℝ))}

/-- C116 (a): if there is signal in all bins, the lag is not longer than the time before the first estimate,
and this is not a re-filtering run with a closed loop, then estimates come at the scheduled updates, and
only there, and each is the estimator applied to the exponential average, over all scheduled updates so
far, of the products of the coherences of that update and of the one `ld` updates before. -/
theorem C116_estimates (hg : c.given = true → c.closed = false) (hst : c.ld ≤ c.startAfterNups + c.estEvery)
    (hx : ∀ x ∈ xs, Sounding c.P x) (h : (CohSt.init c).run c xs = .ok (s, os)) :
    os.length = xs.length ∧ ∀ i o, os[i]? = some o →
      (c.scheduled i = false → o = none) ∧
      (c.scheduled i = true → ∀ search, c.search = some search →
        o = some (some (-(search ((c.averageOf xs i).map some)) / (c.ld * c.Ns)))) ∧
      (c.scheduled i = true → c.search = none → o = some (lsEstimate c.ld c.Ns c.P (c.averageOf xs i)).toOption) := by
  obtain ⟨-, h1, -, h2⟩ := cohRun_good hg hst xs hx h
  refine ⟨h1, fun i o ho => ?_⟩
  have := h2 i o ho
  refine ⟨fun hs => by rw [this, hs]; rfl, fun hs search he => ?_, fun hs he => ?_⟩
  · rw [this, if_pos hs]
    unfold cohEstimate
    rw [he]
  · rw [this, if_pos hs]
    unfold cohEstimate
    rw [he]
    simp only
    have ha : (pySlice ((c.averageOf xs i).map some) (-(c.P : Int)) ((c.averageOf xs i).map some).length).all
        Option.isSome = true := by
      rw [List.all_eq_true]
      intro v hv
      have : v ∈ (c.averageOf xs i).map some := by
        unfold pySlice at hv
        exact List.mem_of_mem_drop (List.mem_of_mem_take hv)
      obtain ⟨w, -, rfl⟩ := List.mem_map.mp this
      rfl
    rw [if_pos ha]
    congr 3
    rw [List.map_map]
    exact (List.map_congr_left fun _ _ => rfl).trans (List.map_id _)

/-- The product of two coherences of a signal heard through the same transfer function with two delays. -/
theorem prodAt_heard {h : Nat → ℂ} {x y : CohIn} {τx τy : Int}
    (hx : Sounding c.P x) (hy : Sounding c.P y)
    (ex : ∀ κ < c.P, c.seen x κ = h κ * x.ref κ * phaseFactor (2 * (c.P - 1)) κ (τx : ℝ))
    (ey : ∀ κ < c.P, c.seen y κ = h κ * y.ref κ * phaseFactor (2 * (c.P - 1)) κ (τy : ℝ)) {κ : Nat} (hκ : κ < c.P) :
    prodAt (c.cohOf x) (c.cohOf y) κ = phaseFactor (2 * (c.P - 1)) κ ((-(τx - τy) : Int) : ℝ) := by
  set N := 2 * (c.P - 1) with hN
  have hh : h κ ≠ 0 := by
    intro h0
    have := ex κ hκ
    rw [h0, zero_mul, zero_mul] at this
    have hs := hx κ hκ
    unfold CohCfg.seen at this
    split at this
    · exact hs.2.2 this
    · exact hs.2.1 this
  unfold prodAt
  have e1 : at0 (c.cohOf x) κ = coherence (x.ref κ) (h κ * x.ref κ * phaseFactor N κ (τx : ℝ)) := by
    rw [← ex κ hκ]; exact at0_range_map hκ
  have e2 : at0 (c.cohOf y) κ = coherence (y.ref κ) (h κ * y.ref κ * phaseFactor N κ (τy : ℝ)) := by
    rw [← ey κ hκ]; exact at0_range_map hκ
  rw [e1, e2, coherence_eq _ _ _ (phaseFactor_norm _ _ _) (hx κ hκ).1 hh,
    coherence_eq _ _ _ (phaseFactor_norm _ _ _) (hy κ hκ).1 hh]
  have hnh : (‖h κ‖ : ℂ) ≠ 0 := by exact_mod_cast norm_ne_zero_iff.mpr hh
  have e3 : star (h κ) * h κ = (‖h κ‖ : ℂ) ^ 2 := by
    have := Complex.normSq_eq_conj_mul_self (z := h κ)
    rw [Complex.normSq_eq_norm_sq] at this
    rw [← Complex.ofReal_pow, this]; rfl
  have e4 : star (phaseFactor N κ (τx : ℝ)) = phaseFactor N κ ((-τx : Int) : ℝ) := by
    unfold phaseFactor
    change (starRingEnd ℂ) _ = _
    rw [← Complex.exp_conj]
    congr 1
    simp only [map_mul, map_div₀, map_neg, map_one, Complex.conj_I, Complex.conj_ofReal, map_natCast,
      map_ofNat]
    push_cast; ring
  have e6 : phaseFactor N κ ((-τx : Int) : ℝ) * phaseFactor N κ (τy : ℝ) =
      phaseFactor N κ ((-(τx - τy) : Int) : ℝ) := by
    unfold phaseFactor
    rw [← Complex.exp_add]
    congr 1
    push_cast; ring
  have e5 : star ((‖h κ‖ : ℝ) : ℂ) = ((‖h κ‖ : ℝ) : ℂ) := Complex.conj_ofReal _
  rw [e4, star_mul', star_star, star_div₀, star_star, e5, ← e6]
  calc star (h κ) / (‖h κ‖ : ℂ) * phaseFactor N κ ((-τx : Int) : ℝ) *
        (h κ / (‖h κ‖ : ℂ) * phaseFactor N κ (τy : ℝ))
      = star (h κ) * h κ / (‖h κ‖ : ℂ) ^ 2 * (phaseFactor N κ ((-τx : Int) : ℝ) * phaseFactor N κ (τy : ℝ)) := by
        field_simp
    _ = _ := by rw [e3, div_self (pow_ne_zero 2 hnh), one_mul]

/-- C116 (b): let the neighbour's channel be the own signal through a fixed transfer function, with the delay
`τ j` (in samples) at update `j`. If over the lag of each scheduled update so far the delay has grown, after
the correction for flags, by the same number `D` of samples, less than half a frame, then the estimate (with a search that finds the peak
of a single impulse) is that growth per sample: `D / (ld * Ns)`. -/
theorem C116_drift (hP : 2 ≤ c.P) (hg : c.given = true → c.closed = false)
    (hst : c.ld ≤ c.startAfterNups + c.estEvery) (hx : ∀ x ∈ xs, Sounding c.P x)
    (h : (CohSt.init c).run c xs = .ok (s, os)) {search : List (Option ℂ) → ℝ} (hs : c.search = some search)
    (hf : FindsImpulse (2 * (c.P - 1)) search) {tf : Nat → ℂ} {τ : Nat → Int} {D : Int} {i : Nat}
    (hτ : ∀ j ≤ i, HeardDelayed c tf xs j (τ j))
    (hD : ∀ j ≤ i, c.scheduled j = true → τ j - τ (j - c.ld) + c.corrected xs j = D)
    (hsm : 2 * |D| < ((2 * (c.P - 1) : Nat) : Int)) (hi : c.scheduled i = true) :
    os[i]? = some (some (some ((D : ℝ) / (c.ld * c.Ns)))) := by
  obtain ⟨hl, he⟩ := C116_estimates hg hst hx h
  obtain ⟨xi, hxi, -⟩ := hτ i (le_refl _)
  have hil : i < os.length := by rw [hl]; exact (List.getElem?_eq_some_iff.mp hxi).1
  rw [List.getElem?_eq_getElem hil, (he i _ (List.getElem?_eq_getElem hil)).2.1 hi search hs]
  have hprod : ∀ j ≤ i, c.scheduled j = true → c.productOf xs j =
      dft (Complex.exp (2 * Real.pi * Complex.I / (2 * (c.P - 1) : Nat))) (2 * (c.P - 1))
        (circDelay (2 * (c.P - 1)) (-D) (impulse (2 * (c.P - 1)))) := by
    intro j hj hsj
    obtain ⟨x, a1, a2⟩ := hτ j hj
    obtain ⟨y, b1, b2⟩ := hτ (j - c.ld) (by omega)
    unfold CohCfg.productOf
    rw [a1, b1]
    simp only [Option.elim_some]
    rw [drift_spectrum (N := 2 * (c.P - 1)) hP rfl (wPos := c.cohOf x) (wPri := c.cohOf y) (d := -(τ j - τ (j - c.ld)))
      (by simp [CohCfg.cohOf]) (by simp [CohCfg.cohOf])
      (fun κ hκ => prodAt_heard (hx x (List.mem_of_getElem? a1)) (hx y (List.mem_of_getElem? b1)) a2 b2 hκ)]
    congr 2
    rw [← hD j hj hsj]
    ring
  have hav : c.averageOf xs i =
      dft (Complex.exp (2 * Real.pi * Complex.I / (2 * (c.P - 1) : Nat))) (2 * (c.P - 1))
        (circDelay (2 * (c.P - 1)) (-D) (impulse (2 * (c.P - 1)))) := by
    unfold CohCfg.averageOf
    have hmem : i ∈ (List.range (i + 1)).filter c.scheduled :=
      List.mem_filter.mpr ⟨List.mem_range.mpr (Nat.lt_succ_self i), hi⟩
    obtain ⟨n, hn⟩ : ∃ n, ((List.range (i + 1)).filter c.scheduled).length = n + 1 := by
      have := List.length_pos_of_mem hmem
      exact ⟨_, (Nat.succ_pred_eq_of_pos this).symm⟩
    rw [List.eq_replicate_of_mem (l := ((List.range (i + 1)).filter c.scheduled).map (c.productOf xs))
      (a := dft (Complex.exp (2 * Real.pi * Complex.I / (2 * (c.P - 1) : Nat))) (2 * (c.P - 1))
        (circDelay (2 * (c.P - 1)) (-D) (impulse (2 * (c.P - 1))))) ?_, List.length_map, hn, C71_steady]
    intro r hr
    obtain ⟨j, hj, rfl⟩ := List.mem_map.mp hr
    obtain ⟨j1, j2⟩ := List.mem_filter.mp hj
    exact hprod j (by have := List.mem_range.mp j1; omega) j2
  rw [hf (c.averageOf xs i) (-D) (by rw [abs_neg]; exact hsm) (by
    rw [hav]
    exact idft_dft (dft_root _ (by omega)) (circDelay_length _ _))]
  push_cast
  rw [neg_neg]

/-- C116 (c), refuted: that the open loop estimates the drift of the clocks. The delay of the uncorrected
signals and the flags (samples taken from the buffer in addition) add up to the drift of the clocks; the
code, however, counts a flag of one sample as `broadcastLength` samples. With a broadcast length of 2 or
more, the first estimate is wrong whenever the flags over its lag do not cancel out. -/
theorem C116_refuted_flags (hP : 2 ≤ c.P) (hc : c.closed = false) (hst : c.ld ≤ c.startAfterNups + c.estEvery)
    (hld : 0 < c.ld) (hNs : 0 < c.Ns)
    (hx : ∀ x ∈ xs, Sounding c.P x) (h : (CohSt.init c).run c xs = .ok (s, os))
    {search : List (Option ℂ) → ℝ} (hs : c.search = some search) (hf : FindsImpulse (2 * (c.P - 1)) search)
    {tf : Nat → ℂ} {τ : Nat → Int} {i : Nat} (hi : c.scheduled i = true) (hi1 : i = c.startAfterNups + c.estEvery)
    (hτ : ∀ j ≤ i, HeardDelayed c tf xs j (τ j))
    (hsm : 2 * |τ i - τ (i - c.ld) + c.broadcastLength * flagsBetween xs (i - c.ld) i| < ((2 * (c.P - 1) : Nat) : Int)) :
    os[i]? = some (some (some (((τ i - τ (i - c.ld) + c.broadcastLength * flagsBetween xs (i - c.ld) i : Int) : ℝ) /
      (c.ld * c.Ns)))) ∧
    (2 ≤ c.broadcastLength → flagsBetween xs (i - c.ld) i ≠ 0 →
      os[i]? ≠ some (some (some (((τ i - τ (i - c.ld) + flagsBetween xs (i - c.ld) i : Int) : ℝ) / (c.ld * c.Ns))))) := by
  have h1 : os[i]? = some (some (some (((τ i - τ (i - c.ld) + c.broadcastLength * flagsBetween xs (i - c.ld) i : Int) : ℝ) /
      (c.ld * c.Ns)))) := by
    refine C116_drift hP (fun _ => hc) hst hx h hs hf hτ (fun j hj hsj => ?_) hsm hi
    have hj' : j = i := by have := scheduled_ge hsj; omega
    subst hj'
    unfold CohCfg.corrected
    rw [hc, if_neg (by simp)]
  refine ⟨h1, fun hB hF e => ?_⟩
  rw [h1] at e
  injection e with e
  injection e with e
  injection e with e
  have hpos : (c.ld * c.Ns : ℝ) ≠ 0 := by
    have : (0 : ℝ) < c.ld := by exact_mod_cast hld
    have : (0 : ℝ) < c.Ns := by exact_mod_cast hNs
    positivity
  rw [div_left_inj' hpos] at e
  have e : (τ i - τ (i - c.ld) + c.broadcastLength * flagsBetween xs (i - c.ld) i : Int) =
    τ i - τ (i - c.ld) + flagsBetween xs (i - c.ld) i := by exact_mod_cast e
  have e2 : ((c.broadcastLength : Int) - 1) * flagsBetween xs (i - c.ld) i = 0 := by linarith
  rcases mul_eq_zero.mp e2 with e3 | e3
  · omega
  · exact hF e3

/-- C116 (d), refuted: that runs with given filters (the runs that filter speech and noise separately) repeat
the estimates. With a closed loop the matrices that the estimator reads are never computed there: whatever
the signals, every estimate is that of a product without any number in it, NaN with 'ls'. -/
theorem C116_refuted_refilter (hc : c.closed = true) (hg : c.given = true)
    (h : (CohSt.init c).run c xs = .ok (s, os)) {i : Nat} {o : Option (Option ℝ)} (ho : os[i]? = some o)
    (hi : c.scheduled i = true) :
    o = some (cohEstimate c (List.replicate (2 * (c.P - 1)) none)) ∧
    (2 ≤ c.P → c.search = none → o = some none) := by
  have hkey : o = some (cohEstimate c (List.replicate (2 * (c.P - 1)) none)) := by
    refine (cohRun_nan (fun ys r s' hv hl _ hr => ?_) xs h).2.2.2 i o ho hi
    unfold CohCfg.product at hr
    obtain ⟨p1, q1, hr⟩ := bind_ok_inv hr
    obtain ⟨p2, q2, hr⟩ := bind_ok_inv hr
    injection hr with hr
    have hz : p2 = fun _ => (0, 0) := by
      rw [if_pos hc, hv.rowsC, if_pos hg] at q2
      exact List.eq_of_mem_replicate (pyGet_mem q2)
    rw [← hr, hz, cohRow_zero, resProdN_none (cohRow_length _ _), flagRotateN_none]
  refine ⟨hkey, fun hP hs => ?_⟩
  rw [hkey]
  congr 1
  exact cohEstimate_none hP hs

/-- C116 (e), refuted: that the estimator can start before `ld` updates have been made. If `ld` exceeds the
time of the first estimate (but not the number of updates), the row `ld` updates back is one from the
end of the array, not yet computed; the NaN stays in the average, and no estimate of the run ever depends on the signals. -/
theorem C116_refuted_early (hst : c.startAfterNups + c.estEvery < c.ld) (hn : c.ld < c.nIter)
    (h : (CohSt.init c).run c xs = .ok (s, os)) {i : Nat} {o : Option (Option ℝ)} (ho : os[i]? = some o)
    (hi : c.scheduled i = true) :
    o = some (cohEstimate c (List.replicate (2 * (c.P - 1)) none)) ∧
    (2 ≤ c.P → c.search = none → o = some none) := by
  have hkey : o = some (cohEstimate c (List.replicate (2 * (c.P - 1)) none)) := by
    refine (cohRun_nan (fun ys r s' hv hl _ hr => ?_) xs h).2.2.2 i o ho hi
    unfold CohCfg.product at hr
    obtain ⟨p1, q1, hr⟩ := bind_ok_inv hr
    obtain ⟨p2, q2, hr⟩ := bind_ok_inv hr
    injection hr with hr
    have hz : p2 = fun _ => (0, 0) := by
      have tail : ∀ (l : List (Nat → ℂ × ℂ)), l.length = ys.length →
          pyGet (l ++ List.replicate (c.nIter - ys.length) (fun _ => ((0 : ℂ), (0 : ℂ))))
            (((c.startAfterNups + c.estEvery : Nat) : Int) - c.ld) = .ok p2 → p2 = fun _ => (0, 0) := by
        intro l hl' q
        have hlen := hv.le
        have := pyGet_back q (by omega)
        rw [List.getElem?_append_right (by simp; omega), List.getElem?_replicate] at this
        split at this
        · exact (Option.some.inj this).symm
        · cases this
      by_cases hc : c.closed = true
      · rw [if_pos hc, hv.rowsC] at q2
        by_cases hg : c.given = true
        · rw [if_pos hg] at q2
          exact List.eq_of_mem_replicate (pyGet_mem q2)
        · rw [if_neg hg] at q2
          exact tail _ (by simp) q2
      · rw [if_neg hc, hv.rowsU] at q2
        exact tail _ (by simp) q2
    rw [← hr, hz, cohRow_zero, resProdN_none (cohRow_length _ _), flagRotateN_none]
  refine ⟨hkey, fun hP hs => ?_⟩
  rw [hkey]
  congr 1
  exact cohEstimate_none hP hs

/-- C116 (f): the runs that (a) to (e) speak about do not raise, as long as there are not more updates than
announced and the lag is not longer than that. -/
theorem C116_total (hld : c.ld ≤ c.nIter) (hn : xs.length ≤ c.nIter) : ∃ r, (CohSt.init c).run c xs = .ok r :=
  cohRun_ok hld xs _ (by simp [CohSt.init]) (by simp [CohSt.init]) (by simpa [CohSt.init] using hn)

/-- C116 (g): one silent bin (other than the constant one) of the own or of the seen spectrum, at one of the updates
that the estimator looks at, is enough: this estimate of the 'ls' type and all later ones are NaN, whatever
is heard afterwards. -/
theorem C116_silence {κ i i' : Nat} {o : Option (Option ℝ)} (hs : c.search = none) (h1 : 1 ≤ κ) (hκ : κ < c.P)
    (h : (CohSt.init c).run c xs = .ok (s, os)) (hsil : SilentAt c xs κ i) (hi : i ≤ i')
    (ho : os[i']? = some o) (hsch : c.scheduled i' = true) : o = some none :=
  (cohRun_silent h1 hκ hs xs h).2.2.2.2 i' o ho hsch ⟨i, hi, hsil⟩

end

/-- Three bins, a lag of two updates, estimates at the updates 3, 4, 5. -/
noncomputable def exCohCfg (closed given : Bool) (search : Option (List (Option ℂ) → ℝ)) (ld : Nat) : CohCfg :=
  ⟨3, 4, ld, 2, 1, 6, 4, 0.95, closed, given, search⟩

/-- The neighbour's channel falls behind by one sample at update 3, where one sample in addition is taken
from the buffer as well. -/
noncomputable def exCohIns : List CohIn :=
  (List.range 4).map fun j => ⟨fun _ => 2, fun κ => Complex.I * 2 * phaseFactor 4 κ (((if j = 3 then -5 else 0 : Int) : Int) : ℝ),
    fun κ => Complex.I * 2 * phaseFactor 4 κ (((if j = 3 then 1 else 0 : Int) : Int) : ℝ), if j = 3 then 1 else 0⟩

theorem exCohIns_sounding : ∀ x ∈ exCohIns, Sounding 3 x := by
  intro x hx κ _
  obtain ⟨j, -, rfl⟩ := List.mem_map.mp hx
  have hne : ∀ d : ℝ, phaseFactor 4 κ d ≠ 0 := fun d => Complex.exp_ne_zero _
  exact ⟨by norm_num, mul_ne_zero (by simp) (hne _), mul_ne_zero (by simp) (hne _)⟩

/-- (a), (b) and (f) together: with the closed loop the delay of one sample is found, over `2 * 4` samples. -/
example : ∃ search s os, (CohSt.init (exCohCfg true false (some search) 2)).run (exCohCfg true false (some search) 2)
    exCohIns = .ok (s, os) ∧ os[3]? = some (some (some (1 / 8))) := by
  obtain ⟨f, hf⟩ := C71_gs_search_exists 4
  let search : List (Option ℂ) → ℝ := fun l => f (l.map fun v => v.getD 0)
  obtain ⟨⟨s, os⟩, h⟩ := C116_total (c := exCohCfg true false (some search) 2) (xs := exCohIns) (of_decide_eq_true rfl) (of_decide_eq_true rfl)
  refine ⟨search, s, os, h, ?_⟩
  have := C116_drift (c := exCohCfg true false (some search) 2) (i := 3) (D := 1) (tf := fun _ => Complex.I)
    (τ := fun j => if j = 3 then 1 else 0) (of_decide_eq_true rfl) (by intro h; cases h) (of_decide_eq_true rfl) exCohIns_sounding h rfl
    (by
      intro x τ h1 h2
      change f ((x.map some).map fun v => v.getD 0) = τ
      rw [List.map_map, show ((fun v : Option ℂ => v.getD 0) ∘ some) = id from rfl, List.map_id]
      exact hf x τ h1 h2)
    (by
      intro j hj
      refine ⟨_, by
        unfold exCohIns
        rw [List.getElem?_map, List.getElem?_range (by omega)]
        rfl, fun κ _ => rfl⟩)
    (by
      intro j hj hs
      have hj3 : 3 ≤ j := scheduled_ge hs
      obtain rfl : j = 3 := by omega
      rfl)
    (of_decide_eq_true rfl) (of_decide_eq_true rfl)
  rw [this]
  change some (some (some (((1 : Int) : ℝ) / ((2 : Nat) * (4 : Nat))))) = _
  norm_num

/-- (c): with the open loop, of the drift of `-5 + 1` samples only one is found, because the flag of one
sample counts four times. -/
example : ∃ search s os, (CohSt.init (exCohCfg false false (some search) 2)).run (exCohCfg false false (some search) 2)
    exCohIns = .ok (s, os) ∧ os[3]? = some (some (some (-1 / 8 : ℝ))) ∧ os[3]? ≠ some (some (some (-4 / 8 : ℝ))) := by
  obtain ⟨f, hf⟩ := C71_gs_search_exists 4
  let search : List (Option ℂ) → ℝ := fun l => f (l.map fun v => v.getD 0)
  obtain ⟨⟨s, os⟩, h⟩ := C116_total (c := exCohCfg false false (some search) 2) (xs := exCohIns) (of_decide_eq_true rfl) (of_decide_eq_true rfl)
  refine ⟨search, s, os, h, ?_⟩
  have hfl : flagsBetween exCohIns (3 - 2) 3 = 1 := by
    unfold flagsBetween exCohIns
    decide
  have := C116_refuted_flags (c := exCohCfg false false (some search) 2) (i := 3) (tf := fun _ => Complex.I)
    (τ := fun j => if j = 3 then -5 else 0) (of_decide_eq_true rfl) rfl (of_decide_eq_true rfl) (of_decide_eq_true rfl) (of_decide_eq_true rfl)
    exCohIns_sounding h rfl
    (by
      intro x τ h1 h2
      change f ((x.map some).map fun v => v.getD 0) = τ
      rw [List.map_map, show ((fun v : Option ℂ => v.getD 0) ∘ some) = id from rfl, List.map_id]
      exact hf x τ h1 h2)
    (of_decide_eq_true rfl) rfl
    (by
      intro j hj
      refine ⟨_, by
        unfold exCohIns
        rw [List.getElem?_map, List.getElem?_range (by omega)]
        rfl, fun κ _ => rfl⟩)
    (by
      change 2 * |(-5 : Int) - 0 + (4 : Nat) * flagsBetween exCohIns (3 - 2) 3| < _
      rw [hfl]
      exact of_decide_eq_true rfl)
  have e1 := this.1
  have e2 := this.2 (of_decide_eq_true rfl) (by
    change flagsBetween exCohIns (3 - 2) 3 ≠ 0
    rw [hfl]; decide)
  have hc : ∀ z : Int, (((z : Int) : ℝ) / (((exCohCfg false false (some search) 2).ld : ℝ) *
      (exCohCfg false false (some search) 2).Ns)) = (z : ℝ) / 8 := by
    intro z
    change (z : ℝ) / (((2 : Nat) : ℝ) * ((4 : Nat) : ℝ)) = _
    norm_num
  rw [hc] at e1 e2
  have h1 : ((-5 : Int) - 0 + (4 : Nat) * flagsBetween exCohIns (3 - 2) 3) = -1 := by
    rw [hfl]; decide
  have h2 : ((-5 : Int) - 0 + flagsBetween exCohIns (3 - 2) 3) = -4 := by
    rw [hfl]; decide
  constructor
  · refine e1.trans ?_
    change some (some (some ((((-5 : Int) - 0 + (4 : Nat) * flagsBetween exCohIns (3 - 2) 3 : Int) : ℝ) / 8))) = _
    rw [h1]
    norm_num
  · intro e
    refine e2 (e.trans ?_)
    change _ = some (some (some ((((-5 : Int) - 0 + flagsBetween exCohIns (3 - 2) 3 : Int) : ℝ) / 8)))
    rw [h2]
    norm_num

/-- (d): with 'ls' the estimate of the same run with given filters is NaN. -/
example : ∃ s os, (CohSt.init (exCohCfg true true none 2)).run (exCohCfg true true none 2) exCohIns = .ok (s, os) ∧
    ∀ o, os[3]? = some o → o = some none := by
  obtain ⟨⟨s, os⟩, h⟩ := C116_total (c := exCohCfg true true none 2) (xs := exCohIns) (by decide) (by decide)
  exact ⟨s, os, h, fun o ho => (C116_refuted_refilter rfl rfl h ho (by decide)).2 (by decide) rfl⟩

/-- (e): as with a lag of five updates. -/
example : ∃ s os, (CohSt.init (exCohCfg true false none 5)).run (exCohCfg true false none 5) exCohIns = .ok (s, os) ∧
    ∀ o, os[3]? = some o → o = some none := by
  obtain ⟨⟨s, os⟩, h⟩ := C116_total (c := exCohCfg true false none 5) (xs := exCohIns) (by decide) (by decide)
  exact ⟨s, os, h, fun o ho => (C116_refuted_early (by decide) (by decide) h ho (by decide)).2 (by decide) rfl⟩

/-- Six updates, the neighbour's channel is silent in bin 1 at update 3 only. -/
noncomputable def exCohSilent : List CohIn :=
  (List.range 6).map fun j => ⟨fun _ => 2, fun κ => if j = 3 ∧ κ = 1 then 0 else 2, fun κ => if j = 3 ∧ κ = 1 then 0 else 2, 0⟩

/-- (g): the estimates from update 3 on are NaN, including that of update 4, which does not look at update 3. -/
example : ∃ s os, (CohSt.init (exCohCfg true false none 2)).run (exCohCfg true false none 2) exCohSilent = .ok (s, os) ∧
    ∀ o, os[4]? = some o → o = some none := by
  obtain ⟨⟨s, os⟩, h⟩ := C116_total (c := exCohCfg true false none 2) (xs := exCohSilent) (by decide)
    (by simp [exCohSilent, exCohCfg])
  refine ⟨s, os, h, fun o ho => C116_silence (κ := 1) (i := 3) (i' := 4) rfl (by decide) (by decide) h
    ⟨by decide, 3, _, Or.inl rfl, by
      unfold exCohSilent
      rw [List.getElem?_map, List.getElem?_range (by omega)]
      rfl, Or.inr (by simp [CohCfg.seen, exCohCfg])⟩ (by decide) ho (by decide)⟩

end Danse
