import Verif.Proofs.Centr5
import Verif.Proofs.Sched4
import Verif.Props.Buffers

/-!
# Helper lemmas: raw samples exchanged by synchronous nodes
-/

set_option linter.unusedSectionVars false

namespace Danse

theorem clock_count {fs : ℚ} (hfs : 0 < fs) {n a b : Nat} (hab : a ≤ b) (hb : b < n) :
    ((clockStamps fs n).filter fun u => decide ((a : ℚ) / fs < u) && decide (u ≤ (b : ℚ) / fs)).length = b - a := by
  have hl : (clockStamps fs n).length = n := by simp [clockStamps]
  have := count_between (clockStamps_sorted hfs n) hab (hl.symm ▸ hb)
  have e1 : (clockStamps fs n)[a]'(by omega) = (a : ℚ) / fs := by simp [clockStamps]
  have e2 : (clockStamps fs n)[b]'(by omega) = (b : ℚ) / fs := by simp [clockStamps]
  rw [e1, e2] at this
  exact this

section
variable {K : Type} [Field K] [StarRing K] [DecidableEq K] {y : Nat → List (List K)}

theorem at0_lastN {d : Nat} {l : List K} (h : d ≤ l.length) (j : Nat) :
    at0 (lastN d l) j = at0 l (l.length - d + j) := by
  unfold lastN
  rw [at0_drop]

/-- A stream whose last frame ends at sample `e - d`, followed by the last `d` samples of the frame that
ends at sample `e`. -/
theorem lastFrame_append {N e d : Nat} {x S : List K} (hd : d ≤ e)
    (hS : lastFrame N S = frameBefore N x (e - d)) :
    lastFrame N (S ++ lastN d (frameBefore N x e)) = frameBefore N x e := by
  by_cases hdN : N ≤ d
  · have : lastN d (frameBefore N x e) = frameBefore N x e := by
      unfold lastN
      rw [frameBefore_length, Nat.sub_eq_zero_of_le hdN]
      rfl
    rw [this]
    apply at0_ext
    · simp [lastFrame, frameBefore_length]
    · intro j hj
      rw [lastFrame, frameBefore_length] at hj
      rw [lastFrame, at0_frameBefore hj, List.length_append, frameBefore_length, if_pos (by omega), at0_append,
        if_neg (by omega)]
      congr 1
      omega
  · apply at0_ext
    · simp [lastFrame, frameBefore_length]
    · intro j hj
      rw [lastFrame, frameBefore_length] at hj
      have hl : (lastN d (frameBefore N x e)).length = d := by
        rw [lastN_length, frameBefore_length]; omega
      rw [lastFrame, at0_frameBefore hj, List.length_append, hl, at0_append]
      by_cases hj2 : N ≤ d + j
      · rw [if_pos (by omega), if_neg (by omega), at0_lastN (by rw [frameBefore_length]; omega), frameBefore_length]
        congr 1
        omega
      · have h1 := congrArg (fun z => at0 z (j + d)) hS
        simp only [lastFrame] at h1
        rw [at0_frameBefore (by omega), at0_frameBefore (by omega)] at h1
        rw [at0_frameBefore hj]
        by_cases hc : N ≤ S.length + d + j
        · rw [if_pos (by omega), if_pos (by omega)]
          rw [if_pos (by omega)] at h1
          rw [show S.length + d + j - N = S.length + (j + d) - N by omega, h1]
          by_cases h2 : N ≤ e + j
          · rw [if_pos (by omega), if_pos h2]
            congr 1
            omega
          · rw [if_neg (by omega), if_neg h2]
        · rw [if_neg (by omega)]
          rw [if_neg (by omega)] at h1
          by_cases h2 : N ≤ e + j
          · rw [if_pos (by omega)] at h1
            rw [if_pos h2, h1]
            congr 1
            omega
          · rw [if_neg h2]

/-- Efficient few-sample broadcasts at the samples `E 1`, `E 2`, ... (multiples of `L`): the receivers have
the frame up to the last broadcast. -/
theorem rawSent_eff {g : GivenCfg K} {L : Nat} (hb : g.bc = .few L true) {q m n : Nat} {fs : ℚ}
    (hfs : 0 < fs) (hq : g.fs q = fs) (hst : g.stamps q = clockStamps fs n) {E : Nat → Nat} (h0 : E 0 = 0)
    (hmono : ∀ j, E j ≤ E (j + 1)) (hdvd : ∀ j, L ∣ E j) (evs : List (ℚ × Nat × EvType)) :
    ∀ J, (∀ j ≤ J, E j < n) →
      bcTimes evs q = (List.range J).map (fun (j : Nat) => ((E (j + 1) : Nat) : ℚ) / fs) →
      lastFrame g.N (rawSent g y evs q m) = frameBefore g.N ((y q).getD m []) (E J) := by
  have hlast : ∀ (evs : List (ℚ × Nat × EvType)) J,
      bcTimes evs q = (List.range J).map (fun (j : Nat) => ((E (j + 1) : Nat) : ℚ) / fs) →
      lastBcTime evs q = ((E J : Nat) : ℚ) / fs := by
    intro evs J h
    unfold lastBcTime
    rw [h]
    cases J with
    | zero => simp [h0]
    | succ J => simp [List.range_succ, List.getLastD_eq_getLast?]
  induction evs using List.reverseRecOn with
  | nil =>
    intro J hJ h
    have : J = 0 := by
      have := congrArg List.length h
      simp [bcTimes] at this
      exact this.symm
    subst this
    rw [h0]
    have e : rawSent g y [] q m = [] := rfl
    rw [e]
    apply at0_ext
    · simp [lastFrame, frameBefore_length]
    · intro j hj
      rw [lastFrame, frameBefore_length] at hj
      rw [lastFrame, at0_frameBefore hj, at0_frameBefore hj]
      simp only [List.length_nil]
      rw [if_neg (by omega), if_neg (by omega)]
  | append_singleton evs ev ih =>
    intro J hJ h
    unfold rawSent at ih ⊢
    rw [rawOps_snoc, sent_append]
    obtain ⟨t, k, ty⟩ := ev
    by_cases hk : k = q ∧ ty = .bc
    · obtain ⟨rfl, rfl⟩ := hk
      have h2 : bcTimes (evs ++ [(t, k, EvType.bc)]) k = bcTimes evs k ++ [t] := by
        unfold bcTimes
        rw [List.filterMap_append]
        simp
      rw [h2] at h
      cases J with
      | zero => simp at h
      | succ J =>
        rw [List.range_succ, List.map_append, List.map_cons, List.map_nil] at h
        obtain ⟨h3, h4⟩ := List.append_inj' h (by simp)
        injection h4 with h4
        have h5 := ih J (fun j hj => hJ j (by omega)) h3
        simp only [sent_bc, if_true]
        rw [hlast evs J h3]
        unfold rawChunk
        rw [hb, hq, hst, h4]
        simp only
        rw [clock_count hfs (hmono J) (hJ (J + 1) (by omega)),
          Nat.mul_div_cancel' (Nat.dvd_sub (hdvd _) (hdvd _))]
        have e : ⌊((E (J + 1) : Nat) : ℚ) / fs * fs⌋.toNat = E (J + 1) := by
          rw [div_mul_cancel₀ _ hfs.ne', Int.floor_natCast, Int.toNat_natCast]
        rw [e]
        have hm := hmono J
        exact lastFrame_append (by omega) (by rw [h5]; congr 1; omega)
    · have h2 : bcTimes (evs ++ [(t, k, ty)]) q = bcTimes evs q := by
        unfold bcTimes
        rw [List.filterMap_append]
        simp [hk]
      rw [h2] at h
      rw [ih J hJ h |>.symm]
      congr 1
      cases ty with
      | bc =>
        have : k ≠ q := fun e => hk ⟨e, rfl⟩
        simp [sent_bc, this]
      | _ => simp [sent_up]

/-- Whole-chunk broadcasts at the samples `N`, `N + Ns`, ... -/
theorem rawSent_sync_whole {g : GivenCfg K} (hb : g.bc = .whole) {R : Nat} (hN : g.N = R * g.Ns) (hNsN : g.Ns ≤ g.N)
    {q m i : Nat} {fs : ℚ} (hfs : 0 < fs) (hq : g.fs q = fs) (hi : R ≤ i)
    (hx : i * g.Ns ≤ ((y q).getD m []).length)
    {evs : List (ℚ × Nat × EvType)} (h : bcTimes evs q = everySep g.Ns fs R (i + 1)) :
    rawSent g y evs q m = ((y q).getD m []).take ((i + 1 - R) * g.Ns) := by
  rw [rawSent_whole hb, h, ← flatMap_blocks]
  unfold everySep
  rw [List.flatMap_map]
  apply List.flatMap_congr
  intro j hj
  have hj' := List.mem_range.mp hj
  rw [hq, floor_everySep hfs, Int.toNat_natCast, Nat.add_mul, ← hN]
  refine frameBefore_take hNsN _ ?_
  rw [hN, ← Nat.add_mul]
  exact (Nat.mul_le_mul_right _ (by omega)).trans hx

end
end Danse
