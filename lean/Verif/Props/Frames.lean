import Verif.Model.Frames
import Verif.Spec.Buffers
import Verif.Proofs.Sync2

/-!
# Property C19: local frames are causal, one frame long and zero padded at the start

`LastSamples n stream s` (`Verif/Spec/Buffers.lean`): `s` has `n` samples and they are the last
ones of `stream` preceded by silence.
-/

set_option linter.unusedSectionVars false

namespace Danse
section
variable {α : Type} [Zero α]

theorem localChunk_ok {y : List α} {N : Nat} {e : Int} (h0 : 0 ≤ e) (h1 : e ≤ y.length) :
    ∃ chunk, localChunk y N e = .ok (chunk, max (e - N) 0, e) ∧
      LastSamples N (y.take e.toNat) chunk := by
  obtain ⟨m, rfl⟩ := Int.eq_ofNat_of_zero_le h0
  have hm : m ≤ y.length := by omega
  have hslice : pySlice y (max ((m : Int) - N) 0) m = (y.take m).drop (m - N) := by
    unfold pySlice pySliceBound
    have h2 : ¬ (max ((m : Int) - N) 0 < 0) := by omega
    have h3 : ¬ ((m : Int) < 0) := by omega
    have h4 : (max ((m : Int) - N) 0).toNat = m - N := by omega
    simp only [if_neg h2, if_neg h3, h4, Int.toNat_natCast, Nat.min_eq_left hm]
    rw [Nat.min_eq_left (by omega), List.take_drop]
    congr 2; omega
  have hl : ((y.take m).drop (m - N)).length = min m N := by
    rw [List.length_drop, List.length_take]; omega
  unfold localChunk
  simp only [hslice, Int.toNat_natCast]
  by_cases hc : (m : Int) - max ((m : Int) - N) 0 < N
  · rw [if_pos hc, if_neg (by rw [hl]; omega)]
    refine ⟨_, rfl, ?_, ?_⟩
    · rw [List.length_append, List.length_replicate, hl]; omega
    · have hz : m - N = 0 := by omega
      rw [hz, List.drop_zero]
      refine ⟨List.replicate m 0, ?_⟩
      rw [← List.append_assoc, List.replicate_append_replicate, List.length_take]
      congr 2; omega
  · rw [if_neg hc]
    refine ⟨_, rfl, by rw [hl]; omega, List.replicate N 0 ++ (y.take m).take (m - N), ?_⟩
    rw [List.append_assoc, List.take_append_drop]

/-- C19 (a): within the recording, the frame broadcast at time `t` consists of the `N` samples
before sample index `floor (t * fs)`, zeros before the start of the recording. -/
theorem C19_broadcast {y : List α} {t fs : ℚ} {N : Nat} (h0 : 0 ≤ t * fs)
    (h1 : ⌊t * fs⌋ ≤ y.length) :
    ∃ chunk b, chunkForBroadcast y t fs N = .ok (chunk, b, ⌊t * fs⌋) ∧
      LastSamples N (y.take ⌊t * fs⌋.toNat) chunk := by
  obtain ⟨c, h2, h3⟩ := localChunk_ok (N := N) (Int.floor_nonneg.mpr h0) h1
  exact ⟨c, _, h2, h3⟩

/-- C19 (b): the frame used at an update with few-sample broadcasting is the same frame. -/
theorem C19_update_few_samples {y : List α} {t fs : ℚ} {N Ns : Nat} (h0 : 0 ≤ t * fs)
    (h1 : ⌊t * fs⌋ ≤ y.length) :
    ∃ chunk b, chunkForUpdate y t fs "fewSamples" N Ns = .ok (chunk, b, ⌊t * fs⌋) ∧
      LastSamples N (y.take ⌊t * fs⌋.toNat) chunk :=
  C19_broadcast h0 h1

/-- C19 (c): with whole-chunk broadcasting the frame ends `N - Ns` samples earlier. -/
theorem C19_update_whole_chunk {y : List α} {t fs : ℚ} {N Ns : Nat}
    (h0 : ((N : ℤ) - Ns : ℤ) ≤ ⌊t * fs⌋) (h1 : ⌊t * fs⌋ ≤ y.length + ((N : ℤ) - Ns)) :
    ∃ chunk b, chunkForUpdate y t fs "wholeChunk" N Ns =
        .ok (chunk, b, ⌊t * fs⌋ - ((N : ℤ) - Ns)) ∧
      LastSamples N (y.take (⌊t * fs⌋ - ((N : ℤ) - Ns)).toNat) chunk := by
  obtain ⟨c, h2, h3⟩ := localChunk_ok (y := y) (N := N) (e := ⌊t * fs⌋ - ((N : ℤ) - Ns))
    (by omega) (by omega)
  refine ⟨c, max (⌊t * fs⌋ - ((N : ℤ) - Ns) - N) 0, ?_, h3⟩
  unfold chunkForUpdate
  rw [if_neg (by decide), if_pos rfl]
  exact h2

/-- C19 (d): causality. Two recordings that agree up to sample `floor (t * fs)` give the same
frames (whole-chunk updates included), whatever happens later. -/
theorem C19_causal {y y' : List α} {t fs : ℚ} {N Ns : Nat} {bd : String} (hNs : Ns ≤ N)
    (h0 : ((N : ℤ) - Ns : ℤ) ≤ ⌊t * fs⌋)
    (h1 : ⌊t * fs⌋ ≤ y.length) (h1' : ⌊t * fs⌋ ≤ y'.length)
    (hy : y.take ⌊t * fs⌋.toNat = y'.take ⌊t * fs⌋.toNat) :
    chunkForBroadcast y t fs N = chunkForBroadcast y' t fs N ∧
    chunkForUpdate y t fs bd N Ns = chunkForUpdate y' t fs bd N Ns := by
  have key : ∀ e : Int, 0 ≤ e → e ≤ ⌊t * fs⌋ → localChunk y N e = localChunk y' N e := by
    intro e he0 he1
    obtain ⟨c, h2, h3, p, h4⟩ := localChunk_ok (y := y) (N := N) he0 (by omega)
    obtain ⟨c', h2', h3', p', h4'⟩ := localChunk_ok (y := y') (N := N) he0 (by omega)
    have hyt : y.take e.toNat = y'.take e.toNat := by
      have : e.toNat = min e.toNat ⌊t * fs⌋.toNat := by omega
      rw [this, ← List.take_take, hy, List.take_take]
    rw [h2, h2']
    have hcc : c = c' := by
      rw [hyt] at h4
      rw [h4] at h4'
      exact (List.append_inj' h4' (by omega)).2
    rw [hcc]
  refine ⟨key _ (by omega) le_rfl, ?_⟩
  unfold chunkForUpdate
  split
  · exact key _ (by omega) le_rfl
  · split
    · exact key _ (by omega) (by omega)
    · rfl

/-- C19 (e): the update and broadcast instants of the whole-chunk schedule (C07, C11) satisfy the
hypotheses above: at each of them all frames are complete and no zero is needed for the local
frame at broadcasts. -/
theorem C19_scheduled {Ndft Ns N : Nat} {fs : ℚ} (hfs : 0 < fs) (hNs : 0 < Ns) (hd : 0 < Ndft)
    (hdvd : Ns ∣ Ndft) {up bc : List ℚ}
    (hi : fcWholeChunkInstants Ndft Ns fs (((N - 1 : Nat) : ℚ) / fs) (clock fs N) = .ok (up, bc))
    {t : ℚ} (ht : t ∈ up ∨ t ∈ bc) (y : List α) (hy : y.length = N) :
    (Ndft : ℤ) ≤ ⌊t * fs⌋ ∧ ⌊t * fs⌋ < y.length ∧
    ∃ chunk b, chunkForBroadcast y t fs Ndft = .ok (chunk, b, ⌊t * fs⌋) ∧
      chunk = (y.take ⌊t * fs⌋.toNat).drop (⌊t * fs⌋.toNat - Ndft) := by
  have hT : ∀ j < (N - 1) / Ns - Ndft / Ns, (Ndft / Ns + j) * Ns < N := by
    intro j hj
    have h3 : (Ndft / Ns + j) * Ns < (N - 1) / Ns * Ns :=
      Nat.mul_lt_mul_of_pos_right (by omega) hNs
    have h4 : (N - 1) / Ns * Ns ≤ N - 1 := Nat.div_mul_le_self _ _
    omega
  have hg := generateAligned_grid (fs := fs) hT
  unfold fcWholeChunkInstants at hi
  have e : (Ndft : ℚ) / Ns = ((Ndft / Ns : Nat) : ℚ) := by
    obtain ⟨c, rfl⟩ := hdvd
    rw [Nat.mul_div_cancel_left _ hNs]
    push_cast
    rw [mul_div_cancel_left₀ _ (by positivity)]
  rw [ceil_dvd hNs hdvd, floor_grid hfs, e, hg] at hi
  simp only [bind, Except.bind, Except.ok.injEq, Prod.mk.injEq] at hi
  have hmem : ∃ j < (N - 1) / Ns - Ndft / Ns, t = (((Ndft / Ns + j) * Ns : Nat) : ℚ) / fs := by
    rcases ht with h | h
    · rw [← hi.1] at h
      obtain ⟨j, hj, rfl⟩ := List.mem_map.mp h
      exact ⟨j, List.mem_range.mp hj, rfl⟩
    · rw [← hi.2] at h
      obtain ⟨j, hj, rfl⟩ := List.mem_map.mp h
      exact ⟨j, List.mem_range.mp hj, rfl⟩
  obtain ⟨j, hj, rfl⟩ := hmem
  have hfl : ⌊(((Ndft / Ns + j) * Ns : Nat) : ℚ) / fs * fs⌋ = (((Ndft / Ns + j) * Ns : Nat) : ℤ) := by
    rw [div_mul_cancel₀ _ (ne_of_gt hfs)]
    exact Int.floor_natCast _
  rw [hfl]
  have hlt := hT j hj
  have hge : Ndft ≤ (Ndft / Ns + j) * Ns := by
    have : Ndft / Ns * Ns = Ndft := Nat.div_mul_cancel hdvd
    rw [Nat.add_mul, this]; omega
  refine ⟨by exact_mod_cast hge, by rw [hy]; exact_mod_cast hlt, ?_⟩
  generalize (Ndft / Ns + j) * Ns = m at *
  obtain ⟨c, h2, h3, p, h4⟩ := localChunk_ok (y := y) (N := Ndft) (e := (m : ℤ)) (by omega)
    (by rw [hy]; exact_mod_cast hlt.le)
  refine ⟨c, _, by unfold chunkForBroadcast; rw [hfl]; exact h2, ?_⟩
  simp only [Int.toNat_natCast] at h4 ⊢
  have h5 : List.replicate Ndft 0 ++ y.take m =
      (List.replicate Ndft 0 ++ (y.take m).take (m - Ndft)) ++ (y.take m).drop (m - Ndft) := by
    rw [List.append_assoc, List.take_append_drop]
  rw [h5] at h4
  refine ((List.append_inj' h4 ?_).2).symm
  rw [h3, List.length_drop, List.length_take, hy]; omega

/-- C19 (f), disagreement: an update asked for before `N - Ns` samples were recorded (which the
schedules of C07 never do) gets samples from the future instead of zeros. -/
theorem C19_refuted_before_start :
    ∃ (y y' : List Int) (c c' : List Int) (b e : Int), y.take 1 = y'.take 1 ∧ y ≠ y' ∧
      chunkForUpdate y 1 1 "wholeChunk" 4 2 = .ok (c, b, e) ∧
      chunkForUpdate y' 1 1 "wholeChunk" 4 2 = .ok (c', b, e) ∧ c ≠ c' := by
  refine ⟨[1, 2, 3], [1, 5, 6], [0, 0, 1, 2], [0, 0, 1, 5], 0, -1, by decide, by decide, ?_, ?_,
    by decide⟩ <;>
  · unfold chunkForUpdate
    rw [if_neg (by decide), if_pos rfl, show ⌊(1 : ℚ) * 1⌋ = 1 by norm_num]
    decide

/-- Five samples recorded, frames of 4, at sample 3 (padding) and 5. -/
example : localChunk [1, 2, 3, 4, (5 : Int)] 4 3 = .ok ([0, 1, 2, 3], 0, 3) ∧
    localChunk [1, 2, 3, 4, (5 : Int)] 4 5 = .ok ([2, 3, 4, 5], 1, 5) := by decide

example : chunkForBroadcast [1, 2, 3, 4, (5 : Int)] (3 / 2) 2 4 = .ok ([0, 1, 2, 3], 0, 3) := by
  unfold chunkForBroadcast
  rw [show ⌊(3 / 2 : ℚ) * 2⌋ = 3 by norm_num]
  decide

end
end Danse
