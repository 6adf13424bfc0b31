import Verif.Proofs.GenOffset
import Mathlib.RingTheory.RootsOfUnity.Complex

/-!
# C137: shifting a signal by whole samples
-/

namespace Danse
section
variable {K : Type} [Field K] [StarRing K] [CharZero K]

/-- C137: shifting a real signal of at least one block by a whole number `o` of samples terminates and returns
the samples `n + o` of the signal (zero before its beginning and after its end), faded in over the first half
block and, if the last block is the only one there, faded out. `H` is half a block, `I` the index of the last
block: the first whose end, shifted by `- o`, is behind the end of the signal. -/
theorem C137_shift {ζ : K} {H : Nat} (hH : 0 < H) (r : DftRoot ζ (4 * H)) {ph : ℚ → Nat → K}
    (hph : ∀ i, ph 0 i = 1) {win : Nat → List K} (hw : (win (2 * H)).length = 2 * H)
    (hwr : ∀ m, star (at0 (win (2 * H)) m) = at0 (win (2 * H)) m)
    (hcola : ∀ m < H, at0 (win (2 * H)) m + at0 (win (2 * H)) (m + H) = 1)
    {sig : List K} (hsr : ∀ m, star (at0 sig m) = at0 sig m) (hsize : 2 * H ≤ sig.length) (o : Int) :
    ∃ (I : Nat) (res : List K),
      (∀ i : Nat, i < I ↔ (i * H : Int) - o + 2 * H ≤ sig.length) ∧
      (∀ fuel > I, genOffset ζ ph win sig (o : ℚ) (4 * H) fuel = some (.ok res)) ∧
      (res.length = I * H + if 0 ≤ (I * H : Int) + o ∧ (I * H : Int) + o + 2 * H > sig.length then
        (sig.length - ((I * H : Int) + o)).toNat else 0) ∧
      ∀ n < res.length, at0 res n = fade (at0 (win (2 * H))) H I n * sigExt sig (n + o) := by
  classical
  have hex : ∃ I : Nat, (I * H : ℕ) - o + (2 * H : ℕ) > (sig.length : Int) := by
    refine ⟨(sig.length + o + 1).toNat, ?_⟩
    have : ((sig.length : Int) + o + 1) ≤ (((sig.length + o + 1).toNat * H : ℕ) : Int) := by
      have h1 : (sig.length + o + 1 : Int).toNat * 1 ≤ (sig.length + o + 1 : Int).toNat * H :=
        Nat.mul_le_mul_left _ hH
      omega
    omega
  set I := Nat.find hex with hIdef
  have hI := Nat.find_spec hex
  rw [← hIdef] at hI
  have hleast : ∀ i < I, ¬ ((i * H : ℕ) - o + (2 * H : ℕ) > (sig.length : Int)) :=
    fun i hi => Nat.find_min hex hi
  have run := fun fuel (hf : I < fuel) => offsetLoop_run hH r (ph := ph 0) hph hw hwr hsr hsize o I hI hleast
    I 0 fuel 0 (List.replicate sig.length 0) (Nat.zero_add _) hf (fun n => by simp [at0_zeros])
    (fun h => absurd rfl h)
  obtain ⟨res, h1, h2, h3⟩ := run (I + 1) (Nat.lt_succ_self I)
  have hmono : ∀ fuel > I, offsetLoop ζ (4 * H) (2 * H) (ph 0) (win (2 * H)) sig o fuel 0 0
      (List.replicate sig.length 0) = some (.ok res) := by
    intro fuel hf
    obtain ⟨res', g1, g2, g3⟩ := run fuel hf
    rw [g1]
    congr 2
    refine at0_ext (g2.trans h2.symm) fun n hn => ?_
    rw [g3 n hn, h3 n (by omega)]
  refine ⟨I, res, fun i => ?_, fun fuel hf => ?_, ?_, fun n hn => ?_⟩
  · constructor
    · intro hi
      have := hleast i hi
      push_cast at this
      omega
    · intro hi
      by_contra hc
      have : I * H ≤ i * H := Nat.mul_le_mul_right H (by omega)
      push_cast at hI
      have h' : ((I * H : ℕ) : Int) ≤ ((i * H : ℕ) : Int) := by exact_mod_cast this
      push_cast at h'
      omega
  · have e : genOffset ζ ph win sig (o : ℚ) (4 * H) fuel = offsetLoop ζ (4 * H) (2 * H) (ph 0) (win (2 * H)) sig o
        fuel 0 0 (List.replicate sig.length 0) := by
      unfold genOffset
      simp only [roundHE_int, sub_self]
      rw [show 4 * H / 2 = 2 * H by omega]
    rw [e, hmono fuel hf]
  · rw [h2]
    unfold lastRest
    push_cast
    congr 1
    split_ifs with c
    · omega
    · rfl
  · rw [h3 n hn, blockGain_sum hH hcola]
    rw [h2] at hn
    have : lastRest sig H I o ≤ 2 * H := by unfold lastRest; split_ifs <;> omega
    omega

/-- C137: for a non-negative shift that leaves at least a block, the result has the samples from `o` to the end of
the recording, and no other: its length is that of the recording minus the shift. -/
theorem C137_advance {ζ : K} {H : Nat} (hH : 0 < H) (r : DftRoot ζ (4 * H)) {ph : ℚ → Nat → K}
    (hph : ∀ i, ph 0 i = 1) {win : Nat → List K} (hw : (win (2 * H)).length = 2 * H)
    (hwr : ∀ m, star (at0 (win (2 * H)) m) = at0 (win (2 * H)) m)
    (hcola : ∀ m < H, at0 (win (2 * H)) m + at0 (win (2 * H)) (m + H) = 1)
    {sig : List K} (hsr : ∀ m, star (at0 sig m) = at0 sig m) (hsize : 2 * H ≤ sig.length)
    (o : Nat) (ho : 2 * o ≤ H) :
    ∃ (fuel : Nat) (res : List K), genOffset ζ ph win sig (o : ℚ) (4 * H) fuel = some (.ok res) ∧
      res.length = sig.length - o ∧
      ∀ n, H ≤ n → n + H + o < sig.length → at0 res n = at0 sig (n + o) := by
  obtain ⟨I, res, hI, hrun, hlen, hval⟩ := C137_shift hH r hph hw hwr hcola hsr hsize (o : Int)
  have h1 := (hI I).not.mp (lt_irrefl I)
  have h2 : ∀ i, i < I → (i * H : Int) - o + 2 * H ≤ sig.length := fun i hi => (hI i).mp hi
  have hup : I * H ≤ sig.length - H + o := by
    rcases Nat.eq_zero_or_pos I with h | h
    · rw [h]; omega
    · have := h2 (I - 1) (by omega)
      have e : ((I - 1 : ℕ) : Int) * H = I * H - H := by push_cast [Nat.cast_sub h]; ring
      rw [e] at this
      have : ((I * H : ℕ) : Int) ≤ sig.length - H + o := by push_cast; omega
      omega
  have hlen' : res.length = sig.length - o := by
    rw [hlen, if_pos ⟨by positivity, by omega⟩]
    have : ((I * H : ℕ) : Int) = (I : Int) * H := by push_cast; rfl
    omega
  refine ⟨I + 1, res, hrun (I + 1) (Nat.lt_succ_self I), hlen', fun n hn hn' => ?_⟩
  rw [hval n (by omega)]
  unfold fade
  have e2 : (I + 1) * H = I * H + H := by ring
  have : ((I * H : ℕ) : Int) = (I : Int) * H := by push_cast; rfl
  rw [if_neg (by omega), if_pos (by omega), one_mul]
  unfold sigExt
  rw [if_pos (by omega)]
  unfold at0
  congr 1

/-- C137: for a negative shift (a delay) the end of the signal is lost: the result is more than half a block and
the delay shorter than the recording, although the delayed signal is longer than the recording. -/
theorem C137_delay_truncates {ζ : K} {H : Nat} (hH : 0 < H) (r : DftRoot ζ (4 * H)) {ph : ℚ → Nat → K}
    (hph : ∀ i, ph 0 i = 1) {win : Nat → List K} (hw : (win (2 * H)).length = 2 * H)
    (hwr : ∀ m, star (at0 (win (2 * H)) m) = at0 (win (2 * H)) m)
    (hcola : ∀ m < H, at0 (win (2 * H)) m + at0 (win (2 * H)) (m + H) = 1)
    {sig : List K} (hsr : ∀ m, star (at0 sig m) = at0 sig m)
    (d : Nat) (hd : H ≤ 2 * d) (hsize : 2 * H + d ≤ sig.length) :
    ∃ (fuel : Nat) (res : List K), genOffset ζ ph win sig ((-(d : Int) : Int) : ℚ) (4 * H) fuel = some (.ok res) ∧
      res.length + H + d ≤ sig.length := by
  obtain ⟨I, res, hI, hrun, hlen, -⟩ := C137_shift hH r hph hw hwr hcola hsr (by omega) (-(d : Int))
  have hpos : 0 < I := by
    refine (hI 0).mpr ?_
    push_cast; omega
  have h2 := (hI (I - 1)).mp (by omega)
  have e : ((I - 1 : ℕ) : Int) * H = I * H - H := by push_cast [Nat.cast_sub hpos]; ring
  rw [e] at h2
  refine ⟨I + 1, res, hrun _ (Nat.lt_succ_self I), ?_⟩
  rw [if_neg (by omega)] at hlen
  have : ((I * H : ℕ) : Int) = (I : Int) * H := by push_cast; rfl
  omega

end

noncomputable section
/-- Periodic Hann window of four samples. -/
def exHann : Nat → List ℂ := fun _ => [0, 1 / 2, 1, 1 / 2]

/-- The hypotheses are met: Hann window of four samples, transform of eight. -/
example : ∃ (ζ : ℂ) (ph : ℚ → Nat → ℂ), DftRoot ζ (4 * 2) ∧ (∀ i, ph 0 i = 1) ∧ (exHann (2 * 2)).length = 2 * 2 ∧
    (∀ m, star (at0 (exHann (2 * 2)) m) = at0 (exHann (2 * 2)) m) ∧
    (∀ m < 2, at0 (exHann (2 * 2)) m + at0 (exHann (2 * 2)) (m + 2) = 1) ∧
    (∀ m, star (at0 ([1, 2, 3, 4, 5, 6] : List ℂ) m) = at0 ([1, 2, 3, 4, 5, 6] : List ℂ) m) := by
  have hreal : ∀ l : List ℂ, (∀ x ∈ l, star x = x) → ∀ m, star (at0 l m) = at0 l m := by
    intro l hl m
    rcases Nat.lt_or_ge m l.length with h | h
    · unfold at0; rw [getD_lt h]; exact hl _ (List.getElem_mem h)
    · rw [at0_of_ge h, star_zero]
  refine ⟨Complex.exp (2 * Real.pi * Complex.I / (8 : ℕ)), fun _ _ => 1, ⟨by norm_num,
    Complex.isPrimitiveRoot_exp 8 (by norm_num), ?_⟩, fun _ => rfl, rfl, hreal _ ?_, ?_, hreal _ ?_⟩
  · rw [← Complex.exp_neg, Complex.star_def, ← Complex.exp_conj]
    congr 1
    simp only [map_div₀, map_mul, Complex.conj_I, Complex.conj_ofReal, map_natCast, map_ofNat]
    ring
  · intro x hx
    simp only [exHann, List.mem_cons, List.not_mem_nil, or_false] at hx
    rcases hx with h | h | h | h <;> subst h <;> simp
  · intro m hm
    interval_cases m <;> simp [at0, exHann] <;> norm_num
  · intro x hx
    simp only [List.mem_cons, List.not_mem_nil, or_false] at hx
    rcases hx with h | h | h | h | h | h <;> subst h <;> simp
end

end Danse
