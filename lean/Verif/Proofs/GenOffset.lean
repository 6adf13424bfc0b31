import Verif.Model.GenOffset
import Verif.Spec.GenOffset
import Verif.Proofs.Dft
import Verif.Proofs.Dxcp
import Verif.Proofs.Metrics

namespace Danse
section
variable {K : Type} [Field K] [StarRing K]

set_option linter.unusedSectionVars false

theorem at0_zeros (k m : Nat) : at0 (List.replicate k (0 : K)) m = 0 := by
  unfold at0
  rw [List.getD_eq_getElem?_getD, List.getElem?_replicate]
  split_ifs <;> rfl

theorem srcBlock_spec {B : Nat} {sig : List K} (hB : B ≤ sig.length) (bs : Int) :
    (srcBlock B sig bs).length = B ∧ ∀ m < B, at0 (srcBlock B sig bs) m = sigExt sig (bs + m) := by
  unfold srcBlock
  split_ifs with h1 h2 h3
  · refine ⟨by simp, fun m hm => ?_⟩
    unfold sigExt at0
    rw [if_neg (by omega)]
    simp [List.getD_eq_getElem?_getD, hm]
  · refine ⟨by simp; omega, fun m hm => ?_⟩
    unfold sigExt
    rw [at0_append, List.length_replicate]
    split_ifs with c1 c2 c2
    · omega
    · exact at0_zeros _ _
    · rw [at0_take (by omega)]
      unfold at0
      congr 1
      omega
    · omega
  · refine ⟨by simp; omega, fun m hm => ?_⟩
    unfold sigExt
    rw [if_pos (by omega), at0_append, List.length_drop]
    split_ifs with c1
    · rw [at0_drop]; unfold at0; congr 1; omega
    · rw [at0_zeros]
      exact (at0_of_ge (x := sig) (by omega)).symm
  · refine ⟨by simp; omega, fun m hm => ?_⟩
    unfold sigExt
    rw [if_pos (by omega), at0_take hm, at0_drop]
    unfold at0; congr 1; omega

theorem addAt_length (out blk : List K) (s : Nat) :
    (addAt out blk s).length = max out.length (s + blk.length) := by unfold addAt; simp

theorem addAt_at0 (out blk : List K) (s n : Nat) :
    at0 (addAt out blk s) n = at0 out n + if s ≤ n then at0 blk (n - s) else 0 := by
  rcases Nat.lt_or_ge n (max out.length (s + blk.length)) with h | h
  · unfold addAt; rw [at0_range_map h]
  · rw [at0_of_ge (by rw [addAt_length]; exact h), at0_of_ge (x := out) (by omega)]
    split_ifs
    · rw [at0_of_ge (by omega), add_zero]
    · rw [add_zero]

theorem dft_pad {ζ : K} {F : Nat} {x : List K} (hx : x.length ≤ F) :
    dft ζ F x = dft ζ F (x ++ List.replicate (F - x.length) 0) := by
  unfold dft
  refine List.map_congr_left fun k _ => Finset.sum_congr rfl fun t ht => ?_
  congr 1
  rw [at0_append]
  split_ifs with h
  · rfl
  · rw [at0_of_ge (not_lt.mp h)]
    unfold at0
    rw [List.getD_eq_getElem?_getD, List.getElem?_replicate]
    split_ifs <;> rfl

/-- Without a fractional part a block is only windowed. -/
theorem shiftBlock_int [CharZero K] {ζ : K} {F B : Nat} (r : DftRoot ζ F) (hBF : B ≤ F) {ph : Nat → K}
    (hph : ∀ i, ph i = 1) {win blk : List K} (hw : win.length = B) (hb : blk.length = B)
    (hwr : ∀ m, star (at0 win m) = at0 win m) (hbr : ∀ m, star (at0 blk m) = at0 blk m) :
    (shiftBlock ζ F B ph win blk).length = B ∧
    ∀ m < B, at0 (shiftBlock ζ F B ph win blk) m = at0 win m * at0 blk m := by
  set x := List.zipWith (· * ·) win blk with hx
  have hxl : x.length = B := by rw [hx]; simp [hw, hb]
  have hone : List.zipWith (· * ·) (dft ζ F x) ((List.range F).map ph) = dft ζ F x := by
    apply at0_ext
    · simp [dft_length]
    · intro i hi
      have hi' : i < F := by simpa [dft_length] using hi
      rw [at0_zipWith (by rw [dft_length]; exact hi') (by simpa using hi'), at0_range_map hi', hph, mul_one]
  have hs : shiftBlock ζ F B ph win blk = ((x ++ List.replicate (F - x.length) 0).map rePart).take B := by
    unfold shiftBlock
    simp only
    rw [← hx, hone, dft_pad (hxl.trans_le hBF), idft_dft r (by simp; omega)]
  rw [hs]
  refine ⟨by simp; omega, fun m hm => ?_⟩
  rw [at0_take hm, at0_map rePart_zero, at0_append, if_pos (by omega), hx, at0_zipWith (by omega) (by omega)]
  exact rePart_of_real (by rw [star_mul, hwr, hbr, mul_comm])

/-- Contribution of block `j` to sample `n`. -/
def blockGain (w : Nat → K) (H j n : Nat) : K := if j * H ≤ n ∧ n < j * H + 2 * H then w (n - j * H) else 0

theorem blockGain_sum {w : Nat → K} {H : Nat} (hH : 0 < H) (hw : ∀ m < H, w m + w (m + H) = 1) (I n : Nat)
    (hn : n < I * H + 2 * H) :
    ∑ j ∈ Finset.range (I + 1), blockGain w H j n = fade w H I n := by
  induction I with
  | zero =>
    rw [Finset.sum_range_one]
    unfold blockGain fade
    rw [if_pos ⟨by omega, by simpa using hn⟩]
    simp only [Nat.zero_mul, Nat.sub_zero, Nat.zero_add, Nat.one_mul]
    split_ifs <;> rfl
  | succ I ih =>
    rw [Finset.sum_range_succ]
    have e1 : (I + 1) * H = I * H + H := by ring
    have e2 : (I + 1 + 1) * H = I * H + 2 * H := by ring
    rw [e1] at hn
    by_cases h1 : n < I * H + 2 * H
    · rw [ih h1]
      unfold fade blockGain
      rw [e1, e2]
      by_cases h2 : n < H
      · rw [if_pos h2, if_pos h2]
        by_cases h3 : I * H + H ≤ n
        · omega
        · rw [if_neg (by omega), add_zero]
      · rw [if_neg h2, if_neg h2, if_pos h1]
        by_cases h3 : n < I * H + H
        · rw [if_pos h3, if_neg (by omega), add_zero]
        · rw [if_neg h3, if_pos (by omega)]
          have := hw (n - (I * H + H)) (by omega)
          rw [show n - (I * H + H) + H = n - I * H by omega] at this
          rw [← this]; ring
    · have hz : ∑ j ∈ Finset.range (I + 1), blockGain w H j n = 0 := by
        refine Finset.sum_eq_zero fun j hj => ?_
        have hj := Finset.mem_range.mp hj
        have : j * H ≤ I * H := Nat.mul_le_mul_right H (by omega)
        unfold blockGain
        rw [if_neg (by omega)]
      rw [hz, zero_add]
      unfold fade blockGain
      rw [e1, e2, if_pos ⟨by omega, by omega⟩, if_neg (by omega), if_neg (by omega)]

theorem offset_index (idx H : Nat) (o : Int) :
    pyInt ((idx : ℚ) * (2 * H : ℕ) / 2 + (o : ℚ)) = (idx * H : ℕ) + o := by
  have : (idx : ℚ) * (2 * H : ℕ) / 2 + (o : ℚ) = (((idx * H : ℕ) + o : Int) : ℚ) := by push_cast; ring
  rw [this, pyInt_intCast]

theorem offset_index0 (idx H : Nat) : pyInt ((idx : ℚ) * (2 * H : ℕ) / 2) = (idx * H : ℕ) := by
  have := offset_index idx H 0
  simpa using this

theorem offset_index_neg (idx H : Nat) (o : Int) :
    pyInt ((idx : ℚ) * (2 * H : ℕ) / 2 - (o : ℚ)) = (idx * H : ℕ) - o := by
  have := offset_index idx H (-o)
  push_cast at this ⊢
  rw [← sub_eq_add_neg] at this
  rw [this]; ring

/-- What the last block leaves over. -/
def lastRest (sig : List K) (H I : Nat) (o : Int) : Nat :=
  if 0 ≤ (I * H : ℕ) + o ∧ (I * H : ℕ) + o + (2 * H : ℕ) > (sig.length : Int) then
    sig.length - ((I * H : ℕ) + o).toNat else 0

theorem offsetLoop_run [CharZero K] {ζ : K} {H : Nat} (hH : 0 < H) (r : DftRoot ζ (4 * H)) {ph : Nat → K}
    (hph : ∀ i, ph i = 1) {win sig : List K} (hw : win.length = 2 * H)
    (hwr : ∀ m, star (at0 win m) = at0 win m) (hsr : ∀ m, star (at0 sig m) = at0 sig m)
    (hsize : 2 * H ≤ sig.length) (o : Int) (I : Nat)
    (hI : (I * H : ℕ) - o + (2 * H : ℕ) > (sig.length : Int))
    (hleast : ∀ i < I, ¬ ((i * H : ℕ) - o + (2 * H : ℕ) > (sig.length : Int))) :
    ∀ (d i fuel lenRest : Nat) (out : List K), i + d = I → d < fuel →
      (∀ n, at0 out n = (∑ j ∈ Finset.range i, blockGain (at0 win) H j n) * sigExt sig (n + o)) →
      (lenRest ≠ 0 → 0 ≤ (i * H : ℕ) + o ∧ (i * H : ℕ) + o + (2 * H : ℕ) > (sig.length : Int)) →
      ∃ res, offsetLoop ζ (4 * H) (2 * H) ph win sig o fuel i lenRest out = some (.ok res) ∧
        res.length = I * H + lastRest sig H I o ∧
        ∀ n < res.length, at0 res n =
          (∑ j ∈ Finset.range (I + 1), blockGain (at0 win) H j n) * sigExt sig (n + o) := by
  have hsr' : ∀ z, star (sigExt sig z) = sigExt sig z := by
    intro z; unfold sigExt; split_ifs
    · exact hsr _
    · simp
  intro d
  induction d with
  | zero =>
    intro i fuel lenRest out hi hf hout hrest
    have hi : i = I := by omega
    subst hi
    obtain ⟨fuel, rfl⟩ : ∃ f, fuel = f + 1 := ⟨fuel - 1, by omega⟩
    obtain ⟨hbl, hba⟩ := srcBlock_spec (B := 2 * H) hsize ((i * H : ℕ) + o)
    have hbr : ∀ m, star (at0 (srcBlock (2 * H) sig ((i * H : ℕ) + o)) m) =
        at0 (srcBlock (2 * H) sig ((i * H : ℕ) + o)) m := by
      intro m
      rcases Nat.lt_or_ge m (2 * H) with h | h
      · rw [hba m h, hsr']
      · rw [at0_of_ge (by omega), star_zero]
    obtain ⟨hsl, hsa⟩ := shiftBlock_int r (by omega) hph hw hbl hwr hbr
    rw [offsetLoop]
    simp only [offset_index, offset_index0, offset_index_neg, Int.toNat_natCast]
    rw [if_neg (by rw [hw, hbl]; simp), if_pos hI]
    have hlr : restLen (2 * H) sig ((i * H : ℕ) + o) lenRest = lastRest sig H i o := by
      unfold restLen lastRest
      by_cases c : 0 ≤ ((i * H : ℕ) : Int) + o ∧ ((i * H : ℕ) : Int) + o + (2 * H : ℕ) > (sig.length : Int)
      · rw [if_pos c, if_pos c, List.length_drop]
      · rw [if_neg c, if_neg c]
        by_contra h
        exact c (hrest h)
    rw [hlr]
    have hle : lastRest sig H i o ≤ 2 * H := by
      unfold lastRest; split_ifs <;> omega
    refine ⟨_, rfl, ?_, ?_⟩
    · rw [List.length_take, addAt_length, hsl]; omega
    · intro n hn
      have hn : n < i * H + lastRest sig H i o := by
        rw [List.length_take] at hn; omega
      rw [at0_take hn, addAt_at0, hout, Finset.sum_range_succ, add_mul]
      congr 1
      unfold blockGain
      by_cases c : i * H ≤ n
      · rw [if_pos c, if_pos ⟨c, by omega⟩, hsa _ (by omega), hba _ (by omega)]
        congr 2
        omega
      · rw [if_neg c, if_neg (by omega), zero_mul]
  | succ d ih =>
    intro i fuel lenRest out hi hf hout hrest
    obtain ⟨fuel, rfl⟩ : ∃ f, fuel = f + 1 := ⟨fuel - 1, by omega⟩
    obtain ⟨hbl, hba⟩ := srcBlock_spec (B := 2 * H) hsize ((i * H : ℕ) + o)
    have hbr : ∀ m, star (at0 (srcBlock (2 * H) sig ((i * H : ℕ) + o)) m) =
        at0 (srcBlock (2 * H) sig ((i * H : ℕ) + o)) m := by
      intro m
      rcases Nat.lt_or_ge m (2 * H) with h | h
      · rw [hba m h, hsr']
      · rw [at0_of_ge (by omega), star_zero]
    obtain ⟨hsl, hsa⟩ := shiftBlock_int r (by omega) hph hw hbl hwr hbr
    rw [offsetLoop]
    simp only [offset_index, offset_index0, offset_index_neg, Int.toNat_natCast]
    rw [if_neg (by rw [hw, hbl]; simp), if_neg (hleast i (by omega))]
    refine ih (i + 1) fuel _ _ (by omega) (by omega) ?_ ?_
    · intro n
      rw [addAt_at0, hout, Finset.sum_range_succ, add_mul]
      congr 1
      unfold blockGain
      by_cases c : i * H ≤ n
      · rw [if_pos c]
        rcases Nat.lt_or_ge (n - i * H) (2 * H) with h | h
        · rw [if_pos ⟨c, by omega⟩, hsa _ h, hba _ h]
          congr 2
          omega
        · rw [at0_of_ge (by omega), if_neg (by omega), zero_mul]
      · rw [if_neg c, if_neg (by omega), zero_mul]
    · intro h
      have e : (i + 1) * H = i * H + H := by ring
      have c : 0 ≤ ((i * H : ℕ) : Int) + o ∧ ((i * H : ℕ) : Int) + o + (2 * H : ℕ) > (sig.length : Int) := by
        unfold restLen at h
        by_contra c
        rw [if_neg c] at h
        exact c (hrest h)
      rw [e]
      omega

end
end Danse
