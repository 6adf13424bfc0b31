import Verif.Proofs.Dxcp
import Verif.Spec.Dxcp

/-!
# The online resampler over whole histories
-/

namespace Danse

theorem seg_length (x : Int → ℝ) (a : Int) (n : Nat) : (seg x a n).length = n := by simp [seg]

theorem seg_append (x : Int → ℝ) (a : Int) (n m : Nat) :
    seg x a n ++ seg x (a + n) m = seg x a (n + m) := by
  unfold seg
  rw [List.range_add, List.map_append, List.map_map]
  congr 1
  apply List.map_congr_left
  intro i _
  simp [add_assoc]

theorem seg_drop (x : Int → ℝ) (a : Int) (n m : Nat) :
    (seg x a (n + m)).drop n = seg x (a + n) m := by
  rw [← seg_append, List.drop_left' (seg_length x a n)]

theorem seg_take (x : Int → ℝ) (a : Int) (n m : Nat) : (seg x a (n + m)).take n = seg x a n := by
  rw [← seg_append, List.take_left' (seg_length x a n)]

theorem seg_pySlice (x : Int → ℝ) (a : Int) (n s m : Nat) (h : s + m ≤ n) :
    pySlice (seg x a n) s ((s : Int) + m) = seg x (a + s) m := by
  obtain ⟨r, rfl⟩ := Nat.exists_eq_add_of_le h
  unfold pySlice pySliceBound
  simp only [seg_length]
  rw [if_neg (by omega : ¬ ((s : Int) < 0)), if_neg (by omega : ¬ ((s : Int) + m < 0))]
  have e1 : min (s : Int).toNat (s + m + r) = s := by omega
  have e2 : min ((s : Int) + m).toNat (s + m + r) = s + m := by omega
  rw [e1, e2, add_assoc s m r, seg_drop, Nat.add_sub_cancel_left, seg_take]

theorem zipIdx_map_range {α β : Type} (f : Nat → α) (g : α × Nat → β) (n : Nat) :
    ((List.range n).map f).zipIdx.map g = (List.range n).map fun i => g (f i, i) := by
  apply List.ext_getElem
  · simp
  · intro i h1 h2
    simp

/-- The part of the output buffer that is carried over to the next call. -/
noncomputable def tailSeg (B : Nat) (x : Int → ℝ) (a : Int) : List ℝ :=
  ((List.range B).map fun (i : Nat) => hannP B (B + i) * x (a + i)) ++ List.replicate B 0

/-- State of the resampler after `n` blocks of the signal `x` with constant integer offset `d`. -/
structure ResInv (B : Nat) (x : Int → ℝ) (d : Int) (n : Nat) (s : Resampler) : Prop where
  hB : s.B = B
  shift : s.shift = 0
  inb : s.inBuf = seg x (((n : Int) - 4) * B) (4 * B)
  len : s.outBuf.length = 3 * B
  out : s.outBuf.drop B = tailSeg B x (((n : Int) - 2) * B + d)

theorem resInv_init {B : Nat} {x : Int → ℝ} (hx : ∀ t < 0, x t = 0) {d : Int} (hd : d < B) :
    ResInv B x d 0 (Resampler.init B) := by
  refine ⟨rfl, rfl, ?_, by simp [Resampler.init], ?_⟩
  · unfold Resampler.init seg
    symm
    apply List.eq_replicate_iff.2
    refine ⟨by simp, ?_⟩
    intro b hb
    obtain ⟨i, hi, rfl⟩ := List.mem_map.1 hb
    rw [List.mem_range] at hi
    apply hx
    push_cast
    have : (i : Int) < 4 * B := by exact_mod_cast hi
    linarith
  · unfold Resampler.init tailSeg
    simp only [List.drop_replicate]
    rw [show 3 * B - B = B + B by omega, List.replicate_add]
    congr 1
    symm
    apply List.eq_replicate_iff.2
    refine ⟨by simp, ?_⟩
    intro b hb
    obtain ⟨i, hi, rfl⟩ := List.mem_map.1 hb
    rw [List.mem_range] at hi
    have h2 : (i : Int) < B := by exact_mod_cast hi
    rw [hx, mul_zero]
    push_cast
    linarith

theorem resInv_step {B : Nat} (hB : 0 < B) {x : Int → ℝ} {d : Int} (h1 : -(B : Int) ≤ d)
    (h2 : d < B) {n : Nat} {s : Resampler} (h : ResInv B x d n s) :
    ∃ s', s.process (seg x ((n : Int) * B) B) 0 d =
        .ok (s', seg x (((n : Int) - 2) * B + d) B) ∧ ResInv B x d (n + 1) s' := by
  obtain ⟨e1, e2, e3, e4, e5⟩ := h
  have hin : s.inBuf.drop s.B ++ seg x ((n : Int) * B) B = seg x (((n : Int) - 3) * B) (4 * B) := by
    rw [e1, e3, show 4 * B = B + 3 * B by omega, seg_drop]
    have : (n : Int) * B = (((n : Int) - 4) * B + B) + (3 * B : ℕ) := by push_cast; ring
    rw [this, seg_append]
    congr 1
    · ring
    · omega
  have hsel : selectWin s.B s.shift s.warned 0 d = ⟨B + d, 3 * B + d, 0, 0, .none, false⟩ := by
    rw [e1, e2]; exact selectWin_zero B s.warned d h1 h2
  have hblk : pySlice (seg x (((n : Int) - 3) * B) (4 * B)) ((B : Int) + d) (3 * B + d) =
      seg x (((n : Int) - 2) * B + d) (2 * B) := by
    have a : ((B : Int) + d) = (((B : Int) + d).toNat : Int) := by omega
    have b : (3 * (B : Int) + d) = (((B : Int) + d).toNat : Int) + (2 * B : ℕ) := by omega
    rw [b]
    conv_lhs => rw [a]
    have hm : ((((B : Int) + d).toNat : Int)).toNat = ((B : Int) + d).toNat := by omega
    rw [hm]
    rw [seg_pySlice x _ _ _ _ (by omega)]
    congr 1
    rw [← a]; ring
  set a : Int := ((n : Int) - 2) * B + d with ha
  have hwx : (seg x a (2 * B)).zipIdx.map (fun (v, i) => hannP s.B i * v) =
      ((List.range B).map fun (i : Nat) => hannP B i * x (a + i)) ++
        ((List.range B).map fun (i : Nat) => hannP B (B + i) * x (a + B + i)) := by
    unfold seg
    rw [zipIdx_map_range, show 2 * B = B + B by omega, List.range_add, List.map_append, List.map_map,
      e1]
    congr 1
    apply List.map_congr_left
    intro i _
    simp [add_assoc]
  have hwl : ((seg x a (2 * B)).zipIdx.map (fun (v, i) => hannP s.B i * v)).length = 2 * B := by
    simp [seg_length]
  have hfd : (fracDelay (4 * s.B) (((0 : ℚ) : ℝ)) ((seg x a (2 * B)).zipIdx.map
      (fun (v, i) => hannP s.B i * v))).take (2 * s.B) =
      (seg x a (2 * B)).zipIdx.map (fun (v, i) => hannP s.B i * v) := by
    rw [Rat.cast_zero, fracDelay_zero (by omega) (by rw [hwl, e1]; omega)]
    exact List.take_left' (by rw [hwl, e1])
  have hzip : List.zipWith (· + ·) (s.outBuf.drop s.B) ((seg x a (2 * B)).zipIdx.map
      (fun (v, i) => hannP s.B i * v)) = seg x a B ++
        ((List.range B).map fun (i : Nat) => hannP B (B + i) * x (a + B + i)) := by
    rw [hwx, e1, e5]
    unfold tailSeg
    rw [List.zipWith_append (by simp)]
    congr 1
    · unfold seg
      rw [List.zipWith_map_left, List.zipWith_map_right, List.zipWith_self]
      apply List.map_congr_left
      intro i _
      have := hann_cola hB i
      linear_combination (x (a + i)) * this
    · apply List.ext_getElem
      · simp
      · intro i h1 h2
        simp
  have hout : (s.outBuf.take s.B ++ (seg x a B ++
      ((List.range B).map fun (i : Nat) => hannP B (B + i) * x (a + B + i)))).drop s.B =
      seg x a B ++ ((List.range B).map fun (i : Nat) => hannP B (B + i) * x (a + B + i)) := by
    apply List.drop_left'
    simp [e4, e1]; omega
  unfold Resampler.process
  rw [if_neg (by rw [seg_length, e1]; simp)]
  simp only
  rw [hin, hsel]
  simp only
  rw [hblk, hfd, hzip, hout]
  have ht : (seg x a B ++ ((List.range B).map fun (i : Nat) => hannP B (B + i) * x (a + B + i)) ++
      List.replicate s.B 0).take s.B = seg x a B := by
    rw [List.append_assoc, List.take_left' (by rw [seg_length, e1])]
  rw [ht]
  refine ⟨_, rfl, ?_⟩
  · refine ⟨e1, rfl, ?_, ?_, ?_⟩
    · simp only; congr 1; push_cast; ring
    · simp only [List.length_append, seg_length, List.length_map, List.length_range,
        List.length_replicate, e1]; omega
    · simp only
      rw [List.append_assoc, List.drop_left' (seg_length x a B), e1]
      unfold tailSeg
      congr 1
      apply List.map_congr_left
      intro i _
      congr 2
      rw [ha]; push_cast; ring

theorem resampler_offset {B : Nat} (hB : 0 < B) {x : Int → ℝ} {d : Int}
    (h1 : -(B : Int) ≤ d) (h2 : d < B) (n : Nat) :
    ∀ (m : Nat) (s : Resampler), ResInv B x d m s → ∃ s',
      s.run ((List.range n).map fun (j : Nat) => (seg x (((m + j : ℕ) : Int) * B) B, 0, (d : ℚ))) =
        .ok (s', (List.range n).map fun (j : Nat) => seg x ((((m + j : ℕ) : Int) - 2) * B + d) B) ∧
      ResInv B x d (m + n) s' := by
  induction n with
  | zero => intro m s h; exact ⟨s, rfl, h⟩
  | succ n ih =>
    intro m s h
    obtain ⟨s1, hp, hi⟩ := resInv_step hB h1 h2 h
    obtain ⟨s2, hr, hf⟩ := ih (m + 1) s1 hi
    refine ⟨s2, ?_, by rw [show m + (n + 1) = m + 1 + n by omega]; exact hf⟩
    rw [List.range_succ_eq_map, List.map_cons, List.map_cons, List.map_map, List.map_map]
    have key : ∀ (j : Nat), m + (j + 1) = m + 1 + j := by intro j; omega
    simp only [Nat.add_zero, Resampler.run]
    have e1 : ((fun (j : Nat) => (seg x (((m + j : ℕ) : Int) * B) B, (0 : ℚ), (d : ℚ))) ∘ Nat.succ) =
        fun (j : Nat) => (seg x (((m + 1 + j : ℕ) : Int) * B) B, (0 : ℚ), (d : ℚ)) := by
      funext j; rw [Function.comp_apply, Nat.succ_eq_add_one, key]
    have e2 : ((fun (j : Nat) => seg x ((((m + j : ℕ) : Int) - 2) * B + d) B) ∘ Nat.succ) =
        fun (j : Nat) => seg x ((((m + 1 + j : ℕ) : Int) - 2) * B + d) B := by
      funext j; rw [Function.comp_apply, Nat.succ_eq_add_one, key]
    rw [e1, e2]
    change (s.process _ _ _ >>= fun p => p.1.run _ >>= fun q => Except.ok (q.1, p.2 :: q.2)) = _
    rw [hp]
    change (s1.run _ >>= _) = _
    rw [hr]
    rfl

end Danse
