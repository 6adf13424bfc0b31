import Verif.Props.Total3
import Verif.Props.DanseCentrEx

/-!
# Property C132 (continued): runs that meet the hypotheses
-/

namespace Danse
section
open scoped ComplexOrder Matrix

/-- The two nodes of `exOnline` with frames of `N` samples, `Ns` new samples per frame, and efficient broadcasts of
multiples of `L` samples, over 13 samples. -/
noncomputable def exFewEG (N Ns L : Nat) : GivenCfg ℂ :=
  { exOnlineG with
    N := N, Ns := Ns, h := List.replicate N 1, f := List.replicate N (1 / 2), bc := .few L true,
    stamps := fun _ => clockStamps 1 13
    wInt := fun _ _ => [List.replicate (N / 2 + 1) 1, List.replicate (N / 2 + 1) 0]
    wExt := fun _ _ => [List.replicate (N / 2 + 1) 1]
    wLoc := fun _ _ => [List.replicate (N / 2 + 1) 1] }

open Classical in
noncomputable def exFewE (N Ns L : Nat) : DanseCfg ℂ :=
  { exOnline with
    g := exFewEG N Ns L
    rot := fun _ _ _ _ => 1
    cov0 := fun _ _ i j => if i = j then 1 else 0
    valid := fun _ Rnn Ryy => decide (∀ κ, (Rnn κ).det ≠ 0 ∧ (Ryy κ).det ≠ 0) }

theorem exFewE_R0 (N Ns L k m : Nat) (κ : Fin (exFewE N Ns L).nb) : ((exFewE N Ns L).R0 k m κ).PosSemidef := by
  have : (exFewE N Ns L).R0 k m κ = 1 := by
    ext i j
    simp [DanseCfg.R0, exFewE, Matrix.one_apply, Fin.ext_iff]
  rw [this]
  exact Matrix.PosSemidef.one

theorem exFewE_gd (N Ns L : Nat) : GoodNeighbours (exFewE N Ns L).g.nb :=
  ⟨fun k => by change [if k % 2 = 0 then k + 1 else k - 1].Nodup; simp, fun k q => by
      change q ∈ [if k % 2 = 0 then k + 1 else k - 1] → k ∈ [if q % 2 = 0 then q + 1 else q - 1]
      simp only [List.mem_singleton]; split <;> split <;> omega⟩

theorem exFewE_nb (N Ns L : Nat) : ∀ q < 2, ∀ k ∈ (exFewE N Ns L).g.nb q, k < 2 := by
  intro q hq k hk; change k ∈ [if q % 2 = 0 then q + 1 else q - 1] at hk; simp at hk hq ⊢; split at hk <;> omega

theorem exFewE_w (N Ns L : Nat) (k i : Nat) : (∀ b ∈ (exFewE N Ns L).g.wInt k i, b.length = (exFewE N Ns L).nb) ∧
    (∀ b ∈ (exFewE N Ns L).g.wExt k i, b.length = (exFewE N Ns L).nb) ∧
    ∀ b ∈ (exFewE N Ns L).g.wLoc k i, b.length = (exFewE N Ns L).nb := by
  simp [exFewE, exFewEG, DanseCfg.nb]

set_option maxHeartbeats 4000000 in
theorem exFewE_fs : inferFs (clockStamps 1 13) = .ok 1 := by decide_cbv

/-- C132 (a), (b): three new samples per frame of four, broadcasts of multiples of two samples (two does not divide three). -/
example (y : Nat → List (List ℂ)) (hy : ∀ k < 2, ∀ ch ∈ y k, ch.length = 13) :
    ∃ out a, initEventsFC (.few 2 true) 4 3 true false 0 0 0 (syncNodes 1 13 [[1], [0]]) = .ok (out, [1, 1]) ∧
      danseRun (exFewE 4 3 2) y 13 (flatEvents out) = .ok a ∧ ∀ k < 2, evUps (flatEvents out) k = 2 := by
  have hf := exFewE_fs
  obtain ⟨out, a, h1, h2⟩ := C132_danse (D := exFewE 4 3 2) (y := y) rfl (fun _ => Nat.one_pos)
    (fun _ => ⟨1 / 2, by norm_num, by norm_num, rfl⟩) (fun m Rnn Ryy h κ => (of_decide_eq_true h) κ)
    (.inr fun k m κ => exFewE_R0 4 3 2 k m κ) (n := 13) (L := 2) (by norm_num) one_pos hf [[1], [0]] (by decide)
    (seq := true) (sim := false) (ri := 0) 0 0 (by simp)
    (fun _ => rfl) (fun _ => rfl) rfl (by norm_num) (show 2 ≤ 3 by norm_num) (by norm_num) (show 0 < 4 by norm_num)
    (show 2 ∣ 4 by norm_num) (.inl (show 3 + 2 ≤ 4 + 1 by norm_num)) (by simp [exFewE, exFewEG]) (exFewE_gd 4 3 2)
    (exFewE_nb 4 3 2) hy (exFewE_w 4 3 2)
  refine ⟨out, a, h1, h2, fun k hk => ?_⟩
  obtain ⟨out', h3, h4, -⟩ := C87_schedule_efficient (N := 4) (Ns := 3) (n := 13) (L := 2) (by norm_num) (by norm_num)
    (by norm_num) (by norm_num) (by norm_num) (by norm_num) one_pos hf [[1], [0]] (by decide) (seq := true) (sim := false)
    (r := 0) 0 0 (by simp)
  have e : (Except.ok (out, List.replicate 2 (1 : ℚ)) : Except PyErr _) = .ok (out', List.replicate 2 1) := h1.symm.trans h3
  injection e with e
  injection e with e
  subst e
  rw [← evUps_length, (h4 k hk).1, everySep_length]
  decide +kernel

/-- C132 (c): the GEVD update, with a library that returns. -/
example (y : Nat → List (List ℂ)) (hy : ∀ k < 2, ∀ ch ∈ y k, ch.length = 13) :
    ∃ lib out a, danseRun { exFewE 4 3 2 with rule := gevdRule lib 1 } y 13 (flatEvents out) = .ok a := by
  have hf := exFewE_fs
  obtain ⟨lib, hlib⟩ := exLib
  obtain ⟨out, a, h1, h2⟩ := C132_danse_gevd (D := { exFewE 4 3 2 with rule := gevdRule lib 1 }) (y := y) rfl
    (fun _ => le_refl 1) hlib (fun _ => Nat.one_pos)
    (fun _ => ⟨1 / 2, by norm_num, by norm_num, rfl⟩) (fun m Rnn Ryy h κ => (of_decide_eq_true h) κ)
    (.inr fun k m κ => exFewE_R0 4 3 2 k m κ) (n := 13) (L := 2) (by norm_num) one_pos hf [[1], [0]] (by decide)
    (seq := true) (sim := false) (ri := 0) 0 0 (by simp)
    (fun _ => rfl) (fun _ => rfl) rfl (by norm_num) (show 2 ≤ 3 by norm_num) (by norm_num) (show 0 < 4 by norm_num)
    (show 2 ∣ 4 by norm_num) (.inl (show 3 + 2 ≤ 4 + 1 by norm_num)) (by simp [exFewE, exFewEG]) (exFewE_gd 4 3 2)
    (exFewE_nb 4 3 2) hy (exFewE_w 4 3 2)
  exact ⟨lib, out, a, h2⟩

/-- C132 (d), (e): frames that overlap by half, with both further estimates. -/
example (y : Nat → List (List ℂ)) (hM : ∀ q, (y q).length = 1) (hy : ∀ k < 2, ∀ ch ∈ y k, ch.length = 13) :
    ∃ out a, cdanseRun { exCentrOf false with D := exFewE 4 2 1 } y 13 (flatEvents out) = .ok a ∧
      ∀ k < 2, evUps (flatEvents out) k = 4 := by
  have hf := exFewE_fs
  obtain ⟨out, h3, h4, -⟩ := C87_schedule_efficient (N := 4) (Ns := 2) (n := 13) (L := 1) (by norm_num) (by norm_num)
    (by norm_num) (by norm_num) (by norm_num) (by norm_num) one_pos hf [[1], [0]] (by decide) (seq := false) (sim := false)
    (r := 0) 0 0 (by simp)
  have hs : ({ exCentrOf false with D := exFewE 4 2 1 } : CDanseCfg ℂ).Sync y 1 13 [[1], [0]] out :=
    { hn := by norm_num
      hfs := one_pos
      infer := hf
      neighbours := by decide
      nodes := rfl
      clock := fun _ => rfl
      stamps := fun _ => rfl
      bc := .inr ⟨1, rfl, one_dvd _, by norm_num⟩
      sensors := hM
      samples := hy
      hN := (by norm_num : 0 < 4)
      hNs := Nat.two_pos
      dvd := (by norm_num : 2 ∣ 4)
      sched := ⟨false, false, 0, 0, 0, _, by simp, h3⟩ }
  obtain ⟨a, ha⟩ := C132_centr (C := { exCentrOf false with D := exFewE 4 2 1 }) (y := y) rfl rfl (fun _ => Nat.one_pos)
    (fun _ => ⟨1 / 2, by norm_num, by norm_num, rfl⟩) (fun m Rnn Ryy h κ => (of_decide_eq_true h) κ)
    (.inr fun k m κ => exFewE_R0 4 2 1 k m κ) (fun _ _ => .inr fun _ => rfl) (fun _ => ⟨rfl, fun _ _ => rfl⟩)
    hs (L := 1) rfl (show 2 ∣ 4 by norm_num) (by simp [exFewE, exFewEG]) (exFewE_gd 4 2 1) (exFewE_nb 4 2 1) (exFewE_w 4 2 1)
  refine ⟨out, a, ha, fun k hk => ?_⟩
  rw [← evUps_length, (h4 k hk).1, everySep_length]
  decide +kernel

end
end Danse
