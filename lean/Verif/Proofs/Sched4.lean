import Verif.Proofs.Sched3
import Verif.Props.Instants

/-!
# Helper lemmas: efficient broadcast instants of synchronous nodes
-/

set_option linter.unusedSectionVars false

namespace Danse

theorem clockStamps_sorted {fs : ℚ} (hfs : 0 < fs) (n : Nat) : (clockStamps fs n).Pairwise (· < ·) := by
  unfold clockStamps
  rw [List.pairwise_map]
  refine List.pairwise_lt_range.imp ?_
  intro a b hab
  rw [div_lt_div_iff_of_pos_right hfs]
  exact_mod_cast hab

theorem multiple_clock {fs : ℚ} {n L : Nat} (x : ℚ) :
    IsMultipleStamp (clockStamps fs n) L x ↔ ∃ m : Nat, 1 ≤ m ∧ m * L < n ∧ x = ((m * L : Nat) : ℚ) / fs := by
  unfold IsMultipleStamp clockStamps
  constructor
  · rintro ⟨m, h1, h2⟩
    rw [List.getElem?_map] at h2
    by_cases h : m * L < n
    · rw [List.getElem?_range h] at h2
      injection h2 with h2
      exact ⟨m, h1, h, h2.symm⟩
    · rw [List.getElem?_eq_none (by simpa using h)] at h2
      cases h2
  · rintro ⟨m, h1, h2, rfl⟩
    refine ⟨m, h1, ?_⟩
    rw [List.getElem?_map, List.getElem?_range h2]
    rfl

theorem forall₂_eq_map {α β : Type} {R : α → β → Prop} {f : α → β} {l : List α} {m : List β}
    (h : List.Forall₂ R l m) (hf : ∀ a ∈ l, ∀ b, R a b → b = f a) : m = l.map f := by
  induction h with
  | nil => rfl
  | cons hx _ ih =>
    rw [List.map_cons, hf _ (by simp) _ hx, ih]
    intro a ha b hb
    exact hf a (by simp [ha]) b hb

/-- The last multiple of `L` samples before sample `e`. -/
theorem alignedDown_clock {fs : ℚ} (hfs : 0 < fs) {n L e : Nat} (hL : 0 < L) (he : L ≤ e) (hen : e < n)
    {possible : List ℚ} (hp : ∀ x, x ∈ possible ↔ IsMultipleStamp (clockStamps fs n) L x) {r : ℚ}
    (h : IsAlignedDown possible ((e : ℚ) / fs) r) : r = ((e / L * L : Nat) : ℚ) / fs := by
  obtain ⟨h1, h2, _⟩ := h
  have hd : e / L * L ≤ e := Nat.div_mul_le_self _ _
  have hpos : 1 ≤ e / L := (Nat.le_div_iff_mul_le hL).mpr (by omega)
  have hin : ((e / L * L : Nat) : ℚ) / fs ∈ possible := by
    rw [hp, multiple_clock]
    exact ⟨e / L, hpos, by omega, rfl⟩
  have hle : ((e / L * L : Nat) : ℚ) / fs ≤ (e : ℚ) / fs := by
    rw [div_le_div_iff_of_pos_right hfs]
    exact_mod_cast hd
  obtain ⟨h3, h4⟩ := h2 ⟨_, hin, hle⟩
  apply le_antisymm
  · rw [hp, multiple_clock] at h1
    obtain ⟨m, _, _, rfl⟩ := h1
    rw [div_le_div_iff_of_pos_right hfs] at h3 ⊢
    have h5 : m * L ≤ e := by exact_mod_cast h3
    have h6 : m ≤ e / L := (Nat.le_div_iff_mul_le hL).mpr h5
    exact_mod_cast Nat.mul_le_mul_right L h6
  · exact h4 _ hin hle

theorem efficientBc_sync {fs : ℚ} (hfs : 0 < fs) {n L Ns a b K : Nat} (hL : 0 < L) (hNs : 0 < Ns)
    (hLn : L < n) (hLa : L ≤ a * Ns) (hbn : ∀ j < b, j * Ns < n) {nb : List Nat} (hne : nb ≠ [])
    (hnb : ∀ q ∈ nb, q < K) :
    efficientBc (clockStamps fs n) L (List.replicate K (everySep Ns fs a b)) nb =
      .ok ((List.range (b - a)).map fun (j : Nat) => (((a + j) * Ns / L * L : Nat) : ℚ) / fs) := by
  obtain ⟨causes, bcs, possible, h1, h2, h3, h4, h5⟩ :=
    C08_efficient_broadcast (clockStamps_sorted hfs n) hL (by simpa [clockStamps] using hLn)
      (ups := List.replicate K (everySep Ns fs a b)) (nb := nb) (by simpa using hnb)
  rw [h1]
  congr 1
  have hc : causes = everySep Ns fs a b := by
    apply sorted_ext h3 (everySep_sorted hNs hfs a b)
    intro x
    rw [h4]
    constructor
    · rintro ⟨q, _, u, hu, hx⟩
      have : u ∈ List.replicate K (everySep Ns fs a b) := List.mem_of_getElem? hu
      rw [List.eq_of_mem_replicate this] at hx
      exact hx
    · intro hx
      obtain ⟨q, hq⟩ := List.exists_mem_of_ne_nil nb hne
      refine ⟨q, hq, everySep Ns fs a b, ?_, hx⟩
      rw [List.getElem?_replicate, if_pos (hnb q hq)]
  subst hc
  have key := forall₂_eq_map (f := fun t : ℚ => ((⌊t * fs⌋.toNat / L * L : Nat) : ℚ) / fs) h5 (by
    intro t ht r hr
    unfold everySep at ht
    obtain ⟨j, hj, rfl⟩ := List.mem_map.mp ht
    have hj' := List.mem_range.mp hj
    have e : ((a + j : Nat) : ℚ) * Ns / fs = (((a + j) * Ns : Nat) : ℚ) / fs := by push_cast; ring
    rw [e] at hr
    have := alignedDown_clock hfs hL (hLa.trans (Nat.mul_le_mul_right _ (by omega))) (hbn (a + j) (by omega)) h2 hr
    rw [this, floor_everySep hfs, Int.toNat_natCast])
  rw [key]
  unfold everySep
  rw [List.map_map]
  apply List.map_congr_left
  intro j _
  simp only [Function.comp_apply]
  rw [floor_everySep hfs, Int.toNat_natCast]

theorem syncBcEff_sorted {L N Ns n : Nat} (hL : 0 < L) (hLNs : L ≤ Ns) {fs : ℚ} (hfs : 0 < fs) :
    (syncBcEff L N Ns n fs).Pairwise (· < ·) := by
  unfold syncBcEff
  rw [List.pairwise_map]
  refine List.pairwise_lt_range.imp ?_
  intro i j hij
  rw [div_lt_div_iff_of_pos_right hfs]
  have h1 : (⌈(N : ℚ) / Ns⌉₊ + i) * Ns / L + 1 ≤ (⌈(N : ℚ) / Ns⌉₊ + j) * Ns / L := by
    rw [← Nat.add_div_right _ hL]
    apply Nat.div_le_div_right
    have : (⌈(N : ℚ) / Ns⌉₊ + i + 1) * Ns ≤ (⌈(N : ℚ) / Ns⌉₊ + j) * Ns := Nat.mul_le_mul_right _ (by omega)
    rw [Nat.add_mul _ 1, Nat.one_mul] at this
    omega
  have h2 := Nat.mul_lt_mul_of_pos_right (Nat.lt_of_succ_le h1) hL
  exact_mod_cast h2

theorem fcInstants_eff {N Ns n L : Nat} (hNs : 0 < Ns) (hN : 0 < N) (hn : 0 < n) (hL : 0 < L) (hLNs : L ≤ Ns) (hLn : L < n)
    {fs : ℚ} (hfs : 0 < fs) (nbs : List (List Nat)) (hne : ∀ nb ∈ nbs, nb ≠ [] ∧ ∀ q ∈ nb, q < nbs.length) :
    fcInstants (.few L true) N Ns (syncNodes fs n nbs) (List.replicate nbs.length fs)
        (List.replicate nbs.length (((n - 1 : Nat) : ℚ) / fs)) =
      .ok (List.replicate nbs.length (everySep Ns fs ⌈(N : ℚ) / Ns⌉₊ ((n - 1) / Ns)),
        List.replicate nbs.length (syncBcEff L N Ns n fs)) := by
  have hup : (syncNodes fs n nbs).zipIdx.mapM (fun x : ClockNode × Nat =>
      generateAligned (⌈(N : ℚ) / Ns⌉ : ℚ) ⌊(List.replicate nbs.length (((n - 1 : Nat) : ℚ) / fs)).getD x.2 0 *
        (List.replicate nbs.length fs).getD x.2 0 / Ns⌋ Ns x.1.fs x.1.stamps) =
      .ok (List.replicate nbs.length (everySep Ns fs ⌈(N : ℚ) / Ns⌉₊ ((n - 1) / Ns))) := by
    refine mapM_zipIdx_sync nbs fun k hk nb => ?_
    simp only
    rw [getD_replicate hk, getD_replicate hk, floor_total hn hfs, ceil_cast]
    exact generateAligned_clock hNs fun j hj => mul_lt_of_lt_div hn hNs hj
  unfold fcInstants
  simp only
  rw [hup]
  simp only [bind, Except.bind]
  have hb : (syncNodes fs n nbs).mapM (fun x => efficientBc x.stamps L
      (List.replicate nbs.length (everySep Ns fs ⌈(N : ℚ) / Ns⌉₊ ((n - 1) / Ns))) x.nb) =
      .ok (List.replicate nbs.length (syncBcEff L N Ns n fs)) := by
    rw [mapM_const (b := syncBcEff L N Ns n fs)]
    · simp [syncNodes]
    · intro x hx
      unfold syncNodes at hx
      obtain ⟨nb, hnb, rfl⟩ := List.mem_map.mp hx
      refine efficientBc_sync hfs hL hNs hLn ?_ (fun j hj => mul_lt_of_lt_div hn hNs hj) (hne nb hnb).1 (hne nb hnb).2
      have : 1 ≤ ⌈(N : ℚ) / Ns⌉₊ := Nat.one_le_ceil_iff.mpr (by positivity)
      exact hLNs.trans (Nat.le_mul_of_pos_left _ this)
  rw [hb]

end Danse

namespace Danse

theorem syncBcEff_filter {L N Ns n : Nat} (hL : 0 < L) (hLNs : L ≤ Ns) {fs : ℚ} (hfs : 0 < fs) {i : Nat}
    (hi : i < (n - 1) / Ns) :
    (syncBcEff L N Ns n fs).filter (fun x => decide (x ≤ ((i * Ns : Nat) : ℚ) / fs)) =
      (List.range (i + 1 - ⌈(N : ℚ) / Ns⌉₊)).map fun (j : Nat) =>
        (((⌈(N : ℚ) / Ns⌉₊ + j) * Ns / L * L : Nat) : ℚ) / fs := by
  have hs := syncBcEff_sorted (N := N) (n := n) hL hLNs hfs
  apply sorted_ext (hs.filter _)
  · have : (List.range (i + 1 - ⌈(N : ℚ) / Ns⌉₊)).map (fun (j : Nat) =>
        (((⌈(N : ℚ) / Ns⌉₊ + j) * Ns / L * L : Nat) : ℚ) / fs) =
        (syncBcEff L N Ns n fs).take (i + 1 - ⌈(N : ℚ) / Ns⌉₊) := by
      unfold syncBcEff
      rw [← List.map_take, List.take_range, Nat.min_eq_left (by omega)]
    rw [this]
    exact hs.sublist (List.take_sublist _ _)
  · intro x
    rw [List.mem_filter]
    unfold syncBcEff
    simp only [List.mem_map, List.mem_range, decide_eq_true_eq]
    constructor
    · rintro ⟨⟨j, hj, rfl⟩, hle⟩
      refine ⟨j, ?_, rfl⟩
      rw [div_le_div_iff_of_pos_right hfs] at hle
      have h1 : (⌈(N : ℚ) / Ns⌉₊ + j) * Ns / L * L ≤ i * Ns := by exact_mod_cast hle
      by_contra hc
      have h2 : (i + 1) * Ns ≤ (⌈(N : ℚ) / Ns⌉₊ + j) * Ns := Nat.mul_le_mul_right _ (by omega)
      rw [Nat.add_mul, Nat.one_mul] at h2
      have h3 := Nat.lt_div_mul_add (a := (⌈(N : ℚ) / Ns⌉₊ + j) * Ns) hL
      omega
    · rintro ⟨j, hj, rfl⟩
      refine ⟨⟨j, by omega, rfl⟩, ?_⟩
      rw [div_le_div_iff_of_pos_right hfs]
      have h1 : (⌈(N : ℚ) / Ns⌉₊ + j) * Ns / L * L ≤ (⌈(N : ℚ) / Ns⌉₊ + j) * Ns := Nat.div_mul_le_self _ _
      have h2 : (⌈(N : ℚ) / Ns⌉₊ + j) * Ns ≤ i * Ns := Nat.mul_le_mul_right _ (by omega)
      exact_mod_cast h1.trans h2

end Danse
