import Verif.Proofs.Sync
import Verif.Proofs.Instants
import Mathlib.Tactic.FieldSimp

/-! # Synchronous few-sample rounds -/

set_option linter.unusedSectionVars false

namespace Danse

/-- Samples expected at the update number `m`. -/
def expected (Ndft Ns m : Nat) : Nat := if m = 0 then Ndft else Ns

theorem few_flags {Ndft Ns L nu : Nat} (hL : 0 < L) (hNs : 0 < Ns) (hd : 0 < Ndft)
    (h1 : L ∣ Ns) (h2 : Ns ∣ Ndft) :
    ∀ J j0 m c : Nat, j0 * L = c + (if m = 0 then 0 else Ndft + (m - 1) * Ns) → L ∣ c →
      m ≤ nu → (m < nu → c < expected Ndft Ns m) →
      (∀ x ∈ flagsSpec Ndft Ns L m c ((List.range' j0 J).map fun j =>
        decide (∃ i < nu, (j + 1) * L = Ndft + i * Ns)), x = 0) ∧
      flagsOk Ndft L c ((List.range' j0 J).map fun j =>
        decide (∃ i < nu, (j + 1) * L = Ndft + i * Ns)) := by
  intro J
  induction J with
  | zero => intro j0 m c _ _ _ _; simp [flagsSpec, flagsOk]
  | succ J ih =>
    intro j0 m c hj hc hm hlt
    rw [List.range'_succ, List.map_cons]
    have hLd : L ∣ Ndft := h1.trans h2
    have hLE : L ∣ expected Ndft Ns m := by unfold expected; split <;> assumption
    have hNle : Ns ≤ Ndft := Nat.le_of_dvd hd h2
    by_cases hup : ∃ i < nu, (j0 + 1) * L = Ndft + i * Ns
    · obtain ⟨i, hi, he⟩ := hup
      have hjj : (j0 + 1) * L = j0 * L + L := by ring
      -- the update is update number m
      have hmi : m < nu ∧ c + L = expected Ndft Ns m := by
        rw [hjj, hj] at he
        by_cases hmn : m < nu
        · have hcl := hlt hmn
          have hle : c + L ≤ expected Ndft Ns m := by
            obtain ⟨x, hx⟩ := hc
            obtain ⟨y, hy⟩ := hLE
            rw [hx, hy] at hcl ⊢
            have := (Nat.mul_lt_mul_left hL).mp hcl
            calc L * x + L = L * (x + 1) := by ring
              _ ≤ L * y := Nat.mul_le_mul_left _ this
          refine ⟨hmn, ?_⟩
          unfold expected at *
          by_cases h0 : m = 0
          · subst h0
            simp only [if_true] at *
            have : 0 ≤ i * Ns := Nat.zero_le _
            omega
          · simp only [if_neg h0] at *
            -- c + Ndft + (m-1) Ns + L = Ndft + i Ns, c + L ≤ Ns, 0 < L
            have h3 : c + L + (m - 1) * Ns = i * Ns := by omega
            have h4 : m - 1 < i := by
              by_contra hcon
              have : i * Ns ≤ (m - 1) * Ns := Nat.mul_le_mul_right _ (by omega)
              omega
            have h5 : (m - 1 + 1) * Ns ≤ i * Ns := Nat.mul_le_mul_right _ h4
            have h6 : (m - 1 + 1) * Ns = (m - 1) * Ns + Ns := by ring
            omega
        · exfalso
          have hmn' : m = nu := by omega
          have h0 : m ≠ 0 := by omega
          rw [if_neg h0] at he
          have h5 : i * Ns ≤ (m - 1) * Ns := Nat.mul_le_mul_right _ (by omega)
          omega
      obtain ⟨hmn, hce⟩ := hmi
      have hb : decide (∃ i < nu, (j0 + 1) * L = Ndft + i * Ns) = true :=
        decide_eq_true ⟨i, hi, he⟩
      rw [hb]
      have hnext := ih (j0 + 1) (m + 1) 0 (by
        rw [hjj, hj]
        unfold expected at hce
        by_cases h0 : m = 0
        · subst h0; simp at hce ⊢; omega
        · rw [if_neg h0] at hce ⊢
          rw [if_neg (by omega)]
          have : (m + 1 - 1) * Ns = (m - 1) * Ns + Ns := by
            rw [show m + 1 - 1 = (m - 1) + 1 by omega]; ring
          omega) (dvd_zero _) (by omega) (fun _ => by
            unfold expected; rw [if_neg (by omega)]; exact hNs)
      refine ⟨?_, ?_⟩
      · intro x hx
        simp only [flagsSpec, List.mem_cons] at hx
        rcases hx with rfl | hx
        · unfold expected at hce
          rw [hce]; omega
        · exact hnext.1 x hx
      · refine ⟨?_, hnext.2⟩
        rw [hce]; unfold expected; split <;> omega
    · have hb : decide (∃ i < nu, (j0 + 1) * L = Ndft + i * Ns) = false := decide_eq_false hup
      rw [hb]
      have hjj : (j0 + 1) * L = j0 * L + L := by ring
      apply ih (j0 + 1) m (c + L) (by rw [hjj, hj]; omega) (Nat.dvd_add hc (dvd_refl L)) hm
      intro hmn
      have hcl := hlt hmn
      have hle : c + L ≤ expected Ndft Ns m := by
        obtain ⟨x, hx⟩ := hc
        obtain ⟨y, hy⟩ := hLE
        rw [hx, hy] at hcl ⊢
        have := (Nat.mul_lt_mul_left hL).mp hcl
        calc L * x + L = L * (x + 1) := by ring
          _ ≤ L * y := Nat.mul_le_mul_left _ this
      refine lt_of_le_of_ne hle ?_
      intro heq
      apply hup
      refine ⟨m, hmn, ?_⟩
      rw [hjj, hj]
      unfold expected at heq
      by_cases h0 : m = 0
      · subst h0; simp at heq ⊢; omega
      · rw [if_neg h0] at heq ⊢
        have : m * Ns = (m - 1) * Ns + Ns := by
          conv_lhs => rw [show m = (m - 1) + 1 by omega]
          ring
        omega

end Danse

namespace Danse

/-- Time stamps of a clock of rate `fs`: `N` samples from time 0. -/
def clock (fs : ℚ) (N : Nat) : List ℚ := (List.range N).map fun (j : Nat) => (j : ℚ) / fs

theorem mem_clock {fs : ℚ} {N j : Nat} (h : j < N) : (j : ℚ) / fs ∈ clock fs N :=
  List.mem_map.mpr ⟨j, List.mem_range.mpr h, rfl⟩

theorem alignInstant_mem {τ : Type} [LinearOrder τ] {stamps : List τ} {t : τ} (h : t ∈ stamps) :
    alignInstant stamps t = .ok t := by
  unfold alignInstant; rw [if_pos h]

theorem generateAligned_grid {fs : ℚ} {N s T sep : Nat}
    (hin : ∀ j < T - s, (s + j) * sep < N) :
    generateAligned (s : ℚ) (T : Int) sep fs (clock fs N) =
      .ok ((List.range (T - s)).map fun (j : Nat) => (((s + j) * sep : Nat) : ℚ) / fs) := by
  unfold generateAligned alignInstants nominalInstants
  have hc : (⌈((T : Int) : ℚ) - (s : ℚ)⌉).toNat = T - s := by
    have : (((T : Int) : ℚ) - (s : ℚ)) = (((T : Int) - (s : Int) : Int) : ℚ) := by push_cast; ring
    rw [this, Int.ceil_intCast]
    omega
  rw [hc]
  have he : ((List.range (T - s)).map fun (j : Nat) => ((s : ℚ) + j) * (sep : ℚ) / fs) =
      (List.range (T - s)).map fun (j : Nat) => (((s + j) * sep : Nat) : ℚ) / fs := by
    apply List.map_congr_left
    intro j _; push_cast; ring
  rw [he]
  have : ∀ x ∈ (List.range (T - s)).map (fun (j : Nat) => (((s + j) * sep : Nat) : ℚ) / fs),
      ∃ y, alignInstant (clock fs N) x = .ok y ∧ x = y := by
    intro x hx
    obtain ⟨j, hj, rfl⟩ := List.mem_map.mp hx
    exact ⟨_, alignInstant_mem (mem_clock (hin j (List.mem_range.mp hj))), rfl⟩
  obtain ⟨ys, h1, h2⟩ := mapM_ok_of_forall this
  rw [h1]
  rw [List.forall₂_eq_eq_eq] at h2
  rw [h2]

theorem floor_grid {fs : ℚ} (hfs : 0 < fs) {N d : Nat} :
    ⌊((N - 1 : Nat) : ℚ) / fs * fs / (d : ℚ)⌋ = (((N - 1) / d : Nat) : Int) := by
  rw [div_mul_cancel₀ _ (ne_of_gt hfs)]
  exact Rat.floor_natCast_div_natCast _ _

theorem ceil_dvd {a b : Nat} (hb : 0 < b) (h : b ∣ a) : (⌈(a : ℚ) / b⌉ : ℚ) = ((a / b : Nat) : ℚ) := by
  obtain ⟨c, rfl⟩ := h
  rw [Nat.mul_div_cancel_left _ hb]
  push_cast
  rw [mul_div_cancel_left₀ _ (by positivity)]
  rw [show ((c : ℚ)) = ((c : Int) : ℚ) by push_cast; rfl, Int.ceil_intCast]

end Danse
