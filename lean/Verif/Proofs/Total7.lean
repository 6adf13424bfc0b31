import Verif.Proofs.Total6
import Verif.Props.Centr

/-! # Helper lemmas: a synchronous online run with efficient few-sample broadcasts goes through -/

set_option linter.unusedSectionVars false

namespace Danse
section
variable {K : Type} [Field K] [StarRing K] [DecidableEq K] {g : GivenCfg K} {y : Nat → List (List K)}

/-- Up to which sample a synchronous node has sent after `j` efficient broadcasts. -/
def effEnd (L N Ns : Nat) : Nat → Nat
  | 0 => 0
  | j + 1 => (⌈(N : ℚ) / Ns⌉₊ + j) * Ns / L * L

theorem effEnd_mono (L N Ns j : Nat) : effEnd L N Ns j ≤ effEnd L N Ns (j + 1) := by
  cases j with
  | zero => simp [effEnd]
  | succ j => exact Nat.mul_le_mul_right _ (Nat.div_le_div_right (Nat.mul_le_mul_right _ (by omega)))

theorem effEnd_dvd (L N Ns j : Nat) : L ∣ effEnd L N Ns j := by
  cases j with
  | zero => exact dvd_zero _
  | succ j => exact Dvd.intro_left _ rfl

theorem effEnd_lt {L N Ns n j : Nat} (hn : 0 < n) (hNs : 0 < Ns) (hj : j ≤ (n - 1) / Ns - ⌈(N : ℚ) / Ns⌉₊) : effEnd L N Ns j < n := by
  cases j with
  | zero => exact hn
  | succ j =>
    have h1 : (⌈(N : ℚ) / Ns⌉₊ + j) * Ns ≤ n - 1 := (Nat.le_div_iff_mul_le hNs).mp (by omega)
    have h2 : (⌈(N : ℚ) / Ns⌉₊ + j) * Ns / L * L ≤ (⌈(N : ℚ) / Ns⌉₊ + j) * Ns := Nat.div_mul_le_self _ _
    show (⌈(N : ℚ) / Ns⌉₊ + j) * Ns / L * L < n
    omega

theorem effEnd_diff {L N Ns j : Nat} (hL : 0 < L) :
    effEnd L N Ns (j + 2) - effEnd L N Ns (j + 1) < Ns + L ∧ (L ∣ Ns → effEnd L N Ns (j + 2) - effEnd L N Ns (j + 1) = Ns) := by
  have e : effEnd L N Ns (j + 2) = ((⌈(N : ℚ) / Ns⌉₊ + j) * Ns + Ns) / L * L := by
    change (⌈(N : ℚ) / Ns⌉₊ + (j + 1)) * Ns / L * L = _
    congr 2
    ring
  rw [e]
  change ((⌈(N : ℚ) / Ns⌉₊ + j) * Ns + Ns) / L * L - (⌈(N : ℚ) / Ns⌉₊ + j) * Ns / L * L < _ ∧ (_ →
    ((⌈(N : ℚ) / Ns⌉₊ + j) * Ns + Ns) / L * L - (⌈(N : ℚ) / Ns⌉₊ + j) * Ns / L * L = Ns)
  generalize (⌈(N : ℚ) / Ns⌉₊ + j) * Ns = A
  constructor
  · have h1 : (A + Ns) / L * L ≤ A + Ns := Nat.div_mul_le_self _ _
    have h2 : A < A / L * L + L := Nat.lt_div_mul_add hL
    omega
  · rintro ⟨m, rfl⟩
    rw [Nat.add_mul_div_left _ _ hL, Nat.add_mul, Nat.mul_comm m L]
    omega

theorem effEnd_first {L N Ns : Nat} (hNs : 0 < Ns) : effEnd L N Ns 1 ≤ N + Ns - 1 := by
  have h2 : (⌈(N : ℚ) / Ns⌉₊ + 0) * Ns / L * L ≤ (⌈(N : ℚ) / Ns⌉₊ + 0) * Ns := Nat.div_mul_le_self _ _
  have h3 : ⌈(N : ℚ) / Ns⌉₊ * Ns ≤ N + Ns - 1 := by
    have h4 : (⌈(N : ℚ) / Ns⌉₊ : ℚ) < (N : ℚ) / Ns + 1 := Nat.ceil_lt_add_one (by positivity)
    have h5 : (0 : ℚ) < Ns := by exact_mod_cast hNs
    have h6 : (⌈(N : ℚ) / Ns⌉₊ : ℚ) * Ns < N + Ns := by
      calc (⌈(N : ℚ) / Ns⌉₊ : ℚ) * Ns < ((N : ℚ) / Ns + 1) * Ns := by
            exact mul_lt_mul_of_pos_right h4 h5
        _ = N + Ns := by field_simp
    have h7 : ⌈(N : ℚ) / Ns⌉₊ * Ns < N + Ns := by exact_mod_cast h6
    omega
  rw [Nat.add_zero] at h2
  exact h2.trans h3

theorem syncBcEff_eq (L N Ns n : Nat) (fs : ℚ) : syncBcEff L N Ns n fs =
    (List.range ((n - 1) / Ns - ⌈(N : ℚ) / Ns⌉₊)).map fun (j : Nat) => ((effEnd L N Ns (j + 1) : Nat) : ℚ) / fs := rfl

/-- What has been sent after `J` broadcasts. -/
theorem effOps_sent {L n k : Nat} {fs : ℚ} (hfs : 0 < fs) (hst : g.stamps k = clockStamps fs n)
    {E : Nat → Nat} (h0 : E 0 = 0) (hmono : ∀ j, E j ≤ E (j + 1)) (hdvd : ∀ j, L ∣ E j)
    (evs : List (ℚ × Nat × EvType)) (hty : ∀ ev ∈ evs, ev.2.2 = .bc ∨ ev.2.2 = .up) :
    ∀ J, (∀ j ≤ J, E j < n) → bcTimes evs k = (List.range J).map (fun (j : Nat) => ((E (j + 1) : Nat) : ℚ) / fs) →
      (sent (effOps g L evs) k).length = E J ∧ lastBcTime evs k = ((E J : Nat) : ℚ) / fs ∧
      (E (J + 1) < n → effLen g L evs (((E (J + 1) : Nat) : ℚ) / fs) k = E (J + 1) - E J) := by
  have key : ∀ (evs : List (ℚ × Nat × EvType)) J, (∀ j ≤ J, E j < n) →
      bcTimes evs k = (List.range J).map (fun (j : Nat) => ((E (j + 1) : Nat) : ℚ) / fs) →
      lastBcTime evs k = ((E J : Nat) : ℚ) / fs ∧
      (E (J + 1) < n → effLen g L evs (((E (J + 1) : Nat) : ℚ) / fs) k = E (J + 1) - E J) := by
    intro evs J hJ h
    have hl : lastBcTime evs k = ((E J : Nat) : ℚ) / fs := by
      unfold lastBcTime
      rw [h]
      cases J with
      | zero => simp [h0]
      | succ J => simp [List.range_succ, List.getLastD_eq_getLast?]
    refine ⟨hl, fun hE => ?_⟩
    unfold effLen
    rw [hl, hst, clock_count hfs (hmono J) hE, Nat.mul_div_cancel' (Nat.dvd_sub (hdvd _) (hdvd _))]
  induction evs using List.reverseRecOn with
  | nil =>
    intro J hJ h
    have : J = 0 := by
      have := congrArg List.length h
      simp [bcTimes] at this
      exact this.symm
    subst this
    exact ⟨by rw [h0]; rfl, key _ _ hJ h⟩
  | append_singleton evs ev ih =>
    intro J hJ h
    refine ⟨?_, key _ _ hJ h⟩
    have ih := ih fun e he => hty e (by simp [he])
    rw [effOps_snoc, sent_append, List.length_append]
    obtain ⟨t, q, ty⟩ := ev
    by_cases hk : q = k ∧ ty = .bc
    · obtain ⟨rfl, rfl⟩ := hk
      have h2 : bcTimes (evs ++ [(t, q, EvType.bc)]) q = bcTimes evs q ++ [t] := by
        unfold bcTimes
        rw [List.filterMap_append]
        simp
      rw [h2] at h
      cases J with
      | zero => simp at h
      | succ J =>
        rw [List.range_succ, List.map_append, List.map_cons, List.map_nil] at h
        obtain ⟨h3, h4⟩ := List.append_inj' h (by simp)
        injection h4 with h4
        obtain ⟨h5, -, h6⟩ := ih J (fun j hj => hJ j (by omega)) h3
        rw [h5]
        simp only [effOp, sent_bc, if_true, List.length_replicate]
        rw [h4, h6 (hJ _ (le_refl _))]
        have := hmono J
        omega
    · have h2 : bcTimes (evs ++ [(t, q, ty)]) k = bcTimes evs k := by
        unfold bcTimes
        rw [List.filterMap_append]
        simp [hk]
      rw [h2] at h
      rw [(ih J hJ h).1]
      rcases hty (t, q, ty) (by simp) with hh | hh
      · simp only at hh
        subst hh
        have : q ≠ k := fun e => hk ⟨e, rfl⟩
        simp [effOp, sent_bc, this]
      · simp only at hh
        subst hh
        simp [effOp, sent_up]

theorem effOps_since (L q : Nat) (evs : List (ℚ × Nat × EvType)) (hty : ∀ ev ∈ evs, ev.2.2 = .bc ∨ ev.2.2 = .up)
    (h : 0 < evUps evs q) :
    ∃ a t, evs = a ++ (t, q, .up) :: evSince q evs ∧ evUps (evSince q evs) q = 0 ∧
      effOps g L evs = effOps g L (a ++ [(t, q, .up)]) ++ sinceUp q (effOps g L evs) := by
  induction evs using List.reverseRecOn with
  | nil => simp [evUps] at h
  | append_singleton evs ev ih =>
    have hs : evSince q (evs ++ [ev]) = if ev.2.1 = q ∧ ev.2.2 = .up then [] else evSince q evs ++ [ev] := by
      unfold evSince; rw [List.foldl_append]; rfl
    rw [hs, effOps_snoc, sinceUp_snoc]
    have hiff : (effOp g L evs ev).isUp q = true ↔ (ev.2.1 = q ∧ ev.2.2 = .up) := by
      rcases hty ev (by simp) with hh | hh <;> simp [effOp, hh, BufOp.isUp]
    by_cases hc : ev.2.1 = q ∧ ev.2.2 = .up
    · rw [if_pos hc, if_pos (hiff.mpr hc)]
      obtain ⟨t, q', ty⟩ := ev
      obtain ⟨rfl, rfl⟩ := hc
      refine ⟨evs, t, rfl, rfl, ?_⟩
      rw [effOps_snoc, List.append_nil]
    · rw [if_neg hc, if_neg (fun h => hc (hiff.mp h))]
      have h1 : evUps (evs ++ [ev]) q = evUps evs q := by
        unfold evUps; rw [List.countP_append, List.countP_singleton, if_neg (by simpa using hc)]; omega
      rw [h1] at h
      obtain ⟨a, t, e, e2, e3⟩ := ih (fun e he => hty e (by simp [he])) h
      refine ⟨a, t, ?_, ?_, ?_⟩
      · conv_lhs => rw [e]
        simp
      · unfold evUps at e2 ⊢
        rw [List.countP_append, e2, List.countP_singleton, if_neg (by simpa using hc)]
      · conv_lhs => rw [e3]
        rw [List.append_assoc]

theorem effOps_prefix (L : Nat) (a b : List (ℚ × Nat × EvType)) : ∃ r, effOps g L (a ++ b) = effOps g L a ++ r := by
  induction b using List.reverseRecOn with
  | nil => exact ⟨[], by simp⟩
  | append_singleton b ev ih =>
    obtain ⟨r, hr⟩ := ih
    rw [← List.append_assoc, effOps_snoc, hr]
    exact ⟨_, by rw [List.append_assoc]⟩

/-- Which broadcast of the node it is determines its time. -/
theorem bc_index {evs pre post : List (ℚ × Nat × EvType)} {t fs : ℚ} {q m : Nat} {E : Nat → Nat}
    (hu : bcTimes evs q = (List.range m).map fun (j : Nat) => ((E (j + 1) : Nat) : ℚ) / fs) (hs : evs = pre ++ (t, q, .bc) :: post) :
    evBcs pre q < m ∧ t = ((E (evBcs pre q + 1) : Nat) : ℚ) / fs ∧
      bcTimes pre q = (List.range (evBcs pre q)).map fun (j : Nat) => ((E (j + 1) : Nat) : ℚ) / fs := by
  subst hs
  rw [bcTimes_append] at hu
  have e : bcTimes ((t, q, EvType.bc) :: post) q = t :: bcTimes post q := by simp [bcTimes]
  rw [e] at hu
  have h1 : (bcTimes pre q ++ t :: bcTimes post q)[evBcs pre q]? = some t := by
    rw [← evBcs_length, List.getElem?_append_right le_rfl]
    simp
  rw [hu] at h1
  rw [List.getElem?_map] at h1
  by_cases hlt : evBcs pre q < m
  · rw [List.getElem?_range hlt] at h1
    simp only [Option.map_some, Option.some.injEq] at h1
    refine ⟨hlt, h1.symm, ?_⟩
    have h2 := congrArg (List.take (evBcs pre q)) hu
    rw [← evBcs_length, List.take_left, ← List.map_take, List.take_range, evBcs_length, Nat.min_eq_left hlt.le] at h2
    exact h2
  · rw [List.getElem?_eq_none (by simp; omega)] at h1
    cases h1

/-- What is known of an event of the synchronous schedule with efficient broadcasts. -/
theorem eff_event {n L N Ns m : Nat} (hn : 0 < n) {fs : ℚ} (hfs : 0 < fs) (hL : 0 < L) (hLNs : L ≤ Ns)
    {evs : List (ℚ × Nat × EvType)} (hord : evs.Pairwise EvBefore) (hst : ∀ k, g.stamps k = clockStamps fs n)
    (hall : ∀ k < m, upTimes evs k = everySep Ns fs ⌈(N : ℚ) / Ns⌉₊ ((n - 1) / Ns) ∧ bcTimes evs k = syncBcEff L N Ns n fs)
    (hty : ∀ ev ∈ evs, ev.2.1 < m ∧ (ev.2.2 = .up ∨ ev.2.2 = .bc)) :
    (∀ pre t q post, evs = pre ++ (t, q, .bc) :: post →
      t = ((effEnd L N Ns (evBcs pre q + 1) : Nat) : ℚ) / fs ∧ effEnd L N Ns (evBcs pre q + 1) < n ∧
      lastBcTime pre q = ((effEnd L N Ns (evBcs pre q) : Nat) : ℚ) / fs ∧
      effLen g L pre t q = effEnd L N Ns (evBcs pre q + 1) - effEnd L N Ns (evBcs pre q)) ∧
    (∀ pre t q post, evs = pre ++ (t, q, .up) :: post → 0 < evUps pre q → ∀ k < m,
      ∃ j, (sent (sinceUp q (effOps g L pre)) k).length = effEnd L N Ns (j + 2) - effEnd L N Ns (j + 1)) := by
  have hNs : 0 < Ns := by omega
  constructor
  · intro pre t q post hs
    have hq := (hty (t, q, .bc) (by rw [hs]; simp)).1
    have hb := (hall q hq).2
    rw [syncBcEff_eq] at hb
    obtain ⟨h1, h2, h3⟩ := bc_index (E := effEnd L N Ns) hb hs
    have hE : effEnd L N Ns (evBcs pre q + 1) < n := effEnd_lt hn hNs (by omega)
    obtain ⟨-, h5, h6⟩ := effOps_sent (g := g) (L := L) (E := effEnd L N Ns) hfs (hst q) rfl (effEnd_mono L N Ns) (effEnd_dvd L N Ns)
      pre (fun e he => (hty e (by rw [hs]; simp [he])).2.symm) _ (fun j hj => effEnd_lt hn hNs (by omega)) h3
    exact ⟨h2, hE, h5, by rw [h2]; exact h6 hE⟩
  · intro pre t q post hs hu k hk
    have hq := (hty (t, q, .up) (by rw [hs]; simp)).1
    have htp : ∀ e ∈ pre, e.2.2 = .bc ∨ e.2.2 = .up := fun e he => (hty e (by rw [hs]; simp [he])).2.symm
    obtain ⟨a, t1, e1, e2, e3⟩ := effOps_since (g := g) L q pre htp hu
    have hs1 : evs = a ++ (t1, q, .up) :: (evSince q pre ++ (t, q, .up) :: post) := by
      rw [hs]; conv_lhs => rw [e1]
      simp
    obtain ⟨i1, i2⟩ := sync_index (hall q hq).1 hs
    obtain ⟨j1, j2⟩ := sync_index (hall q hq).1 hs1
    have hups : evUps pre q = evUps a q + 1 := by
      have : evUps pre q = evUps a q + (1 + evUps (evSince q pre) q) := by
        conv_lhs => rw [e1]
        unfold evUps
        rw [List.countP_append, List.countP_cons_of_pos (by simp)]
        omega
      omega
    have hbt : ∀ (p : List (ℚ × Nat × EvType)) (t' : ℚ) (po : List (ℚ × Nat × EvType)) (i : Nat), evs = p ++ (t', q, .up) :: po →
        i < (n - 1) / Ns → t' = (i : ℚ) * Ns / fs →
        bcTimes p k = (List.range (i + 1 - ⌈(N : ℚ) / Ns⌉₊)).map fun (j : Nat) => ((effEnd L N Ns (j + 1) : Nat) : ℚ) / fs := by
      intro p t' po i hp hi ht
      have e : (i : ℚ) * Ns / fs = ((i * Ns : Nat) : ℚ) / fs := by push_cast; ring
      rw [bcTimes_before hord hp k, (hall k hk).2, ht, e, syncBcEff_filter hL hLNs hfs hi]
      rfl
    have b1 := hbt _ _ _ _ hs i1 i2
    have b2 := hbt _ _ _ _ hs1 j1 j2
    have b2' : bcTimes (a ++ [(t1, q, EvType.up)]) k = (List.range (⌈(N : ℚ) / Ns⌉₊ + evUps a q + 1 - ⌈(N : ℚ) / Ns⌉₊)).map
        fun (j : Nat) => ((effEnd L N Ns (j + 1) : Nat) : ℚ) / fs := by
      rw [bcTimes_append, ← b2]
      simp [bcTimes]
    rw [hups, show ⌈(N : ℚ) / Ns⌉₊ + (evUps a q + 1) + 1 - ⌈(N : ℚ) / Ns⌉₊ = evUps a q + 2 by omega] at b1
    rw [show ⌈(N : ℚ) / Ns⌉₊ + evUps a q + 1 - ⌈(N : ℚ) / Ns⌉₊ = evUps a q + 1 by omega] at b2'
    have s1 := (effOps_sent (g := g) (L := L) (E := effEnd L N Ns) hfs (hst k) rfl (effEnd_mono L N Ns) (effEnd_dvd L N Ns)
      pre htp _ (fun j hj => effEnd_lt hn hNs (by omega)) b1).1
    have s2 := (effOps_sent (g := g) (L := L) (E := effEnd L N Ns) hfs (hst k) rfl (effEnd_mono L N Ns) (effEnd_dvd L N Ns)
      (a ++ [(t1, q, EvType.up)]) (by
        intro e he
        rcases List.mem_append.mp he with h | h
        · exact htp e (by rw [e1]; simp [h])
        · rw [List.mem_singleton] at h; subst h; exact .inr rfl) _ (fun j hj => effEnd_lt hn hNs (by omega)) b2').1
    refine ⟨evUps a q, ?_⟩
    rw [e3, sent_append, List.length_append, s2] at s1
    omega

theorem effEnd_strict {L N Ns : Nat} (hN : 0 < N) (hL : 0 < L) (hLNs : L ≤ Ns) (j : Nat) : effEnd L N Ns j < effEnd L N Ns (j + 1) := by
  cases j with
  | zero =>
    have h1 : 1 ≤ ⌈(N : ℚ) / Ns⌉₊ := by
      rw [Nat.one_le_iff_ne_zero, ← Nat.pos_iff_ne_zero, Nat.ceil_pos]
      have h1 : (0 : ℚ) < N := by exact_mod_cast hN
      have h2 : (0 : ℚ) < Ns := by exact_mod_cast (by omega : 0 < Ns)
      positivity
    have h2 : L ≤ (⌈(N : ℚ) / Ns⌉₊ + 0) * Ns := hLNs.trans (Nat.le_mul_of_pos_left _ (by omega))
    have h3 : 1 ≤ (⌈(N : ℚ) / Ns⌉₊ + 0) * Ns / L := (Nat.le_div_iff_mul_le hL).mpr (by omega)
    exact Nat.mul_pos h3 hL
  | succ j =>
    refine Nat.mul_lt_mul_of_pos_right ?_ hL
    have : (⌈(N : ℚ) / Ns⌉₊ + (j + 1)) * Ns = (⌈(N : ℚ) / Ns⌉₊ + j) * Ns + Ns := by ring
    rw [this]
    calc (⌈(N : ℚ) / Ns⌉₊ + j) * Ns / L < ((⌈(N : ℚ) / Ns⌉₊ + j) * Ns + L) / L := by rw [Nat.add_div_right _ hL]; omega
      _ ≤ _ := Nat.div_le_div_right (by omega)

/-- At most as many raw samples are buffered as are sent. -/
theorem raw_since_eff {L : Nat} (hb : g.bc = .few L true) (k q m : Nat) (pre : List (ℚ × Nat × EvType))
    (hty : ∀ ev ∈ pre, ev.2.2 = .up ∨ ev.2.2 = .bc) :
    (sent (sinceUp k (rawOps g y pre m)) q).length ≤ (sent (sinceUp k (effOps g L pre)) q).length := by
  induction pre using List.reverseRecOn with
  | nil => simp [rawOps, sinceUp, sent]
  | append_singleton pre ev ih =>
    have ih := ih fun e he => hty e (by simp [he])
    rw [rawOps_snoc, effOps_snoc]
    obtain ⟨t, j, ty⟩ := ev
    rcases hty (t, j, ty) (by simp) with h | h
    · simp only at h
      subst h
      simp only [effOp]
      rw [sinceUp_snoc, sinceUp_snoc]
      by_cases hj : j = k
      · rw [if_pos (by simp [BufOp.isUp, hj])]
        simp [sent]
      · rw [if_neg (by simp [BufOp.isUp, hj]), if_neg (by simp [BufOp.isUp, hj]), sent_append, sent_append, sent_up, sent_up,
          List.append_nil, List.append_nil]
        exact ih
    · simp only at h
      subst h
      simp only [effOp]
      rw [sinceUp_snoc, sinceUp_snoc]
      rw [if_neg (by simp [BufOp.isUp]), if_neg (by simp [BufOp.isUp]), sent_append, sent_append, sent_bc, sent_bc, List.length_append,
        List.length_append]
      refine Nat.add_le_add ih ?_
      by_cases hj : j = q
      · rw [if_pos hj, if_pos hj, List.length_replicate]
        unfold rawChunk effLen
        rw [hb]
        simp only
        unfold lastN
        rw [List.length_drop]
        omega
      · rw [if_neg hj, if_neg hj]; exact le_rfl

/-- The run ends normally, and what is known of its last state. -/
theorem eff_alive (U : Strategy K) {n L : Nat} (hn : 0 < n) {fs : ℚ} (hfs : 0 < fs)
    (hf : inferFs (clockStamps fs n) = .ok fs) (nbs : List (List Nat))
    (hne : ∀ nb ∈ nbs, nb ≠ [] ∧ ∀ q ∈ nb, q < nbs.length) {seq sim : Bool}
    {ri : Nat} (first minF : Int) (hri : sim = true → ri < nbs.length)
    (hg : ∀ k, g.fs k = fs) (hst : ∀ k, g.stamps k = clockStamps fs n)
    (hb : g.bc = .few L true) (hL0 : 0 < L) (hLNs : L ≤ g.Ns) (hLn : L < n)
    (hN : 0 < g.N) (he : 2 ∣ g.N) (hbuf : g.Ns + L ≤ g.N + 1 ∨ L ∣ g.Ns ∧ g.Ns ≤ g.N)
    (hfl : g.f.length = g.N) (gd : GoodNeighbours g.nb)
    (hnb : ∀ q < nbs.length, ∀ k ∈ g.nb q, k < nbs.length)
    (hy : ∀ k < nbs.length, ∀ ch ∈ y k, ch.length = n)
    (hU : ∀ k h, (∀ b ∈ (U.rows k h).int, b.length = g.N / 2 + 1) ∧
      (∀ b ∈ (U.rows k h).ext, b.length = g.N / 2 + 1) ∧ ∀ b ∈ (U.rows k h).loc, b.length = g.N / 2 + 1)
    (hw : ∀ k i, (∀ b ∈ g.wInt k i, b.length = g.N / 2 + 1) ∧
      (∀ b ∈ g.wExt k i, b.length = g.N / 2 + 1) ∧ ∀ b ∈ g.wLoc k i, b.length = g.N / 2 + 1)
    (M : Nat → Nat) :
    ∃ out a, initEventsFC g.bc g.N g.Ns seq sim ri first minF (syncNodes fs n nbs) =
        .ok (out, List.replicate nbs.length fs) ∧
      adaptRun U y (.init g n M) (flatEvents out) = .ok a ∧ AliveE g L n (flatEvents out) a := by
  have hNs : 0 < g.Ns := by omega
  obtain ⟨out, hout, hall, hty⟩ := C87_schedule_efficient (seq := seq) (sim := sim) (r := ri) (N := g.N) (L := L)
    hNs hN hn hL0 hLNs hLn hfs hf nbs hne first minF hri
  obtain ⟨arg, ha, hti⟩ := initEventsFC_built hout
  have hord := schedule_order ha hti
  have hNsN : g.Ns ≤ g.N := by omega
  obtain ⟨hbc, hsn⟩ := eff_event (g := g) hn hfs hL0 hLNs hord hst hall hty
  have hlen : ∀ j, effEnd L g.N g.Ns (j + 2) - effEnd L g.N g.Ns (j + 1) ≤ g.N := by
    intro j
    obtain ⟨d1, d2⟩ := effEnd_diff (N := g.N) (Ns := g.Ns) (j := j) hL0
    rcases hbuf with h | h
    · omega
    · rw [d2 h.1]; exact h.2
  obtain ⟨a, h1, h2⟩ := adaptRun_eff (y := y) (U := U) (L := L) (T := n) hb (by omega) hN he hNsN hfl gd hU
    (fun k i => (hw k i).1) (fun k i => (hw k i).2.1) (fun k i => (hw k i).2.2) M (flatEvents out) (by
      intro pre ev post hsp
      have hmem : ev ∈ flatEvents out := by rw [hsp]; simp
      obtain ⟨t, q, ty⟩ := ev
      obtain ⟨hq, hty'⟩ := hty _ hmem
      simp only at hq hty'
      rcases hty' with rfl | rfl
      · obtain ⟨i1, i2⟩ := sync_index (hall q hq).1 hsp
        have hR : g.N ≤ ⌈(g.N : ℚ) / g.Ns⌉₊ * g.Ns := by
          have h1 : (g.N : ℚ) / g.Ns ≤ (⌈(g.N : ℚ) / g.Ns⌉₊ : ℚ) := Nat.le_ceil _
          rw [div_le_iff₀ (by exact_mod_cast hNs)] at h1
          exact_mod_cast h1
        have hbb := hsn pre t q post hsp
        generalize ⌈(g.N : ℚ) / g.Ns⌉₊ = R at hR i1 i2
        generalize hI : R + evUps pre q = I at i1 i2
        have hlow : g.N ≤ I * g.Ns := hR.trans (Nat.mul_le_mul_right _ (by omega))
        have hup : I * g.Ns ≤ n - 1 := (Nat.le_div_iff_mul_le hNs).mp i1.le
        have hfl' : ⌊t * g.fs q⌋ = ((I * g.Ns : Nat) : Int) := by rw [i2, hg, floor_everySep hfs]
        have hIn : ((I * g.Ns : Nat) : Int) ≤ n := by exact_mod_cast (by omega : I * g.Ns ≤ n)
        have hI0 : (0 : Int) < ((I * g.Ns : Nat) : Int) := by exact_mod_cast (by omega : 0 < I * g.Ns)
        have hI1 : (g.Ns : Int) ≤ ((I * g.Ns : Nat) : Int) := by exact_mod_cast (by omega : g.Ns ≤ I * g.Ns)
        refine ⟨.inr rfl, ?_, ?_, fun h => (by cases h), fun _ => ⟨?_, ?_, fun _ => ?_⟩, fun _ hu k hk => ?_⟩
        · simp only; rw [hfl']; exact hI0.le
        · intro ch hch; simp only at hch ⊢; rw [hfl', hy q hq ch hch]; exact hIn
        · simp only; rw [hfl']; exact hI0
        · simp only; rw [hfl']; exact hIn
        · simp only; rw [hfl']; exact hI1
        · simp only at hu hk ⊢
          obtain ⟨j, hj⟩ := hbb hu k (hnb q hq k hk)
          rw [hj]
          exact hlen j
      · obtain ⟨b1, b2, b3, b4⟩ := hbc pre t q post hsp
        have hfl' : ⌊t * g.fs q⌋ = ((effEnd L g.N g.Ns (evBcs pre q + 1) : Nat) : Int) := by
          rw [b1, hg, div_mul_cancel₀ _ hfs.ne', Int.floor_natCast]
        refine ⟨.inl rfl, ?_, ?_, fun _ => ?_, fun h => (by cases h), fun h => (by cases h)⟩
        · simp only; rw [hfl']; positivity
        · intro ch hch; simp only at hch ⊢; rw [hfl', hy q hq ch hch]; exact_mod_cast b2.le
        · simp only
          rw [b4]
          cases evBcs pre q with
          | zero =>
            have := effEnd_first (L := L) (N := g.N) hNs
            change effEnd L g.N g.Ns 1 - 0 ≤ _
            omega
          | succ j => exact (hlen j).trans (by omega))
  exact ⟨out, a, by rw [hb]; exact hout, h1, h2⟩

end
end Danse
