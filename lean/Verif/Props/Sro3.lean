import Verif.Proofs.Sro6

/-!
# Property C115: what sampling-rate-offset compensation leaves over

`delayLeft` (`Verif/Spec/Sro.lean`) is the delay between the own signals and those of a neighbour after
compensation. With oracle offsets it is zero at all times; with the coherence-drift methods it is not,
even if every single estimate is exact.
-/

namespace Danse

section
variable {c : SroCfg} {xs : List SroIn} {s : SroSt} {os : List SroOut}

/-- C115 (a): with oracle offsets nothing is left over. -/
theorem C115_oracle (hc : c.compensate = true) (hf : c.includeFSD = true) (hm : c.method = .oracle)
    (h : (SroSt.init c).run c xs = .ok (s, os)) {q nq i : Nat} (hq : c.neighbors[q]? = some nq)
    (hi : i < xs.length) :
    delayLeft ((c.ppm.getD nq 0 - c.ppm.getD c.k 0) / 1000000) c.Ns xs os q (c.nLocal + q) i = 0 := by
  obtain ⟨hl, h2⟩ := C54_oracle hc hm h
  obtain ⟨a, ha, -, -, hb⟩ := h2 i _ (List.getElem?_eq_getElem (hl ▸ hi))
  unfold delayLeft shiftAt
  rw [List.getElem?_eq_getElem (hl ▸ hi), Option.bind_some, ha, Option.bind_some, hb q nq hq, Option.getD_some,
    hf, if_pos rfl]
  ring

/-- C115 (b), refuted: that closed-loop compensation removes the offset. Let every estimate be exact, i.e.
equal to the drift of the compensated signals over the `ld` updates before it. Then, whatever the
schedule and the flags, at least the fraction `1 - alphaEps` of the offset (95 % with the default
settings) is left at every update: the delay grows without bound. -/
theorem C115_refuted_closed_loop (hc : c.compensate = true) (hf : c.includeFSD = true) {al : ℚ}
    (hm : c.method = .closed al) (ha : 0 ≤ al) (ha1 : al ≤ 1) (hN : 0 < c.Ns) {ε : ℚ} (hε : 0 ≤ ε) {ld : Nat}
    (hld : 0 < ld) (hst : ld ≤ c.startAfterNups + c.estEvery)
    (h : (SroSt.init c).run c xs = .ok (s, os)) {q : Nat} (hq : q < c.neighbors.length)
    (hx : ∀ (i : Nat) (x : SroIn), xs[i]? = some x → c.scheduled i = true →
      x.coh q = (delayLeft ε c.Ns xs os q (c.nLocal + q) i -
        delayLeft ε c.Ns xs os q (c.nLocal + q) (i - ld)) / (ld * c.Ns)) {i : Nat} (hi : i < xs.length) :
    (1 - al) * (ε * c.Ns * i) ≤ delayLeft ε c.Ns xs os q (c.nLocal + q) i ∧
    delayLeft ε c.Ns xs os q (c.nLocal + q) i ≤ ε * c.Ns * i := by
  have hl : (0 : ℚ) < ld := by exact_mod_cast hld
  have hNs : (0 : ℚ) < c.Ns := by exact_mod_cast hN
  set u := corr xs (fun j x => if c.scheduled j then x.coh q / (1 + x.coh q) * al else 0) with hu
  have hd : ∀ j, j < xs.length → delayLeft ε c.Ns xs os q (c.nLocal + q) j =
      c.Ns * (ε * j - ∑ m ∈ Finset.range j, u m) := fun j hj => delayLeft_eq hc hf (.inl hm) h hq ε hj
  have hb : ∀ j < xs.length, 0 ≤ u j ∧ u j ≤ al * ε := by
    refine corr_bound hε ha ha1 hld fun j hj => ?_
    by_cases hs : c.scheduled j = true
    · right
      have hlj : ld ≤ j := by
        unfold SroCfg.scheduled at hs
        have := of_decide_eq_true hs
        omega
      refine ⟨hlj, xs[j].coh q, by simp [hu, corr, List.getElem?_eq_getElem hj, hs], ?_⟩
      rw [hx j _ (List.getElem?_eq_getElem hj) hs, hd j hj, hd (j - ld) (by omega),
        Finset.sum_Ico_eq_sub _ (Nat.sub_le j ld), Nat.cast_sub hlj]
      field_simp
      ring
    · left
      simp [hu, corr, List.getElem?_eq_getElem hj, hs]
  rw [hd i hi]
  have s0 : 0 ≤ ∑ m ∈ Finset.range i, u m :=
    Finset.sum_nonneg fun j hj => (hb j ((Finset.mem_range.mp hj).trans hi)).1
  have s1 : ∑ m ∈ Finset.range i, u m ≤ i * (al * ε) := by
    have := Finset.sum_le_card_nsmul (Finset.range i) u (al * ε) fun j hj =>
      (hb j ((Finset.mem_range.mp hj).trans hi)).2
    rwa [Finset.card_range, nsmul_eq_mul] at this
  constructor
  · have := mul_le_mul_of_nonneg_left s1 hNs.le
    linarith
  · have := mul_nonneg hNs.le s0
    linarith

/-- C115 (c): the open loop with exact estimates (the offset itself) at every update from the first scheduled
one on: up to that one the signals drift apart; from then on an offset of `ε ^ 2 / (1 + ε)` is left. -/
theorem C115_open_loop (hc : c.compensate = true) (hf : c.includeFSD = true) (hm : c.method = .open)
    (hev : c.estEvery = 1) (hn : xs.length ≤ c.nIter) {ε : ℚ} (hε : 0 ≤ ε)
    (h : (SroSt.init c).run c xs = .ok (s, os)) {q : Nat} (hq : q < c.neighbors.length)
    (hx : ∀ (i : Nat) (x : SroIn), xs[i]? = some x → c.scheduled i = true → x.coh q = ε)
    {i : Nat} (hi : i < xs.length) :
    delayLeft ε c.Ns xs os q (c.nLocal + q) i =
      if i ≤ c.startAfterNups + 1 then ε * c.Ns * i
      else ε * c.Ns * (c.startAfterNups + 1) + ε ^ 2 / (1 + ε) * c.Ns * (i - (c.startAfterNups + 1)) := by
  have h1 : (1 + ε) ≠ 0 := by linarith
  rw [delayLeft_eq hc hf (.inr ⟨hm, rfl⟩) h hq ε hi]
  have hu : ∀ j, j < xs.length → corr xs (fun j x => if c.scheduled j then x.coh q / (1 + x.coh q) * 1 else 0) j =
      if c.startAfterNups + 1 ≤ j then ε / (1 + ε) else 0 := by
    intro j hj
    simp only [corr, List.getElem?_eq_getElem hj, Option.elim_some]
    have hs : c.scheduled j = true ↔ c.startAfterNups + 1 ≤ j := by
      unfold SroCfg.scheduled
      rw [decide_eq_true_iff, hev, Nat.mod_one]
      constructor
      · exact fun h => h.1
      · exact fun h => ⟨h, by omega, rfl⟩
    by_cases hj' : c.startAfterNups + 1 ≤ j
    · rw [if_pos (hs.mpr hj'), if_pos hj', hx j _ (List.getElem?_eq_getElem hj) (hs.mpr hj'), mul_one]
    · rw [if_neg (fun h => hj' (hs.mp h)), if_neg hj']
  have hsum : ∀ n, n ≤ xs.length → ∑ j ∈ Finset.range n, corr xs (fun j x =>
      if c.scheduled j then x.coh q / (1 + x.coh q) * 1 else 0) j =
      if n ≤ c.startAfterNups + 1 then 0 else (n - (c.startAfterNups + 1)) * (ε / (1 + ε)) := by
    intro n
    induction n with
    | zero => intro _; simp
    | succ n ih =>
      intro hn'
      rw [Finset.sum_range_succ, ih (by omega), hu n (by omega)]
      by_cases h3 : n + 1 ≤ c.startAfterNups + 1
      · rw [if_pos (by omega), if_neg (by omega), if_pos h3, add_zero]
      · rw [if_neg h3, if_pos (show c.startAfterNups + 1 ≤ n by omega)]
        by_cases h4 : n ≤ c.startAfterNups + 1
        · rw [if_pos h4]
          have : (n : ℚ) = c.startAfterNups + 1 := by
            have : n = c.startAfterNups + 1 := by omega
            rw [this]; push_cast; rfl
          push_cast
          rw [this]; ring
        · rw [if_neg h4]
          push_cast; ring
  rw [hsum i hi.le]
  split
  · ring
  · field_simp
    ring

end

/-- Non-vacuity of (b): clocks that differ by the factor 1001/1000, hops of 1000 samples, frames at distance
1, estimates from the second update on. The exact estimates are 1/1000, then 1/1000 - 1/2002, ... -/
example : ∃ s os, (SroSt.init (exLoop (.closed (1 / 2)) 1)).run (exLoop (.closed (1 / 2)) 1)
      [exCoh 0, exCoh (1 / 1000), exCoh (501 / 1001000)] = .ok (s, os) ∧
    ∀ (i : Nat) (x : SroIn), [exCoh 0, exCoh (1 / 1000), exCoh (501 / 1001000)][i]? = some x →
      (exLoop (.closed (1 / 2)) 1).scheduled i = true →
      x.coh 0 = (delayLeft (1 / 1000) 1000 [exCoh 0, exCoh (1 / 1000), exCoh (501 / 1001000)] os 0 1 i -
        delayLeft (1 / 1000) 1000 [exCoh 0, exCoh (1 / 1000), exCoh (501 / 1001000)] os 0 1 (i - 1)) /
          ((1 : Nat) * (1000 : Nat)) := by
  refine ⟨_, _, rfl, fun i x hx hs => ?_⟩
  match i, hx with
  | 0, hx => exact absurd hs (by decide)
  | 1, hx =>
    injection hx with hx
    subst hx
    decide +kernel
  | 2, hx =>
    injection hx with hx
    subst hx
    decide +kernel
  | i + 3, hx => simp at hx

/-- Non-vacuity of (a) and (c), and the delays. -/
example : ∃ s os, (SroSt.init (exLoop .open 1)).run (exLoop .open 1)
      [exCoh 7, exCoh (1 / 999), exCoh (1 / 999), exCoh (1 / 999)] = .ok (s, os) ∧
    (List.range 4).map (delayLeft (1 / 999) 1000 [exCoh 7, exCoh (1 / 999), exCoh (1 / 999), exCoh (1 / 999)]
      os 0 1) = [0, 1000 / 999, 1000 / 999 + 1 / 999, 1000 / 999 + 2 / 999] := by
  refine ⟨_, _, rfl, ?_⟩
  decide +kernel

end Danse
