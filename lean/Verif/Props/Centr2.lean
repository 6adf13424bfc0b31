import Verif.Proofs.Centr7
import Verif.Props.Centr
import Verif.Props.Given

/-!
# Properties C88-C90: the centralised and single-sensor estimates next to the DANSE estimate
-/

set_option linter.unusedSectionVars false

namespace Danse
section
variable {K : Type} [Field K] [StarRing K] [DecidableEq K] {c : CentrCfg K} {y : Nat → List (List K)}

/-- C88: the centralised and single-sensor estimates of the re-runs on the clean speech and on the clean noise
with given filters add up, at every sample and for every schedule, to those of the run on the sum - with
whole-chunk broadcasts as well, for which this is not so for the DANSE estimate (C30). -/
theorem C88_additive {ys yn : Nat → List (List K)} (hy : ∀ k, SumsM (ys k) (yn k) (y k)) (n N r T : Nat)
    (M : Nat → Nat) (evs : List (ℚ × Nat × EvType)) {s v m : CentrSt K}
    (hs : c.run ys (.init n N r T M) evs = .ok s) (hn : c.run yn (.init n N r T M) evs = .ok v)
    (hm : c.run y (.init n N r T M) evs = .ok m) (k : Nat) :
    Sums (s.dC k) (v.dC k) (m.dC k) ∧ Sums (s.dS k) (v.dS k) (m.dS k) := by
  have h := centrRun_sums hy evs (centr_init_rel (c := c) n N r T M) hs hn hm
  exact ⟨h.dC k, h.dS k⟩

/-- C89 (a): asking for the centralised and single-sensor estimates does not change the DANSE run: if a run
with these options completes, the run without them completes with the same DANSE and local estimates
(and everything else). -/
theorem C89_options_only_add (evs : List (ℚ × Nat × EvType)) {n N r T : Nat} {M : Nat → Nat} {s : CentrSt K}
    (h : c.run y (.init n N r T M) evs = .ok s) : c.g.run y (.init N r T M) evs = .ok s.base :=
  centr_run_base evs h

/-- C89 (b): so two runs that complete with the same parameters, signals and schedule have the same DANSE and local
estimates, whatever these options and the centralised filters are. -/
theorem C89_independent {c' : CentrCfg K} (hg : c'.g = c.g) (evs : List (ℚ × Nat × EvType)) {n N r T : Nat}
    {M : Nat → Nat} {s s' : CentrSt K} (h : c.run y (.init n N r T M) evs = .ok s)
    (h' : c'.run y (.init n N r T M) evs = .ok s') : s.base.d = s'.base.d ∧ s.base.dLoc = s'.base.dLoc := by
  have h1 := C89_options_only_add evs h
  have h2 := C89_options_only_add evs h'
  rw [hg, h1] at h2
  injection h2 with h2
  rw [h2]
  exact ⟨rfl, rfl⟩

/-- A failing event makes the run fail. -/
theorem run_fails {evs : List (ℚ × Nat × EvType)} {ev : ℚ × Nat × EvType} (hev : ev ∈ evs)
    (hf : ∀ s s', c.step y s ev ≠ .ok s') (s s' : CentrSt K) : c.run y s evs ≠ .ok s' := by
  induction evs generalizing s with
  | nil => simp at hev
  | cons e evs ih =>
    intro h
    unfold CentrCfg.run at h
    rw [List.foldlM_cons] at h
    obtain ⟨s1, h1, h⟩ := bind_ok_inv h
    rcases List.mem_cons.mp hev with rfl | h2
    · exact hf s s1 h1
    · exact ih h2 s1 h

/-- C90 (a), refuted option: the centralised estimate cannot be computed with few-sample broadcasts other than
efficient ones: every run with a broadcast raises an exception. -/
theorem C90_refuted_few_samples {L : Nat} (hc : c.centr = true) (hb : c.g.bc = .few L false)
    {evs : List (ℚ × Nat × EvType)} {t : ℚ} {k : Nat} (hev : (t, k, EvType.bc) ∈ evs) (s s' : CentrSt K) :
    c.run y s evs ≠ .ok s' := by
  refine run_fails hev ?_ s s'
  intro s s' h
  unfold CentrCfg.step CentrCfg.broadcast at h
  simp only [hc, if_true] at h
  obtain ⟨raw, h1, _⟩ := bind_ok_inv h
  unfold CentrCfg.rawFrames at h1
  obtain ⟨fr, _, h1⟩ := bind_ok_inv h1
  rw [hb] at h1
  cases h1

/-- C90 (b), refuted option: the single-sensor estimate cannot be computed with SRO compensation: every run with
an update raises an exception. -/
theorem C90_refuted_sro_compensation (hs : c.ssbc = true) (hcs : c.compensateSROs = true)
    {evs : List (ℚ × Nat × EvType)} {t : ℚ} {k : Nat} (hev : (t, k, EvType.up) ∈ evs) (s s' : CentrSt K) :
    c.run y s evs ≠ .ok s' := by
  refine run_fails hev ?_ s s'
  intro s s' h
  unfold CentrCfg.step CentrCfg.update at h
  simp only at h
  obtain ⟨_, _, h⟩ := bind_ok_inv h
  obtain ⟨p, _, h⟩ := bind_ok_inv h
  obtain ⟨loc, _, h⟩ := bind_ok_inv h
  split at h
  · cases h
  · obtain ⟨yS, _, h⟩ := bind_ok_inv h
    rw [hs, hcs] at h
    cases h

/-- Without the centralised estimate nothing is ever received raw. -/
theorem yc_empty (hc : c.centr = false) (evs : List (ℚ × Nat × EvType)) {s s' : CentrSt K}
    (h0 : ∀ k, s.yc k = []) (h : c.run y s evs = .ok s') (k : Nat) : s'.yc k = [] := by
  induction evs generalizing s with
  | nil => injection h with h; subst h; exact h0 k
  | cons ev evs ih =>
    unfold CentrCfg.run at h
    rw [List.foldlM_cons] at h
    obtain ⟨s1, h1, h⟩ := bind_ok_inv h
    refine ih ?_ h
    obtain ⟨t, k, ty⟩ := ev
    unfold CentrCfg.step at h1
    cases ty with
    | bc => rw [(centrBroadcast_parts h1).2.1]; exact h0
    | up =>
      obtain ⟨p, _, _, _, _, hp, _, _, _, _, _, _, hyc, _⟩ := centrUpdate_parts h1
      rw [hc, whenOn] at hp
      injection hp with hp
      intro q
      rw [hyc, ← hp]
      by_cases e : q = k
      · subst e; simpa using h0 q
      · simpa [Function.update_of_ne e] using h0 q
    | fu => cases h1
    | re => cases h1
    | tr => cases h1

/-- C90 (c), refuted option: the single-sensor estimate cannot be computed without the centralised one, in any
network of several nodes: every run with an update raises an exception. -/
theorem C90_refuted_without_centralised (hc : c.centr = false) (hs : c.ssbc = true) (hn : 2 ≤ c.n)
    {evs : List (ℚ × Nat × EvType)} {t : ℚ} {k : Nat} (hev : (t, k, EvType.up) ∈ evs)
    {n N r T : Nat} {M : Nat → Nat} (s' : CentrSt K) : c.run y (.init n N r T M) evs ≠ .ok s' := by
  intro h
  obtain ⟨pre, post, rfl⟩ := List.append_of_mem hev
  unfold CentrCfg.run at h
  rw [List.foldlM_append] at h
  obtain ⟨s1, h1, h⟩ := bind_ok_inv h
  rw [List.foldlM_cons] at h
  obtain ⟨s2, h2, _⟩ := bind_ok_inv h
  obtain ⟨p, loc, yS, _, _, hp, _, hyS, _⟩ := centrUpdate_parts h2
  rw [hc, whenOn] at hp
  injection hp with hp
  have hy0 : s1.yc k = [] := yc_empty hc pre (fun _ => rfl) h1 k
  rw [← hp, hs, whenOn, if_pos rfl, hy0] at hyS
  unfold buildSsbc at hyS
  obtain ⟨r, hr, _⟩ := bind_ok_inv hyS
  -- some node other than `k` is looked up
  have key : ∀ (l : List Nat), (∃ q ∈ l, q ≠ k) → ∀ (acc : List (List K) × Nat) r,
      l.foldlM (fun (acc : List (List K) × Nat) q => if q = k then (.ok acc : Except PyErr (List (List K) × Nat))
        else do
          let col ← pyGet ([] : List (List K)) (nbSensorsBefore c.n (fun q => (y q).length) k acc.2)
          .ok (acc.1 ++ [col], acc.2 + 1)) acc ≠ .ok r := by
    intro l
    induction l with
    | nil => rintro ⟨q, hq, _⟩; simp at hq
    | cons q l ih =>
      rintro ⟨q', hq', hne⟩ acc r h
      rw [List.foldlM_cons] at h
      obtain ⟨a1, h1, h⟩ := bind_ok_inv h
      by_cases e : q = k
      · rcases List.mem_cons.mp hq' with rfl | h3
        · exact hne e
        · exact ih ⟨q', h3, hne⟩ a1 r h
      · rw [if_neg e] at h1
        obtain ⟨col, hcol, _⟩ := bind_ok_inv h1
        unfold pyGet at hcol
        simp at hcol
  refine key (List.range c.n) ?_ _ r hr
  by_cases e : k = 0
  · exact ⟨1, List.mem_range.mpr (by omega), by omega⟩
  · exact ⟨0, List.mem_range.mpr (by omega), fun h => e h.symm⟩

end
end Danse
