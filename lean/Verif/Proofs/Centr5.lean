import Verif.Proofs.Centr4
import Verif.Props.Sched

/-!
# Helper lemmas: observations of the centralised estimate
-/

set_option linter.unusedSectionVars false

namespace Danse
section
variable {K : Type} [Field K] [StarRing K] [DecidableEq K] {c : CentrCfg K} {y : Nat → List (List K)}

theorem chunkForUpdate_frameEnd (x : List K) (t fs : ℚ) (bc : BcType) (N Ns : Nat) :
    chunkForUpdate x t fs bc.name N Ns = localChunk x N (frameEnd bc N Ns t fs) := by
  cases bc <;> simp [chunkForUpdate, BcType.name, frameEnd]

/-- The last event of a run is an update: state before, and the parts of the update. -/
theorem centrRun_up {evs : List (ℚ × Nat × EvType)} {t : ℚ} {k : Nat} {s0 s : CentrSt K}
    (h : c.run y s0 (evs ++ [(t, k, .up)]) = .ok s) :
    ∃ s1, c.run y s0 evs = .ok s1 ∧ c.update y s1 t k = .ok s := by
  unfold CentrCfg.run at h
  rw [List.foldlM_append] at h
  obtain ⟨s1, h1, h⟩ := bind_ok_inv h
  rw [List.foldlM_cons] at h
  obtain ⟨s2, h2, h⟩ := bind_ok_inv h
  injection h with h
  subst h
  exact ⟨s1, h1, h2⟩

theorem centr_observations (hc : c.centr = true) (hN : 0 < c.g.N)
    (hlen : ∀ q < c.n, ∀ x ∈ y q, c.g.N ≤ x.length) {T : Nat} {evs : List (ℚ × Nat × EvType)}
    (hev : ∀ ev ∈ evs, ev.2.1 < c.n ∧ 0 ≤ ⌊ev.1 * c.g.fs ev.2.1⌋) {t : ℚ} {k : Nat} (hk : k < c.n)
    (he : 0 ≤ frameEnd c.g.bc c.g.N c.g.Ns t (c.g.fs k)) {s : CentrSt K}
    (h : c.run y (.init c.n c.g.N c.g.refSensor T fun q => (y q).length) (evs ++ [(t, k, .up)]) = .ok s) :
    ∃ p : List (List K), s.yCentr k = (List.range c.n).flatMap (fun q =>
        if q = k then (y k).map fun x => frameBefore c.g.N x (frameEnd c.g.bc c.g.N c.g.Ns t (c.g.fs k)).toNat
        else (List.range (y q).length).map fun m => lastFrame c.g.N (rawSent c.g y evs q m)) ∧
      (c.ssbc = true → (∀ q < c.n, q ≠ k → 0 < (y q).length) → s.ySSBC k =
        ((y k).map fun x => frameBefore c.g.N x (frameEnd c.g.bc c.g.N c.g.Ns t (c.g.fs k)).toNat) ++
        (centrSlots c.n k).map fun q => lastFrame c.g.N (rawSent c.g y evs q 0)) := by
  obtain ⟨s1, h1, h2⟩ := centrRun_up h
  have hi := CInv.run hc hN hlen T evs hev h1
  obtain ⟨p, loc, yS, hp, hloc, hll, hyS, _, _, _, _, hyC, hySS⟩ := centrUpdate_inv hc h2
  have hp1 := (processCentr_eq hi hk hp).1
  have hown : loc.map (·.1) = (y k).map fun x =>
      frameBefore c.g.N x (frameEnd c.g.bc c.g.N c.g.Ns t (c.g.fs k)).toNat := by
    apply mapM_frames hloc
    intro x hx z hz hzr
    rw [chunkForUpdate_frameEnd] at hz
    exact (localChunk_full hN he (hlen k hk x hx) hz (by rw [hll z hzr]; omega)).2
  refine ⟨p.1, ?_, fun hs hM => ?_⟩
  · rw [hyC, Function.update_self, hp1, hown,
      buildCentr_eq (M := fun q => (y q).length) (by intro q; simp)]
    apply List.flatMap_congr
    intro q _
    by_cases hq : q = k
    · rw [if_pos hq, if_pos hq]
    · rw [if_neg hq, if_neg hq]
      apply List.map_congr_left
      intro m _
      rw [frameSpec_lastFrame]; rfl
  · rw [hySS, Function.update_self]
    rw [whenOn, if_pos hs, hp1, hown, buildSsbc_eq (M := fun q => (y q).length) (by intro q; simp) hM] at hyS
    injection hyS with hyS
    rw [← hyS]
    congr 1
    apply List.map_congr_left
    intro q hq
    obtain ⟨hq1, hq2⟩ := mem_centrSlots.mp hq
    have := hM q hq1 hq2
    rw [List.getD_eq_getElem?_getD, List.getElem?_map, List.getElem?_range this, Option.map_some,
      Option.getD_some, frameSpec_lastFrame]
    rfl

theorem centr_flags (hc : c.centr = true) (hN : 0 < c.g.N)
    (hlen : ∀ q < c.n, ∀ x ∈ y q, c.g.N ≤ x.length) {T : Nat} {evs : List (ℚ × Nat × EvType)}
    (hev : ∀ ev ∈ evs, ev.2.1 < c.n ∧ 0 ≤ ⌊ev.1 * c.g.fs ev.2.1⌋) {t : ℚ} {k : Nat} (hk : k < c.n)
    (hM : ∀ q < c.n, 0 < (y q).length) {s1 s : CentrSt K}
    (h1 : c.run y (.init c.n c.g.N c.g.refSensor T fun q => (y q).length) evs = .ok s1)
    (h : c.run y (.init c.n c.g.N c.g.refSensor T fun q => (y q).length) (evs ++ [(t, k, .up)]) = .ok s) :
    s.flags k = s1.flags k ++ [(List.range c.n).map fun q => if q = k then 0 else
      ((sent (sinceUp k (rawOps c.g y evs 0)) q).length : Int) -
        (if numUps k (rawOps c.g y evs 0) = 0 then c.g.N else c.g.Ns : Nat)] := by
  obtain ⟨s1', h1', h2⟩ := centrRun_up h
  rw [h1] at h1'
  injection h1' with h1'
  subst h1'
  have hi := CInv.run hc hN hlen T evs hev h1
  obtain ⟨p, loc, yS, hp, hloc, hll, hyS, _, _, _, hfl, _⟩ := centrUpdate_inv hc h2
  rw [hfl, Function.update_self, (processCentr_eq hi hk hp).2]
  congr 2
  apply List.map_congr_left
  intro q hq
  by_cases hqk : q = k
  · rw [if_pos hqk, if_pos hqk]
  · rw [if_neg hqk, if_neg hqk, if_pos (hM q (List.mem_range.mp hq)), hi.it 0 k]

/-! ## Whole-chunk broadcasts -/

theorem rawSent_whole {g : GivenCfg K} (hb : g.bc = .whole) (evs : List (ℚ × Nat × EvType)) (q m : Nat) :
    rawSent g y evs q m = (bcTimes evs q).flatMap fun t =>
      (frameBefore g.N ((y q).getD m []) ⌊t * g.fs q⌋.toNat).take g.Ns := by
  induction evs using List.reverseRecOn with
  | nil => rfl
  | append_singleton evs ev ih =>
    unfold rawSent at ih ⊢
    rw [rawOps_snoc, sent_append, ih]
    obtain ⟨t, k, ty⟩ := ev
    unfold bcTimes
    rw [List.filterMap_append, List.flatMap_append]
    congr 1
    cases ty with
    | bc =>
      simp only [sent_bc]
      by_cases hk : k = q
      · subst hk
        simp [rawChunk, hb]
      · simp [hk]
    | _ => simp [sent_up]

theorem flatMap_blocks (x : List K) (Ns J : Nat) :
    (List.range J).flatMap (fun (j : Nat) => (x.drop (j * Ns)).take Ns) = x.take (J * Ns) := by
  induction J with
  | zero => simp
  | succ J ih =>
    rw [List.range_succ, List.flatMap_append, ih, Nat.add_mul, Nat.one_mul, List.take_add]
    simp

theorem frameBefore_take {N Ns e : Nat} (hN : Ns ≤ N) (x : List K) (h : N + e ≤ x.length) :
    (frameBefore N x (N + e)).take Ns = (x.drop e).take Ns := by
  apply at0_ext
  · rw [List.length_take, frameBefore_length, List.length_take, List.length_drop]
    omega
  · intro j hj
    rw [List.length_take, frameBefore_length] at hj
    rw [at0_take (by omega), at0_frameBefore (by omega), at0_take (by omega), at0_drop,
      if_pos (by omega)]
    congr 1
    omega

theorem lastFrame_take {N e : Nat} {x : List K} (h : e ≤ x.length) :
    lastFrame N (x.take e) = frameBefore N x e := by
  unfold lastFrame
  rw [List.length_take, Nat.min_eq_left h]
  apply at0_ext
  · rw [frameBefore_length, frameBefore_length]
  · intro j hj
    rw [frameBefore_length] at hj
    rw [at0_frameBefore hj, at0_frameBefore hj]
    by_cases hc : N ≤ e + j
    · rw [if_pos hc, if_pos hc, at0_take (by omega)]
    · rw [if_neg hc, if_neg hc]

end
end Danse
