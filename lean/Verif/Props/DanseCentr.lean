import Verif.Proofs.DanseCentr6
import Verif.Props.Cost

/-!
# Property C130: the filters of the centralised and of the single-sensor-broadcast estimates

`cdanseRun C y T evs` is the main loop with `computeCentralised` and `computeSingleSensorBroadcast`; `a.chist k` is what node
`k` observed for these estimates at its updates, `C.heardC k h` and `C.heardS k h` are the spectra (Spec/DanseCentr.lean).
-/

set_option linter.unusedSectionVars false

namespace Danse
section
variable {K : Type} [Field K] [StarRing K] [DecidableEq K] {C : CDanseCfg K} {y : Nat → List (List K)}
  {T : Nat} {evs : List (ℚ × Nat × EvType)} {a : CDanseSt C}
open Matrix

/-- C130 (a): asking for these estimates changes nothing else: the run without them, from the same parameters, completes with
the same DANSE and local filters, buffers, outputs and observations. -/
theorem C130_only_adds (h : cdanseRun C y T evs = .ok a) :
    ∃ b : DanseSt C.D, danseRun C.D y T evs = .ok b ∧ b.run.st = a.st.base ∧ b.run.hist = a.hist ∧ b.run.cfg = a.cfg.g :=
  ⟨_, (cdanseRun_inv evs h).base, rfl, rfl, rfl⟩

/-- C130 (b): the outputs are those of a run with given filters and phase factors, namely those that the nodes computed
(so that C86-C88 hold for them). -/
theorem C130_instance (h : cdanseRun C y T evs = .ok a) :
    a.cfg.run y (.init C.n C.D.g.N C.D.g.refSensor T C.D.M) evs = .ok a.st := (cdanseRun_inv evs h).again

/-- C130 (c): at its `i`-th update a node writes in row `i + 1` of its centralised filters: a copy of row `i` if the update
is bypassed, else the initial filter as long as updating has not started, else what the update rule gives for the
weighted covariance matrices of the frames of all sensors of the network, with the reference sensor of this node in its
place among them. Active and inactive frames are told apart by the network-wide VAD; the start counts the frames by
the VAD of the node. -/
theorem C130_rows (hc : C.centr = true) (h : cdanseRun C y T evs = .ok a) {k i : Nat} (hv : C.SoundVad k)
    (hi : i < evUps evs k) : C.RowOkC k (C.heardC k ((a.chist k).take (i + 1))) (C.D.bypass k i) (a.cfg.wC k i)
      (C.wC0 k (i + 1)) (a.cfg.wC k (i + 1)) := cdanse_rowC hc h hv hi

/-- C130 (d): and in row `i + 1` of its single-sensor-broadcast filters the same for the frames of its own sensors and of the
first sensor of every other node, with its own VAD. -/
theorem C130_rows_single (hc : C.ssbc = true) (h : cdanseRun C y T evs = .ok a) {k i : Nat}
    (hi : i < evUps evs k) : C.D.RowOk k (C.heardS k ((a.chist k).take (i + 1))) (C.D.bypass k i) (a.cfg.wS k i)
      (C.wS0 k (i + 1)) (a.cfg.wS k (i + 1)) := cdanse_rowS hc h hi

/-- C130 (e): without GEVD, the centralised row is after the start in every bin the one solution of
`Ryy w = (Ryy - Rnn) e_ref` for all the sensors of the network: the centralised multichannel Wiener filter. -/
theorem C130_wiener (hrule : C.D.rule = mwfRule) (hc : C.centr = true) (h : cdanseRun C y T evs = .ok a) {k i : Nat}
    (hv : C.SoundVad k) (hi : i < evUps evs k) (hb : C.D.bypass k i = false) (ha : C.D.bypassAll = false)
    (hs : C.StartedC k (C.heardC k ((a.chist k).take (i + 1)))) :
    ∃ href : ((List.range k).map C.D.M).sum + C.D.g.refSensor < C.total, ∀ (κ : Fin C.D.nb) (v : Fin C.total → K),
      C.D.scm k true (C.heardC k ((a.chist k).take (i + 1))) κ *ᵥ v =
        (C.D.scm k true (C.heardC k ((a.chist k).take (i + 1))) κ -
          C.D.scm k false (C.heardC k ((a.chist k).take (i + 1))) κ) *ᵥ Pi.single ⟨_, href⟩ 1 ↔
      v = fun c : Fin C.total => coef (a.cfg.wC k (i + 1)) κ c := by
  have hr := (C130_rows hc h hv hi).2.2.2 hb ha hs
  rw [hrule] at hr
  obtain ⟨href, -⟩ := mwfRule_unique (hr ⟨0, by unfold DanseCfg.nb; omega⟩)
  exact ⟨href, fun κ v => (mwfRule_unique (hr κ)).2 v⟩

/-- C130 (f): and the single-sensor-broadcast row is that for its own sensors and one sensor of every other node. -/
theorem C130_wiener_single (hrule : C.D.rule = mwfRule) (hc : C.ssbc = true) (h : cdanseRun C y T evs = .ok a) {k i : Nat}
    (hi : i < evUps evs k) (hb : C.D.bypass k i = false) (ha : C.D.bypassAll = false)
    (hs : C.D.Started k (C.heardS k ((a.chist k).take (i + 1)))) :
    ∃ href : C.D.g.refSensor < C.D.dim k, ∀ (κ : Fin C.D.nb) (v : Fin (C.D.dim k) → K),
      C.D.scm k true (C.heardS k ((a.chist k).take (i + 1))) κ *ᵥ v =
        (C.D.scm k true (C.heardS k ((a.chist k).take (i + 1))) κ -
          C.D.scm k false (C.heardS k ((a.chist k).take (i + 1))) κ) *ᵥ Pi.single ⟨_, href⟩ 1 ↔
      v = fun c : Fin (C.D.dim k) => coef (a.cfg.wS k (i + 1)) κ c := by
  have hr := (C130_rows_single hc h hi).2.2.2 hb ha hs
  rw [hrule] at hr
  obtain ⟨href, -⟩ := mwfRule_unique (hr ⟨0, by unfold DanseCfg.nb; omega⟩)
  exact ⟨href, fun κ v => (mwfRule_unique (hr κ)).2 v⟩

end

section
variable {C : CDanseCfg ℂ} {y : Nat → List (List ℂ)} {T : Nat} {evs : List (ℚ × Nat × EvType)} {a : CDanseSt C}
open Matrix
open scoped ComplexOrder

/-- C130 (g): so, without GEVD, the centralised filter has after the start in every bin the least estimated error of all
filters for all the sensors of the network, for the reference sensor of its node, and no other filter has so small an
error. -/
theorem C130_best (hrule : C.D.rule = mwfRule) (hc : C.centr = true) {k : Nat} {β : ℝ} (h0 : 0 < β) (h1 : β ≤ 1)
    (hβ : C.D.beta k = (β : ℂ))
    (hv : ∀ m Rnn Ryy, C.D.valid m Rnn Ryy = true → ∀ κ, (Rnn κ).det ≠ 0 ∧ (Ryy κ).det ≠ 0)
    (hsv : C.SoundVad k) (hR : C.D.use1st = true ∨ ∀ m κ, (C.D.R0 k m κ).PosSemidef)
    (h : cdanseRun C y T evs = .ok a) {i : Nat} (hi : i < evUps evs k) (hb : C.D.bypass k i = false)
    (ha : C.D.bypassAll = false) (hs : C.StartedC k (C.heardC k ((a.chist k).take (i + 1)))) (κ : Fin C.D.nb)
    (v : Fin C.total → ℂ) :
    C.D.estErrAt (((List.range k).map C.D.M).sum + C.D.g.refSensor) k (C.heardC k ((a.chist k).take (i + 1))) κ
        (fun c => coef (a.cfg.wC k (i + 1)) κ c) ≤
      C.D.estErrAt (((List.range k).map C.D.M).sum + C.D.g.refSensor) k (C.heardC k ((a.chist k).take (i + 1))) κ v ∧
    (C.D.estErrAt (((List.range k).map C.D.M).sum + C.D.g.refSensor) k (C.heardC k ((a.chist k).take (i + 1))) κ v =
        C.D.estErrAt (((List.range k).map C.D.M).sum + C.D.g.refSensor) k (C.heardC k ((a.chist k).take (i + 1))) κ
          (fun c => coef (a.cfg.wC k (i + 1)) κ c) →
      v = fun c : Fin C.total => coef (a.cfg.wC k (i + 1)) κ c) := by
  obtain ⟨href, hw⟩ := C130_wiener hrule hc h hsv hi hb ha hs
  exact wiener_best_at hβ (startedC_posDef h0 h1 hβ hv hsv hR hs κ) href ((hw κ _).mpr rfl) v

/-- C130 (h): with `use1stFrameAsBasis`, the network-wide VAD equal to that of the node, no SRO compensation: the estimated
error of the centralised filter is at most that of the single-sensor-broadcast filter, and this at most that of the
local filter: more sensors never hurt. For any schedule. -/
theorem C130_order (hrule : C.D.rule = mwfRule) (hc : C.centr = true) (hss : C.ssbc = true) {k : Nat} {β : ℝ} (h0 : 0 < β)
    (h1 : β ≤ 1) (hβ : C.D.beta k = (β : ℂ))
    (hv : ∀ m Rnn Ryy, C.D.valid m Rnn Ryy = true → ∀ κ, (Rnn κ).det ≠ 0 ∧ (Ryy κ).det ≠ 0)
    (hvad : ∀ i, C.cvad i = C.D.vad k i) (hu : C.D.use1st = true) (hN : 0 < C.D.g.N) (hM : ∀ q, (y q).length = C.D.M q)
    (hlen : ∀ q < C.n, ∀ x ∈ y q, C.D.g.N ≤ x.length)
    (hev : ∀ ev ∈ evs, ev.2.1 < C.n ∧ 0 ≤ ⌊ev.1 * C.D.g.fs ev.2.1⌋) (hk : k < C.n)
    (he : ∀ t ∈ upTimes evs k, 0 ≤ frameEnd C.D.g.bc C.D.g.N C.D.g.Ns t (C.D.g.fs k))
    (hpos : ∀ q < C.n, 0 < C.D.M q) (href : C.D.g.refSensor < C.D.M k) (hrot : ∀ l c κ, C.rotC k l c κ = 1)
    (h : cdanseRun C y T evs = .ok a) {i : Nat} (hi : i < evUps evs k) (hb : C.D.bypass k i = false)
    (ha : C.D.bypassAll = false) (κ : Fin C.D.nb) :
    (C.StartedC k (C.heardC k ((a.chist k).take (i + 1))) →
      C.D.estErrAt (((List.range k).map C.D.M).sum + C.D.g.refSensor) k (C.heardC k ((a.chist k).take (i + 1))) κ
          (fun c => coef (a.cfg.wC k (i + 1)) κ c) ≤
        C.D.estErr k (C.heardS k ((a.chist k).take (i + 1))) κ (fun c => coef (a.cfg.wS k (i + 1)) κ c)) ∧
    (C.D.Started k (C.heardS k ((a.chist k).take (i + 1))) →
      C.D.estErr k (C.heardS k ((a.chist k).take (i + 1))) κ (fun c => coef (a.cfg.wS k (i + 1)) κ c) ≤
        C.D.estErr k (C.D.heardLoc k ((a.hist k).take (i + 1))) κ (fun c => coef (a.cfg.g.wLoc k (i + 1)) κ c)) := by
  have w := cdanseRun_inv evs h
  have hl := w.len k
  have hpl := fun {i : Nat} {o : CObs ℂ} => cdanse_places (i := i) (o := o) hc hss hN hM hlen hev hk he
    (fun q h3 _ => hpos q h3) h
  have hdim : C.D.dim k = C.D.M k + (C.others k).length := (hpl (List.getElem?_eq_getElem (show i < (a.chist k).length by omega))).1
  constructor
  · intro hs
    have hst := startedC_started hvad hs
    let σ : Fin (C.D.dim k) → Fin C.total := fun c => ⟨C.place k c,
      place_lt hk (fun q h3 _ => hpos q h3) (by rw [← hdim]; exact c.isLt)⟩
    have hrd : C.D.g.refSensor < C.D.dim k := by omega
    have hplr : C.place k C.D.g.refSensor = ((List.range k).map C.D.M).sum + C.D.g.refSensor := by
      unfold CDanseCfg.place
      rw [if_pos href]
    obtain ⟨u, hu'⟩ := estErrAt_part (D := C.D) (k := k) hu (r := ((List.range k).map C.D.M).sum + C.D.g.refSensor)
      (r' := C.D.g.refSensor) σ hrd hplr
      (fun c hcr => place_inj (fun q h3 _ => hpos q h3) (by rw [← hdim]; exact c.isLt) (by omega) (hcr.trans hplr.symm))
      (heardS_restrict hvad hrot (h := (a.chist k).take (i + 1)) σ (fun o ho c => by
        obtain ⟨j, hj⟩ := List.mem_iff_getElem?.mp (List.mem_of_mem_take ho)
        exact (hpl hj).2 c c.isLt))
      (started_both hst) κ (fun c => coef (a.cfg.wS k (i + 1)) κ c)
    rw [estErr_at, ← hu']
    exact (C130_best hrule hc h0 h1 hβ hv (.inr hvad) (.inl hu) h hi hb ha hs κ u).1
  · intro hs
    obtain ⟨hr', hw⟩ := C130_wiener_single hrule hss h hi hb ha hs
    have hll : (a.hist k).length = evUps evs k := by
      have := (C77_observed (C117_instance w.base) k).1
      rw [← evUps_length, ← this, List.length_map]
    rw [← estErr_padded (d := (C.D.g.nb k).length) hu href (heardLoc_single (C := C) (k := k) (h := (a.chist k).take (i + 1))
      (h' := (a.hist k).take (i + 1)) (by simp [hl, hll]) (fun j o o' ho ho' => by
        have h3 := List.getElem?_eq_some_iff.mp ho
        have hj : j < i + 1 := by have := h3.1; rw [List.length_take] at this; omega
        rw [List.getElem?_take_of_lt hj] at ho ho'
        obtain ⟨t1, t2⟩ := cdanse_loc h ho ho'
        refine ⟨t1, t2 hss, ?_⟩
        rw [obs_loc_length w.base (List.mem_of_getElem? ho'), hM])) (started_both hs) κ]
    exact (wiener_best h0 h1 hβ (hv _) (.inl hu) hs hr' ((hw κ _).mpr rfl) _).1

end
end Danse
