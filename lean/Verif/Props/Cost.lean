import Verif.Proofs.Cost2
import Verif.Props.TIDanse2
import Verif.Props.Single

/-!
# Property C127: the filters of a run are the best for what the node heard

`D.estErr k l κ w` is the estimated error of the filter `w` on the frames `l` (Spec/Cost.lean).
-/

set_option linter.unusedSectionVars false

namespace Danse
section
variable {D : DanseCfg ℂ} {y : Nat → List (List ℂ)} {T : Nat} {evs : List (ℚ × Nat × EvType)} {a : DanseSt D}
open Matrix
open scoped ComplexOrder

/-- C127 (a): without GEVD, at every update after the start (not bypassed), the filter that a node writes and uses has
in every bin the least estimated error of all the filters for the channels that it hears, and no other filter has so
small an error; the same holds for its local filter and the channels of its own sensors. -/
theorem C127_best (hrule : D.rule = mwfRule) {k : Nat} {β : ℝ} (h0 : 0 < β) (h1 : β ≤ 1) (hβ : D.beta k = (β : ℂ))
    (hv : ∀ m Rnn Ryy, D.valid m Rnn Ryy = true → ∀ κ, (Rnn κ).det ≠ 0 ∧ (Ryy κ).det ≠ 0)
    (hR : D.use1st = true ∨ ∀ m κ, (D.R0 k m κ).PosSemidef)
    (h : danseRun D y T evs = .ok a) {i : Nat}
    (hi : i < evUps evs k) (hb : D.bypass k i = false) (ha : D.bypassAll = false) :
    (D.Started k (D.heard k ((a.run.hist k).take (i + 1))) → ∀ (κ : Fin D.nb) (v : Fin (D.dim k) → ℂ),
      D.estErr k (D.heard k ((a.run.hist k).take (i + 1))) κ (fun c => coef (a.run.cfg.wInt k (i + 1)) κ c) ≤
        D.estErr k (D.heard k ((a.run.hist k).take (i + 1))) κ v ∧
      (D.estErr k (D.heard k ((a.run.hist k).take (i + 1))) κ v =
        D.estErr k (D.heard k ((a.run.hist k).take (i + 1))) κ (fun c => coef (a.run.cfg.wInt k (i + 1)) κ c) →
        v = fun c : Fin (D.dim k) => coef (a.run.cfg.wInt k (i + 1)) κ c)) ∧
    (D.Started k (D.heardLoc k ((a.run.hist k).take (i + 1))) → ∀ (κ : Fin D.nb) (v : Fin (D.M k) → ℂ),
      D.estErr k (D.heardLoc k ((a.run.hist k).take (i + 1))) κ (fun c => coef (a.run.cfg.wLoc k (i + 1)) κ c) ≤
        D.estErr k (D.heardLoc k ((a.run.hist k).take (i + 1))) κ v ∧
      (D.estErr k (D.heardLoc k ((a.run.hist k).take (i + 1))) κ v =
        D.estErr k (D.heardLoc k ((a.run.hist k).take (i + 1))) κ (fun c => coef (a.run.cfg.wLoc k (i + 1)) κ c) →
        v = fun c : Fin (D.M k) => coef (a.run.cfg.wLoc k (i + 1)) κ c)) := by
  obtain ⟨w1, w2⟩ := C117_wiener hrule h hi hb ha
  constructor
  · intro hs κ v
    obtain ⟨href, hw⟩ := w1 hs
    exact wiener_best h0 h1 hβ (hv _) (hR.imp_right fun h => h _) hs href ((hw κ _).mpr rfl) v
  · intro hs κ v
    obtain ⟨href, hw⟩ := w2 hs
    exact wiener_best h0 h1 hβ (hv _) (hR.imp_right fun h => h _) hs href ((hw κ _).mpr rfl) v

/-- C127 (b): in particular the estimated error is never more than the noise power at the reference sensor, that is,
filtering is never worse than passing on the reference sensor. -/
theorem C127_beats_sensor (hrule : D.rule = mwfRule) {k : Nat} {β : ℝ} (h0 : 0 < β) (h1 : β ≤ 1) (hβ : D.beta k = (β : ℂ))
    (hv : ∀ m Rnn Ryy, D.valid m Rnn Ryy = true → ∀ κ, (Rnn κ).det ≠ 0 ∧ (Ryy κ).det ≠ 0)
    (hR : D.use1st = true ∨ ∀ m κ, (D.R0 k m κ).PosSemidef)
    (h : danseRun D y T evs = .ok a) {i : Nat}
    (hi : i < evUps evs k) (hb : D.bypass k i = false) (ha : D.bypassAll = false)
    (hs : D.Started k (D.heard k ((a.run.hist k).take (i + 1)))) (κ : Fin D.nb) :
    D.estErr k (D.heard k ((a.run.hist k).take (i + 1))) κ (fun c => coef (a.run.cfg.wInt k (i + 1)) κ c) ≤
      D.power k false (D.heard k ((a.run.hist k).take (i + 1))) κ (fun c => if c.val = D.g.refSensor then 1 else 0) := by
  rw [← estErr_ref]
  exact ((C127_best hrule h0 h1 hβ hv hR h hi hb ha).1 hs κ _).1

/-- C127 (c): with `use1stFrameAsBasis`, the filter of a node has at most the estimated error of its local filter: a node
never loses by listening to its neighbours (own channels are not rotated by SRO compensation). -/
theorem C127_beats_local (hrule : D.rule = mwfRule) {k : Nat} {β : ℝ} (h0 : 0 < β) (h1 : β ≤ 1) (hβ : D.beta k = (β : ℂ))
    (hv : ∀ m Rnn Ryy, D.valid m Rnn Ryy = true → ∀ κ, (Rnn κ).det ≠ 0 ∧ (Ryy κ).det ≠ 0)
    (hu : D.use1st = true) (hM : (y k).length = D.M k) (href : D.g.refSensor < D.M k)
    (hrot : ∀ l (c : Nat), c < D.M k → ∀ κ, D.rot k l c κ = 1)
    (h : danseRun D y T evs = .ok a) {i : Nat}
    (hi : i < evUps evs k) (hb : D.bypass k i = false) (ha : D.bypassAll = false)
    (hs : D.Started k (D.heard k ((a.run.hist k).take (i + 1)))) (κ : Fin D.nb) :
    D.estErr k (D.heard k ((a.run.hist k).take (i + 1))) κ (fun c => coef (a.run.cfg.wInt k (i + 1)) κ c) ≤
      D.estErr k (D.heardLoc k ((a.run.hist k).take (i + 1))) κ (fun c => coef (a.run.cfg.wLoc k (i + 1)) κ c) := by
  rw [← estErr_padded (d := (D.g.nb k).length) hu href (heardLoc_restrict hrot (fun o ho => by
    rw [obs_loc_length h (List.mem_of_mem_take ho), hM])) (started_both hs) κ]
  exact ((C127_best hrule h0 h1 hβ hv (.inl hu) h hi hb ha).1 hs κ _).1

end

section
variable {n : Nat} {D : DanseCfg ℂ} {T : Nat} {y : Fin n → List (List ℂ)} {up0 : Fin n → List (Fin n)}
  {trees : List (TreeObj n)} {out : List (Instant ℚ)} {a : TIDanseSt n D}
open Matrix
open scoped ComplexOrder

/-- C127 (d): the same for TI-DANSE, for own sensors and in-network sum, if the row is not a normalised one (node 0, when
nodes update in turns, from one second on; see `C119_refuted_normalised`). -/
theorem C127_ti_best (hrule : D.rule = mwfRule) {k : Fin n} {β : ℝ} (h0 : 0 < β) (h1 : β ≤ 1) (hβ : D.beta k = (β : ℂ))
    (hv : ∀ m Rnn Ryy, D.valid m Rnn Ryy = true → ∀ κ, (Rnn κ).det ≠ 0 ∧ (Ryy κ).det ≠ 0)
    (hR : D.use1st = true ∨ ∀ m κ, (D.R0 k m κ).PosSemidef)
    (h : tiDanseRun D T y up0 trees out = .ok a) (hs : (out.map (·.t)).Pairwise (· ≤ ·)) {i : Nat} {o : TIObs ℂ}
    (ho : (a.run.node k).hist[i]? = some o) (hb : o.bypass = false) (ha : D.bypassAll = false) :
    (D.Started k (D.tiHeard k ((a.run.node k).hist.take (i + 1))) → ¬ (D.seq = true ∧ k.val = 0 ∧ 1 ≤ o.t) →
      ∀ (κ : Fin D.nb) (v : Fin (D.M k + 1) → ℂ),
      D.estErr k (D.tiHeard k ((a.run.node k).hist.take (i + 1))) κ (fun c => coef (a.row k (i + 1)) κ c) ≤
        D.estErr k (D.tiHeard k ((a.run.node k).hist.take (i + 1))) κ v ∧
      (D.estErr k (D.tiHeard k ((a.run.node k).hist.take (i + 1))) κ v =
        D.estErr k (D.tiHeard k ((a.run.node k).hist.take (i + 1))) κ (fun c => coef (a.row k (i + 1)) κ c) →
        v = fun c : Fin (D.M k + 1) => coef (a.row k (i + 1)) κ c)) ∧
    (D.Started k (D.tiHeardLoc k ((a.run.node k).hist.take (i + 1))) → ∀ (κ : Fin D.nb) (v : Fin (D.M k) → ℂ),
      D.estErr k (D.tiHeardLoc k ((a.run.node k).hist.take (i + 1))) κ (fun c => coef (a.rowLoc k (i + 1)) κ c) ≤
        D.estErr k (D.tiHeardLoc k ((a.run.node k).hist.take (i + 1))) κ v ∧
      (D.estErr k (D.tiHeardLoc k ((a.run.node k).hist.take (i + 1))) κ v =
        D.estErr k (D.tiHeardLoc k ((a.run.node k).hist.take (i + 1))) κ (fun c => coef (a.rowLoc k (i + 1)) κ c) →
        v = fun c : Fin (D.M k) => coef (a.rowLoc k (i + 1)) κ c)) := by
  obtain ⟨w1, w2⟩ := C119_wiener hrule h hs ho hb ha
  constructor
  · intro hs hn κ v
    obtain ⟨href, hw⟩ := w1 hs hn
    exact wiener_best h0 h1 hβ (hv _) (hR.imp_right fun h => h _) hs href ((hw κ _).mpr rfl) v
  · intro hs κ v
    obtain ⟨href, hw⟩ := w2 hs
    exact wiener_best h0 h1 hβ (hv _) (hR.imp_right fun h => h _) hs href ((hw κ _).mpr rfl) v

/-- C127 (e): and so, with `use1stFrameAsBasis`, a TI-DANSE node does not lose by listening to the in-network sum, and in
any case not against its reference sensor. -/
theorem C127_ti_beats (hrule : D.rule = mwfRule) {k : Fin n} {β : ℝ} (h0 : 0 < β) (h1 : β ≤ 1) (hβ : D.beta k = (β : ℂ))
    (hv : ∀ m Rnn Ryy, D.valid m Rnn Ryy = true → ∀ κ, (Rnn κ).det ≠ 0 ∧ (Ryy κ).det ≠ 0)
    (hR : D.use1st = true ∨ ∀ m κ, (D.R0 k m κ).PosSemidef) (hM : (y k).length = D.M k) (href : D.g.refSensor < D.M k)
    (h : tiDanseRun D T y up0 trees out = .ok a) (hs : (out.map (·.t)).Pairwise (· ≤ ·)) {i : Nat} {o : TIObs ℂ}
    (ho : (a.run.node k).hist[i]? = some o) (hb : o.bypass = false) (ha : D.bypassAll = false)
    (hst : D.Started k (D.tiHeard k ((a.run.node k).hist.take (i + 1)))) (hn : ¬ (D.seq = true ∧ k.val = 0 ∧ 1 ≤ o.t))
    (κ : Fin D.nb) :
    (D.use1st = true →
      D.estErr k (D.tiHeard k ((a.run.node k).hist.take (i + 1))) κ (fun c => coef (a.row k (i + 1)) κ c) ≤
        D.estErr k (D.tiHeardLoc k ((a.run.node k).hist.take (i + 1))) κ (fun c => coef (a.rowLoc k (i + 1)) κ c)) ∧
    D.estErr k (D.tiHeard k ((a.run.node k).hist.take (i + 1))) κ (fun c => coef (a.row k (i + 1)) κ c) ≤
      D.power k false (D.tiHeard k ((a.run.node k).hist.take (i + 1))) κ (fun c => if c.val = D.g.refSensor then 1 else 0) := by
  have hbest := (C127_ti_best hrule h0 h1 hβ hv hR h hs ho hb ha).1 hst hn κ
  constructor
  · intro hu
    rw [← estErr_padded (d := 1) hu href (tiHeardLoc_restrict (fun o ho => by
      rw [tiRun_loc out (C119_instance h) (fun k o ho => by cases ho) k o (List.mem_of_mem_take ho), hM])) (started_both hst) κ]
    exact (hbest _).1
  · rw [← estErr_ref]
    exact (hbest _).1

end
end Danse
