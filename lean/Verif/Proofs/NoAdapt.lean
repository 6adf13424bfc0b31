import Verif.Spec.NoAdapt
import Verif.Proofs.Dead
import Verif.Proofs.Danse4

/-! # Filters of idle nodes -/

set_option linter.unusedSectionVars false

namespace Danse
section
variable {K : Type} [Field K] [StarRing K] [DecidableEq K] {D : DanseCfg K} {evs : List (ℚ × Nat × EvType)}

theorem idle_not_started {k m : Nat} (hid : D.Idle evs k m) (hb : ¬ D.bypassAll = true)
    {l r : List (UpEv (Fin D.nb) (Fin m) K ℚ)} (hl : l <+: r)
    (hv : r.map (·.vad) = (List.range (evUps evs k)).map (D.vad k)) (ht : r.map (·.t) = upTimes evs k) :
    ¬ D.Started k l := by
  rintro ⟨l1, e, hp, h1, c1, c2, -⟩
  have hpr : l1 ++ [e] <+: r := hp.trans hl
  rcases hid with h | ⟨b, hc⟩ | h
  · exact hb h
  · have hle : (framesWith b (l1 ++ [e])).length ≤ m := by
      refine le_trans ?_ hc
      rw [← hv, framesWith_countP]
      obtain ⟨s, rfl⟩ := hpr
      simp only [List.map_append, List.countP_append]
      omega
    rw [Fintype.card_fin] at c1 c2
    cases b <;> omega
  · have he : e ∈ r := hpr.subset (by simp)
    have := h e.t (by rw [← ht]; exact List.mem_map_of_mem he)
    exact absurd h1 (not_le.mpr this)

/-- As long as a node is idle its rows are the initial ones. -/
theorem idle_rows {m k n : Nat} {l : Nat → List (UpEv (Fin D.nb) (Fin m) K ℚ)} {w w0 : Nat → List (List K)}
    (hn : ∀ i < n, D.bypassAll = true ∨ ¬ D.Started k (l i)) (hc : ∀ j, w0 j = w0 0) (h0 : w 0 = w0 0)
    (hr : ∀ i < n, D.RowOk k (l i) (D.bypass k i) (w i) (w0 (i + 1)) (w (i + 1))) :
    ∀ i ≤ n, D.SameFilter m (w i) (w0 0) := by
  intro i
  induction i with
  | zero => intro _ κ c; rw [h0]
  | succ i ih =>
    intro hi κ c
    obtain ⟨-, r1, r2, -⟩ := hr i (by omega)
    cases hb : D.bypass k i with
    | true => rw [r1 hb κ c, ih (by omega) κ c]
    | false => rw [r2 hb (hn i (by omega)) κ c, hc]

theorem row_of_coef {m B : Nat} {w w' : List (List K)} (h1 : w.length = m ∧ ∀ ch ∈ w, ch.length = B)
    (h2 : w'.length = m ∧ ∀ ch ∈ w', ch.length = B) (h : ∀ (κ : Fin B) (c : Fin m), coef w κ c = coef w' κ c) : w = w' := by
  apply List.ext_getElem (by rw [h1.1, h2.1])
  intro c hc hc'
  apply at0_ext (by rw [h1.2 _ (List.getElem_mem _), h2.2 _ (List.getElem_mem _)])
  intro κ hκ
  rw [h1.2 _ (List.getElem_mem _)] at hκ
  have := h ⟨κ, hκ⟩ ⟨c, by rw [h1.1] at hc; exact hc⟩
  unfold coef at this
  simpa [List.getD_eq_getElem?_getD, hc, hc'] using this

end
end Danse
