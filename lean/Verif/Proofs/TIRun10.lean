import Verif.Proofs.TIRun9
import Verif.Proofs.Sched3
import Verif.Proofs.Online7
import Verif.Props.Signals

/-!
# Helper lemmas: what the nodes hold of each other in a TI-DANSE run
-/

set_option linter.unusedSectionVars false

namespace Danse

theorem everySep_subset {sep : Nat} {fs : ℚ} {a a' b : Nat} (h : a ≤ a') :
    ∀ t ∈ everySep sep fs a' b, t ∈ everySep sep fs a b := by
  intro t ht
  obtain ⟨j, hj, rfl⟩ := List.mem_map.mp ht
  have hj' := List.mem_range.mp hj
  refine List.mem_map.mpr ⟨a' - a + j, List.mem_range.mpr (by omega), ?_⟩
  rw [show a + (a' - a + j) = a' + j by omega]

theorem ups_isSome {i : Instant ℚ} {k : Nat} :
    ((workOf i).ups k).isSome = true ↔ ∃ e ∈ i.evs, e.node = k ∧ e.ty = .up := by
  unfold workOf
  simp only [Option.isSome_map, List.find?_isSome, decide_eq_true_eq]
  constructor
  · rintro ⟨e, he, h1, h2⟩; exact ⟨e, he, h2, h1⟩
  · rintro ⟨e, he, h1, h2⟩; exact ⟨e, he, h2, h1⟩

/-- The work of a schedule in which all updates are at the times of exchanges. -/
theorem built_sync_works {n : Nat} {a : EvArgs ℚ} {ex u : List ℚ} {out : List (Instant ℚ)} (h : TITimes n a ex)
    (hb : buildEvents a = .ok out) (hcov : ∀ o ∈ a.orderings, CoversNodes n o) (hu : a.up_t = List.replicate n u)
    (hue : ∀ t ∈ u, t ∈ ex) (hex : ex.Pairwise (· < ·)) :
    (worksOf out).map (·.t) = ex ∧ ∀ w ∈ worksOf out, w.exchange = true ∧
      ∀ k, (w.ups k).isSome = true ↔ k < n ∧ w.t ∈ u := by
  have hcov' : ∀ o ∈ a.orderings, CoversNodes a.up_t.length o := by rw [h.nodes]; exact hcov
  obtain ⟨hs, _, _, hd⟩ := C01_exactly_once hb fun _ => hcov'
  have hev : ∀ i ∈ out, ∀ k ty, (∃ e ∈ i.evs, e.node = k ∧ e.ty = ty) ↔ Scheduled a a.tiFlag i.t k ty := by
    intro i hi k ty
    rw [← hd, mem_delivered]
    constructor
    · intro he; exact ⟨i, hi, rfl, he⟩
    · rintro ⟨j, hj, ht, he⟩
      rw [instant_unique hs hi hj ht.symm]
      exact he
  have hup : ∀ t k, Scheduled a a.tiFlag t k .up ↔ k < n ∧ t ∈ u := by
    intro t k
    unfold Scheduled
    rw [h.nodes]
    constructor
    · rintro ⟨hk, ts, hts, ht⟩
      rw [hu] at hts
      rw [List.eq_of_mem_replicate (List.mem_of_getElem? hts)] at ht
      exact ⟨hk, ht⟩
    · rintro ⟨hk, ht⟩
      refine ⟨hk, u, ?_, ht⟩
      rw [hu, List.getElem?_eq_getElem (by simpa using hk), List.getElem_replicate]
  have hmem : ∀ i ∈ out, (i.evs.any fun e => decide (e.ty ≠ .tr)) = true ↔ i.t ∈ ex := by
    intro i hi
    rw [List.any_eq_true]
    constructor
    · rintro ⟨e, he, hty⟩
      simp only [ne_eq, decide_eq_true_eq] at hty
      have := (hev i hi e.node e.ty).mp ⟨e, he, rfl, rfl⟩
      cases hte : e.ty with
      | tr => exact absurd hte hty
      | up => rw [hte, hup] at this; exact hue _ this.2
      | fu => rw [hte, scheduled_ex h (by simp)] at this; exact this.2
      | bc => rw [hte, scheduled_ex h (by simp)] at this; exact this.2
      | re => rw [hte, scheduled_ex h (by simp)] at this; exact this.2
    · intro ht
      obtain ⟨e, he, _, h2⟩ := (hev i hi 0 .fu).mpr ((scheduled_ex h (by simp)).mpr ⟨h.pos, ht⟩)
      exact ⟨e, he, by simp [h2]⟩
  constructor
  · unfold worksOf
    rw [List.map_map]
    have e : (Work.t ∘ workOf) = fun i : Instant ℚ => i.t := rfl
    rw [e]
    refine sorted_ext ?_ hex ?_
    · exact hs.sublist (List.filter_sublist.map _)
    · intro t
      rw [List.mem_map]
      constructor
      · rintro ⟨i, hi, rfl⟩
        obtain ⟨hi, hc⟩ := List.mem_filter.mp hi
        exact (hmem i hi).mp hc
      · intro ht
        have := (hd t 0 .fu).mpr ((scheduled_ex h (by simp)).mpr ⟨h.pos, ht⟩)
        obtain ⟨i, hi, hit, _⟩ := mem_delivered.mp this
        exact ⟨i, List.mem_filter.mpr ⟨hi, (hmem i hi).mpr (by rw [hit]; exact ht)⟩, hit⟩
  · intro w hw
    obtain ⟨i, hi, rfl⟩ := List.mem_map.mp hw
    obtain ⟨hi, hc⟩ := List.mem_filter.mp hi
    have ht := (hmem i hi).mp hc
    constructor
    · obtain ⟨e, he, _, h2⟩ := (hev i hi 0 .fu).mpr ((scheduled_ex h (by simp)).mpr ⟨h.pos, ht⟩)
      exact List.any_eq_true.mpr ⟨e, he, by simpa using h2⟩
    · intro k
      rw [ups_isSome, hev i hi, hup]
      rfl

section
variable {n : Nat} {K : Type} [Field K] [StarRing K] [DecidableEq K] {g : GivenCfg K} {U : TIStrategy n K}
  {y : Fin n → List (List K)}

/-- Induction along a direct run. -/
theorem directRun_inv (P : Nat → TIView n K → Prop) {ws : List Work} : ∀ {j : Nat} {a b : TIView n K},
    P j a → (∀ i w a m, ws[i]? = some w → P (j + i) a → DirectStep g U y w a m → P (j + i + 1) m) →
    DirectRun g U y a ws b → P (j + ws.length) b := by
  induction ws with
  | nil =>
    intro j a b h0 _ h
    cases h
    exact h0
  | cons w ws ih =>
    intro j a b h0 hstep h
    cases h with
    | cons h1 h2 =>
      have h3 := hstep 0 w _ _ rfl (by simpa using h0) h1
      have := ih (j := j + 1) (by simpa using h3) (fun i w a m hi hp hd => by
        have := hstep (i + 1) w a m (by simpa using hi) (by rwa [show j + (i + 1) = j + 1 + i by omega]) hd
        rwa [show j + (i + 1) + 1 = j + 1 + i + 1 by omega] at this) h2
      rw [List.length_cons, show j + (ws.length + 1) = j + 1 + ws.length by omega]
      exact this

end
end Danse
