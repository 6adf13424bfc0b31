import Verif.Proofs.Online3
import Verif.Proofs.Online5

/-!
# Helper lemmas for C72: samples of the output that are no longer written
-/

set_option linter.unusedSectionVars false

namespace Danse
section
variable {K : Type} [Field K] [StarRing K] [DecidableEq K]
variable {y : Nat → List (List K)} {k : Nat}

theorem GivenCfg.fixed.parts {f g : GivenCfg K} (h : f.fixed g) :
    f.bc = g.bc ∧ f.N = g.N ∧ f.Ns = g.Ns ∧ f.fs = g.fs ∧ f.nb = g.nb := by
  unfold GivenCfg.fixed at h
  rw [h]
  exact ⟨rfl, rfl, rfl, rfl, rfl⟩

/-- One event of a run that computes its filters is an event with given filters. -/
theorem adaptStep_run {U : Strategy K} {a a' : AdaptSt K} {ev : ℚ × Nat × EvType}
    (h : adaptStep U y a ev = .ok a') :
    ∃ g : GivenCfg K, g.fixed a.cfg ∧ a'.cfg = g ∧ g.run y a.st [ev] = .ok a'.st := by
  unfold adaptStep at h
  split at h
  · obtain ⟨o, _, h⟩ := bind_ok_inv h
    obtain ⟨s, hs, h⟩ := bind_ok_inv h
    injection h with h
    subst h
    refine ⟨_, record_setRot_fixed .., rfl, ?_⟩
    unfold GivenCfg.run
    rw [List.foldlM_cons, hs]
    rfl
  · obtain ⟨s, hs, h⟩ := bind_ok_inv h
    injection h with h
    subst h
    refine ⟨a.cfg, rfl, rfl, ?_⟩
    unfold GivenCfg.run
    rw [List.foldlM_cons, hs]
    rfl

theorem adaptRun_before {U : Strategy K} {n : Nat} (evs : List (ℚ × Nat × EvType)) :
    ∀ (a a' : AdaptSt K), a.cfg.Ns ≤ a.cfg.N →
    (∀ e ∈ frameEnds a.cfg.bc a.cfg.N a.cfg.Ns (a.cfg.fs k) k evs, (n : Int) ≤ max (e - a.cfg.N) 0) →
    adaptRun U y a evs = .ok a' →
    (∀ j < n, (a'.st.d k)[j]? = (a.st.d k)[j]?) ∧ ∀ j < n, (a'.st.dLoc k)[j]? = (a.st.dLoc k)[j]? := by
  induction evs with
  | nil =>
    intro a a' _ _ h
    injection h with h
    subst h
    exact ⟨fun _ _ => rfl, fun _ _ => rfl⟩
  | cons ev evs ih =>
    intro a a' hNs hE h
    unfold adaptRun at h
    rw [List.foldlM_cons] at h
    obtain ⟨a1, h1, h⟩ := bind_ok_inv h
    obtain ⟨g, hg, e1, hr⟩ := adaptStep_run h1
    obtain ⟨p1, p2, p3, p4, _⟩ := hg.parts
    have hsplit : frameEnds a.cfg.bc a.cfg.N a.cfg.Ns (a.cfg.fs k) k (ev :: evs) =
        frameEnds a.cfg.bc a.cfg.N a.cfg.Ns (a.cfg.fs k) k [ev] ++
          frameEnds a.cfg.bc a.cfg.N a.cfg.Ns (a.cfg.fs k) k evs := by
      unfold frameEnds
      rw [← List.filterMap_append]
      rfl
    rw [hsplit] at hE
    have hb := run_before (g := g) (y := y) (k := k) (n := n) (by rw [p2, p3]; exact hNs) [ev] a.st a1.st
      (by rw [p1, p2, p3, p4]; exact fun e he => hE e (List.mem_append_left _ he)) hr
    have ht := ih a1 a' (by rw [e1, p2, p3]; exact hNs)
      (by rw [e1, p1, p2, p3, p4]; exact fun e he => hE e (List.mem_append_right _ he)) h
    exact ⟨fun j hj => (ht.1 j hj).trans (hb.1.2 j hj), fun j hj => (ht.2 j hj).trans (hb.2.2 j hj)⟩

end
end Danse
