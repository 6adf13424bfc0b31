import Verif.Spec.Online
import Verif.Proofs.Given3
import Verif.Props.Frames

/-!
# Helper lemmas for C72 and C73: what a run depends on
-/

set_option linter.unusedSectionVars false

namespace Danse
section
variable {K : Type} [Field K] [StarRing K] [DecidableEq K]

/-! ## Causality -/

theorem localChunk_until {n N : Nat} {e : Int} {x y : List K} (he0 : 0 ≤ e) (he : e ≤ n)
    (h : x.take n = y.take n ∧ n ≤ x.length ∧ n ≤ y.length) : localChunk x N e = localChunk y N e := by
  obtain ⟨hy, h1, h2⟩ := h
  obtain ⟨c, h2, h3, p, h4⟩ := localChunk_ok (y := x) (N := N) he0 (by omega)
  obtain ⟨c', h2', h3', p', h4'⟩ := localChunk_ok (y := y) (N := N) he0 (by omega)
  have hyt : x.take e.toNat = y.take e.toNat := by
    have : e.toNat = min e.toNat n := by omega
    rw [this, ← List.take_take, hy, List.take_take]
  rw [h2, h2']
  have hcc : c = c' := by
    rw [hyt] at h4
    rw [h4] at h4'
    exact (List.append_inj' h4' (by omega)).2
  rw [hcc]

theorem mapM_until {β : Type} {n : Nat} {a b : List (List K)} (h : SameUntil n a b)
    {F : List K → Except PyErr β}
    (hF : ∀ x y : List K, x.take n = y.take n ∧ n ≤ x.length ∧ n ≤ y.length → F x = F y) :
    a.mapM F = b.mapM F := by
  unfold SameUntil at h
  induction h with
  | nil => rfl
  | cons hx _ ih => simp only [List.mapM_cons, hF _ _ hx, ih]

variable {g : GivenCfg K} {y y' : Nat → List (List K)} {s : GivenSt K} {t : ℚ} {k n : Nat}

theorem bcFrames_until (h : SameUntil n (y k) (y' k)) (h0 : 0 ≤ ⌊t * g.fs k⌋) (h1 : ⌊t * g.fs k⌋ ≤ n) :
    ((y k).mapM fun ch => chunkForBroadcast ch t (g.fs k) g.N) =
      (y' k).mapM fun ch => chunkForBroadcast ch t (g.fs k) g.N :=
  mapM_until h fun _ _ hx => localChunk_until h0 h1 hx

theorem upFrames_until (h : SameUntil n (y k) (y' k)) (hN : g.Ns ≤ g.N)
    (h0 : 0 ≤ ⌊t * g.fs k⌋) (hw : g.bc = .whole → (g.N : ℤ) - g.Ns ≤ ⌊t * g.fs k⌋)
    (h1 : ⌊t * g.fs k⌋ ≤ n) :
    ((y k).mapM fun ch => chunkForUpdate ch t (g.fs k) g.bc.name g.N g.Ns) =
      (y' k).mapM fun ch => chunkForUpdate ch t (g.fs k) g.bc.name g.N g.Ns := by
  refine mapM_until h fun x z hx => ?_
  unfold chunkForUpdate
  cases hb : g.bc with
  | whole =>
    have := hw hb
    have e1 : ¬ BcType.whole.name = "fewSamples" := by decide
    have e2 : BcType.whole.name = "wholeChunk" := rfl
    rw [if_neg e1, if_pos e2, if_neg e1, if_pos e2]
    exact localChunk_until (by omega) (by omega) hx
  | few L e =>
    have e1 : (BcType.few L e).name = "fewSamples" := rfl
    rw [if_pos e1, if_pos e1]
    exact localChunk_until h0 h1 hx

theorem sameUntil_length (h : SameUntil n (y k) (y' k)) : (y k).length = (y' k).length :=
  List.Forall₂.length_eq h

theorem step_until (ty : EvType) (h : SameUntil n (y k) (y' k)) (hN : g.Ns ≤ g.N)
    (h0 : 0 ≤ ⌊t * g.fs k⌋) (hw : g.bc = .whole → ty = .up → (g.N : ℤ) - g.Ns ≤ ⌊t * g.fs k⌋)
    (h1 : ⌊t * g.fs k⌋ ≤ n) : g.step y s (t, k, ty) = g.step y' s (t, k, ty) := by
  unfold GivenCfg.step
  cases ty with
  | bc => simp only [GivenCfg.broadcast, bcFrames_until h h0 h1, sameUntil_length h]
  | up => simp only [GivenCfg.update, upFrames_until h hN h0 (fun e => hw e rfl) h1, sameUntil_length h]
  | _ => rfl

theorem observe_until (h : SameUntil n (y k) (y' k)) (hN : g.Ns ≤ g.N)
    (h0 : 0 ≤ ⌊t * g.fs k⌋) (hw : g.bc = .whole → (g.N : ℤ) - g.Ns ≤ ⌊t * g.fs k⌋)
    (h1 : ⌊t * g.fs k⌋ ≤ n) : g.observe y s t k = g.observe y' s t k := by
  unfold GivenCfg.observe
  rw [upFrames_until h hN h0 hw h1]

/-- The part of the configuration that does not change during a run. -/
def GivenCfg.fixed (f g : GivenCfg K) : Prop :=
  f = { g with wInt := f.wInt, wExt := f.wExt, wLoc := f.wLoc, rot := f.rot }

theorem record_setRot_fixed (g : GivenCfg K) (k i j : Nat) (r : Rows K) (u : Nat → Nat → K) :
    ((g.record k i r).setRot k j u).fixed g := rfl

theorem adaptStep_fixed {U : Strategy K} {a a' : AdaptSt K} {ev : ℚ × Nat × EvType}
    (h : adaptStep U y a ev = .ok a') : a'.cfg.fixed a.cfg := by
  unfold adaptStep at h
  split at h
  · obtain ⟨o, _, h⟩ := bind_ok_inv h
    obtain ⟨s, _, h⟩ := bind_ok_inv h
    injection h with h
    subst h
    rfl
  · obtain ⟨s, _, h⟩ := bind_ok_inv h
    injection h with h
    subst h
    rfl

theorem GivenCfg.fixed.trans {e f g : GivenCfg K} (h1 : e.fixed f) (h2 : f.fixed g) : e.fixed g := by
  unfold GivenCfg.fixed at *
  rw [h2] at h1
  exact h1

theorem adaptRun_until (U : Strategy K) {ns : Nat → Nat} (evs : List (ℚ × Nat × EvType)) :
    ∀ (a : AdaptSt K), (∀ k, SameUntil (ns k) (y k) (y' k)) → a.cfg.Ns ≤ a.cfg.N →
    (∀ ev ∈ evs, 0 ≤ ⌊ev.1 * a.cfg.fs ev.2.1⌋ ∧ ⌊ev.1 * a.cfg.fs ev.2.1⌋ ≤ ns ev.2.1 ∧
      (a.cfg.bc = .whole → ev.2.2 = .up → (a.cfg.N : ℤ) - a.cfg.Ns ≤ ⌊ev.1 * a.cfg.fs ev.2.1⌋)) →
    adaptRun U y a evs = adaptRun U y' a evs := by
  induction evs with
  | nil => intro a _ _ _; rfl
  | cons ev evs ih =>
    intro a hy hN he
    obtain ⟨t, k, ty⟩ := ev
    obtain ⟨h0, h1, hw⟩ := he _ List.mem_cons_self
    have hstep : adaptStep U y a (t, k, ty) = adaptStep U y' a (t, k, ty) := by
      unfold adaptStep
      cases ty with
      | up =>
        simp only at h0 h1 hw ⊢
        rw [observe_until (hy k) hN h0 (fun e => hw e trivial) h1]
        congr 1
        funext o
        have hst : ∀ g : GivenCfg K, g.fixed a.cfg → g.step y a.st (t, k, .up) = g.step y' a.st (t, k, .up) := by
          intro g hg
          have e1 : g.fs = a.cfg.fs := by rw [hg]
          have e2 : g.bc = a.cfg.bc := by rw [hg]
          have e3 : g.N = a.cfg.N := by rw [hg]
          have e4 : g.Ns = a.cfg.Ns := by rw [hg]
          exact step_until .up (hy k) (by rw [e3, e4]; exact hN) (by rw [e1]; exact h0)
            (fun e _ => by rw [e1, e3, e4]; exact hw (by rw [← e2]; exact e) trivial) (by rw [e1]; exact h1)
        rw [hst _ (record_setRot_fixed _ _ _ _ _ _)]
      | bc =>
        simp only at h0 h1 hw ⊢
        rw [step_until .bc (hy k) hN h0 hw h1]
      | _ => rfl
    unfold adaptRun
    rw [List.foldlM_cons, List.foldlM_cons, hstep]
    cases hs : adaptStep U y' a (t, k, ty) with
    | error e => rfl
    | ok a' =>
      have hf : a'.cfg.fixed a.cfg := adaptStep_fixed hs
      have := ih a' hy (by rw [hf]; exact hN) (by
        intro ev hev
        have := he ev (List.mem_cons_of_mem _ hev)
        rw [hf]
        exact this)
      exact this

end
end Danse
