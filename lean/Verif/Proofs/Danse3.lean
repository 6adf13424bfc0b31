import Verif.Proofs.Danse2
import Verif.Proofs.Mwf
import Mathlib.Analysis.Matrix.Order

/-!
# Helper lemmas for C117: the covariance matrices stay positive definite
-/

set_option linter.unusedSectionVars false

namespace Danse
section
variable {F n K : Type} [Fintype n] [Field K] [StarRing K]

theorem scmOf_snoc (u : Bool) (β : K) (R0 : Cov F n K) (l : List (Frame F n K)) (y : Frame F n K)
    (h : u = false ∨ l ≠ []) (f : F) :
    scmOf u β R0 (l ++ [y]) f = β • scmOf u β R0 l f + (1 - β) • rankOne y f := by
  cases l with
  | nil =>
    have hu : u = false := h.resolve_right (by simp)
    subst hu
    change expWeighted β R0 ([] ++ [y]) f = β • R0 f + _
    rw [expWeighted_snoc, expWeighted_nil]
  | cons a r =>
    cases u with
    | true =>
      change expWeighted β (rankOne a) (r ++ [y]) f = β • expWeighted β (rankOne a) r f + _
      rw [expWeighted_snoc]
    | false =>
      change expWeighted β R0 ((a :: r) ++ [y]) f = β • expWeighted β R0 (a :: r) f + _
      rw [expWeighted_snoc]

end

section
variable {F n : Type} [Fintype n] [DecidableEq n]
open scoped ComplexOrder

theorem scmOf_psd (u : Bool) {b : ℝ} (h0 : 0 ≤ b) (h1 : b ≤ 1) {R0 : Cov F n ℂ} (f : F)
    (l : List (Frame F n ℂ)) (h : (R0 f).PosSemidef ∨ u = true ∧ l ≠ []) :
    (scmOf u (b : ℂ) R0 l f).PosSemidef := by
  cases l with
  | nil => exact h.resolve_right (by simp)
  | cons a r =>
    cases u with
    | true => exact expWeighted_posSemidef h0 h1 (rankOne_posSemidef a f) r
    | false => exact expWeighted_posSemidef h0 h1 (h.resolve_right (by simp)) (a :: r)

theorem posDef_blend {b : ℝ} (h0 : 0 < b) (h1 : b ≤ 1) {A B : Matrix n n ℂ}
    (hA : A.PosDef) (hB : B.PosSemidef) :
    ((b : ℂ) • A + (1 - (b : ℂ)) • B).PosDef := by
  have e : (1 - (b : ℂ)) = ((1 - b : ℝ) : ℂ) := by push_cast; rfl
  apply Matrix.PosDef.add_posSemidef
  · exact hA.smul (by rw [Complex.zero_lt_real]; exact h0)
  · apply hB.smul
    rw [e, Complex.zero_le_real]; linarith

variable {T : Type} [Preorder T] [DecidableLE T]

/-- Once updating has started, both covariance matrices are positive definite. -/
theorem started_posDef {u : Bool} {b : ℝ} (h0 : 0 < b) (h1 : b ≤ 1) {R0 : Cov F n ℂ}
    {valid : Cov F n ℂ → Cov F n ℂ → Bool} {start : T} (f : F)
    (hv : ∀ Rnn Ryy, valid Rnn Ryy = true → (Rnn f).det ≠ 0 ∧ (Ryy f).det ≠ 0)
    (hR : u = true ∨ (R0 f).PosSemidef)
    (l : List (UpEv F n ℂ T)) (hs : StartedBy u (b : ℂ) R0 valid start l) (v : Bool) :
    (scmOf u (b : ℂ) R0 (framesWith v l) f).PosDef := by
  obtain ⟨l1, e, ⟨l2, rfl⟩, -, hc, hc', hvv⟩ := hs
  have hne : framesWith v (l1 ++ [e]) ≠ [] := by
    intro h
    cases v <;> simp_all
  have base : (scmOf u (b : ℂ) R0 (framesWith v (l1 ++ [e])) f).PosDef := by
    rw [Matrix.PosSemidef.posDef_iff_det_ne_zero]
    · cases v
      · exact (hv _ _ hvv).1
      · exact (hv _ _ hvv).2
    · apply scmOf_psd u h0.le h1
      rcases hR with h | h
      · exact .inr ⟨h, hne⟩
      · exact .inl h
  clear hvv hc hc'
  induction l2 using List.reverseRecOn with
  | nil => rwa [List.append_nil]
  | append_singleton l2 e2 ih =>
    rw [← List.append_assoc, framesWith_snoc]
    split
    · rw [scmOf_snoc]
      · exact posDef_blend h0 h1 ih (rankOne_posSemidef _ f)
      · right
        intro h
        have := framesWith_mono v (l1 ++ [e]) l2
        rw [h] at this
        simp only [List.length_nil, Nat.le_zero_eq, List.length_eq_zero_iff] at this
        exact hne this
    · rw [List.append_nil]; exact ih

end

section
open scoped ComplexOrder
variable {D : DanseCfg ℂ} {k : Nat}

/-- Every row is computed. -/
theorem kind_total {m : Nat} {b : ℝ} (h0 : 0 < b) (h1 : b ≤ 1) (hb : D.beta k = (b : ℂ))
    (hrule : ∀ Ryy Rnn, Ryy.PosDef → Rnn.PosDef → ∃ w, D.rule m Ryy Rnn D.g.refSensor = .ok w)
    (hv : ∀ Rnn Ryy, D.valid m Rnn Ryy = true → ∀ κ, (Rnn κ).det ≠ 0 ∧ (Ryy κ).det ≠ 0)
    (hR : D.use1st = true ∨ ∀ κ, (D.R0 k m κ).PosSemidef) (w0 : Nat → List (List ℂ))
    (l : List (UpEv (Fin D.nb) (Fin m) ℂ ℚ)) :
    ∀ j, ∃ w, (nodeRun (D.kind k m) (D.kind0 k m w0) l).w j = .ok w := by
  induction l using List.reverseRecOn with
  | nil => intro j; exact ⟨_, rfl⟩
  | append_singleton l e ih =>
    intro j
    obtain ⟨r1, r2⟩ := nodeRun_row (D.kind k m) (D.kind0 k m w0) rfl l e
    by_cases hj : j = l.length + 1
    · subst hj
      rw [r1]
      split
      · exact ih _
      · split
        · rename_i h
          have hst := (nodeRun_startedBy (D.kind k m) rfl (s := D.kind0 k m w0) rfl rfl rfl rfl (l ++ [e])).1 h.2
          have hscm := nodeRun_scmOf (D.kind k m) (s := D.kind0 k m w0) rfl rfl (l ++ [e])
          rw [hscm.1, hscm.2]
          apply seqBins_total
          intro κ
          have hst' : StartedBy D.use1st (b : ℂ) (D.R0 k m) (D.valid m) D.startAfter (l ++ [e]) := by
            rw [← hb]; exact hst
          have := started_posDef h0 h1 κ (fun Rnn Ryy h => hv Rnn Ryy h κ)
            (hR.imp_right fun h => h κ) (l ++ [e]) hst'
          rw [← hb] at this
          exact hrule _ _ (this true) (this false)
        · exact ih _
    · rw [r2 j hj]; exact ih j

theorem nodeUpdate_total {s : DNode D.nb (D.dim k) (D.M k) ℂ} {o : Obs ℂ} {w wl}
    (hw : (nodeStep (D.kind k (D.dim k)) s.danse
      (fun κ c => coef ((o.loc ++ o.z).map (analysis D.g.ζ D.g.N D.g.c D.g.h)) κ c *
        D.rot k (s.times ++ [(o.t, o.flags)]) c κ)
      (D.vad k s.danse.i) o.t (D.bypass k s.danse.i)).w (s.danse.i + 1) = .ok w)
    (hwl : (nodeStep (D.kind k (D.M k)) s.loc
      (fun κ c => coef (o.loc.map (analysis D.g.ζ D.g.N D.g.c D.g.h)) κ c)
      (D.vad k s.danse.i) o.t (D.bypass k s.danse.i)).w (s.danse.i + 1) = .ok wl) :
    ∃ p, D.nodeUpdate k s o = .ok p := by
  unfold DanseCfg.nodeUpdate
  change ∃ p, (Bind.bind ((nodeStep (D.kind k (D.dim k)) s.danse
      (fun κ c => coef ((o.loc ++ o.z).map (analysis D.g.ζ D.g.N D.g.c D.g.h)) κ c *
        D.rot k (s.times ++ [(o.t, o.flags)]) c κ)
      (D.vad k s.danse.i) o.t (D.bypass k s.danse.i)).w (s.danse.i + 1)) fun w => _) = _
  rw [hw]
  change ∃ p, (Bind.bind ((nodeStep (D.kind k (D.M k)) s.loc
      (fun κ c => coef (o.loc.map (analysis D.g.ζ D.g.N D.g.c D.g.h)) κ c)
      (D.vad k s.danse.i) o.t (D.bypass k s.danse.i)).w (s.danse.i + 1)) fun w => _) = _
  rw [hwl]
  exact ⟨_, rfl⟩

/-- The updates of a node never raise. -/
theorem nodeFold_total {b : ℝ} (h0 : 0 < b) (h1 : b ≤ 1) (hb : D.beta k = (b : ℂ))
    (hrule : ∀ m ≥ D.M k, ∀ Ryy Rnn, Ryy.PosDef → Rnn.PosDef →
      ∃ w, D.rule m Ryy Rnn D.g.refSensor = .ok w)
    (hv : ∀ m Rnn Ryy, D.valid m Rnn Ryy = true → ∀ κ, (Rnn κ).det ≠ 0 ∧ (Ryy κ).det ≠ 0)
    (hR : D.use1st = true ∨ ∀ m κ, (D.R0 k m κ).PosSemidef) (h : List (Obs ℂ)) :
    ∃ p, D.nodeFold k h = .ok p := by
  induction h using List.reverseRecOn with
  | nil => exact ⟨_, rfl⟩
  | append_singleton h o ih =>
    obtain ⟨q, hq⟩ := ih
    have iq := nodeFold_inv _ hq
    rw [nodeFold_snoc, hq]
    have hi : q.1.danse.i = h.length := by
      rw [iq.danse, nodeRun_i, heard_length]; exact Nat.zero_add _
    obtain ⟨w, hw⟩ := kind_total h0 h1 hb (hrule (D.dim k) (by unfold DanseCfg.dim; omega))
      (hv _) (hR.imp_right fun h => h _) (D.g.wInt k) (D.heard k (h ++ [o])) (h.length + 1)
    obtain ⟨wl, hwl⟩ := kind_total h0 h1 hb (hrule _ le_rfl)
      (hv _) (hR.imp_right fun h => h _) (D.g.wLoc k) (D.heardLoc k (h ++ [o])) (h.length + 1)
    have e : (h ++ [o]).map (fun o => (o.t, o.flags)) =
        h.map (fun o => (o.t, o.flags)) ++ [(o.t, o.flags)] := List.map_append
    rw [heard_snoc, nodeRun_snoc, ← iq.danse, e, ← iq.times, ← hi] at hw
    rw [heardLoc_snoc, nodeRun_snoc, ← iq.loc, ← hi] at hwl
    exact nodeUpdate_total hw hwl

end
end Danse
