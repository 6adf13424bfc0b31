import Verif.Proofs.DanseCentr7
import Verif.Proofs.Total5

/-!
# Helper lemmas for C131: asking for the centralised estimates does not stop a run
-/

set_option linter.unusedSectionVars false

namespace Danse
section
variable {C : CDanseCfg ℂ} {k : Nat}
open scoped ComplexOrder

/-- Every centralised row is computed. -/
theorem kindC_total {β : ℝ} (h0 : 0 < β) (h1 : β ≤ 1) (hβ : C.D.beta k = (β : ℂ))
    (hrule : ∀ Ryy Rnn, Ryy.PosDef → Rnn.PosDef → ∃ w, C.D.rule C.total Ryy Rnn (C.refIdx k) = .ok w)
    (hv : ∀ m Rnn Ryy, C.D.valid m Rnn Ryy = true → ∀ κ, (Rnn κ).det ≠ 0 ∧ (Ryy κ).det ≠ 0)
    (hsv : C.SoundVad k) (hR : C.D.use1st = true ∨ ∀ m κ, (C.D.R0 k m κ).PosSemidef) (h : List (CObs ℂ)) :
    ∀ j, ∃ w, (nodeRun2 (C.kindC k) (C.D.kind0 k C.total (C.wC0 k)) (C.withOwn k (C.heardC k h))).w j = .ok w := by
  induction h using List.reverseRecOn with
  | nil => intro j; exact ⟨_, rfl⟩
  | append_singleton h o ih =>
    intro j
    have hst := kindC_started hsv (h ++ [o])
    have hscm := kindC_scm hsv (h ++ [o])
    have key := nodeRun2_row (C.kindC k) (C.D.kind0 k C.total (C.wC0 k)) rfl (C.withOwn k (C.heardC k h))
      (⟨fun κ c => coef (o.yC.map (analysis C.D.g.ζ C.D.g.N C.D.g.c C.D.g.h)) κ c *
          C.rotC k ((h ++ [o]).map fun o => (o.t, o.flags)) c κ,
        C.cvad h.length, o.t, C.D.bypass k h.length⟩, C.D.vad k (C.heardC k h).length)
    rw [← withOwn_snoc, ← heardC_snoc] at key
    obtain ⟨r1, r2⟩ := key
    by_cases hj : j = (C.withOwn k (C.heardC k h)).length + 1
    · subst hj
      rw [r1]
      split
      · exact ih _
      · split
        · rename_i hs
          rw [hscm.1, hscm.2]
          apply seqBins_total
          intro κ
          have := startedC_posDef h0 h1 hβ hv hsv hR (hst.1 hs.2) κ
          exact hrule _ _ (this true) (this false)
        · exact ih _
    · rw [r2 j hj]; exact ih j

end

section
variable {K : Type} [Field K] [StarRing K] [DecidableEq K] {C : CDanseCfg K} {k : Nat}

theorem cnodeUpdate_total {h : List (CObs K)} {s : CNode C.D.nb C.total (C.D.dim k) K} (hi : CNodeInv C k h s)
    (hC : C.centr = true → ∀ h j, ∃ w, (nodeRun2 (C.kindC k) (C.D.kind0 k C.total (C.wC0 k))
      (C.withOwn k (C.heardC k h))).w j = .ok w)
    (hS : C.ssbc = true → ∀ l j, ∃ w, (nodeRun (C.D.kind k (C.D.dim k)) (C.D.kind0 k (C.D.dim k) (C.wS0 k)) l).w j = .ok w)
    {o : CObs K} (ho : C.ssbc = true → o.yS.length = C.D.dim k) :
    ∃ (s' : CNode C.D.nb C.total (C.D.dim k) K) (wC : Frame (Fin C.D.nb) (Fin C.total) K) (wS : Frame (Fin C.D.nb) (Fin (C.D.dim k)) K),
      C.nodeUpdate k s o = .ok (s', frameRow wC, frameRow wS) := by
  have hl : s.times.length = h.length := by rw [hi.times, List.length_map]
  unfold CDanseCfg.nodeUpdate
  simp only
  have hlen : ¬ (C.ssbc && o.yS.length != C.D.dim k) = true := by
    intro hc
    rw [Bool.and_eq_true] at hc
    have := ho hc.1
    simp [this] at hc
  rw [if_neg hlen]
  generalize hcen : (if C.centr = true then nodeStep2 (C.kindC k) s.centr
    (fun (κ : Fin C.D.nb) (c : Fin C.total) => C.D.spectra C.total o.yC κ c * C.rotC k (s.times ++ [(o.t, o.flags)]) ↑c ↑κ)
    (C.D.vad k s.times.length) (C.cvad s.times.length) o.t (C.D.bypass k s.times.length) else s.centr) = sc
  generalize hssb : (if C.ssbc = true then nodeStep (C.D.kind k (C.D.dim k)) s.ssbc (C.D.spectra (C.D.dim k) o.yS)
    (C.D.vad k s.times.length) o.t (C.D.bypass k s.times.length) else s.ssbc) = ss
  have e1 : ∃ w, sc.w (s.times.length + 1) = .ok w := by
    rw [← hcen]
    by_cases hc : C.centr = true
    · rw [if_pos hc]
      obtain ⟨w, hw⟩ := hC hc (h ++ [o]) (s.times.length + 1)
      rw [heardC_snoc, withOwn_snoc, nodeRun2_snoc, ← hi.centr hc, heardC_length] at hw
      rw [hl] at hw ⊢
      rw [hi.times]
      rw [List.map_append] at hw
      exact ⟨w, hw⟩
    · rw [if_neg hc, hi.offC (by simpa using hc)]
      exact ⟨_, rfl⟩
  have e2 : ∃ w, ss.w (s.times.length + 1) = .ok w := by
    rw [← hssb]
    by_cases hc : C.ssbc = true
    · rw [if_pos hc]
      obtain ⟨w, hw⟩ := hS hc (C.heardS k (h ++ [o])) (s.times.length + 1)
      rw [heardS_snoc, nodeRun_snoc, ← hi.ssbc hc] at hw
      rw [hl] at hw ⊢
      exact ⟨w, hw⟩
    · rw [if_neg hc, hi.offS (by simpa using hc)]
      exact ⟨_, rfl⟩
  obtain ⟨w, hw⟩ := e1
  obtain ⟨v, hv⟩ := e2
  rw [hw, hv]
  exact ⟨_, w, v, rfl⟩

end

section
variable {K : Type} [Field K] [StarRing K] [DecidableEq K] {c : CentrCfg K} {y : Nat → List (List K)}

theorem processCentr_total {evs : List (ℚ × Nat × EvType)} {s : CentrSt K} {k : Nat} (hi : CInv c y evs s)
    (hk : k < c.n) (hb : 0 < evUps evs k → ∀ q < c.n, q ≠ k → ∀ m < (y q).length,
      (sent (sinceUp k (rawOps c.g y evs m)) q).length ≤ c.g.N) (hit : s.base.net.it k = evUps evs k) :
    ∃ p, processCentr c.n c.g.N c.g.Ns (fun q => (y q).length) s k = .ok p := by
  unfold processCentr
  simp only
  rw [if_pos ?_]
  · exact ⟨_, rfl⟩
  · rw [List.all_eq_true]
    intro x hx
    obtain ⟨q, hq, rfl⟩ := List.mem_map.mp hx
    obtain ⟨hqn, hqk⟩ := mem_centrSlots.mp hq
    rw [hi.buf k hk q hqn hqk, frameCentr_eq]
    simp only [List.all_map, List.all_eq_true, List.mem_range, Function.comp_apply, decide_eq_true_eq]
    intro m hm
    by_cases h0 : s.base.net.it k = 0
    · rw [decide_eq_true h0]
      rw [frameOf_first]; exact lastN_pad_length _ _
    · rw [decide_eq_false h0]
      have hle := hb (by omega) q hqn hqk m hm
      have hycol : (s.yc k).getD ((centrCols ((List.range c.n).map fun q => (y q).length) k q).1 + m) [] =
          frameSpec c.g.N (sent (untilUp k (rawOps c.g y evs m)) q) := by
        rw [hi.yc k hk (by omega), centrCols_start hqn hqk,
          flatMap_block_getD (M := fun q => (y q).length) (by intro q; simp) hqn hqk hm]
        simp [hm]
      rw [hycol, frameSpec, frameOf_next hle]
      exact lastN_pad_length _ _

theorem fillCentr_total {n : Nat} {buf : Nat → Nat → List (List K)} {k : Nat} {raw : List (List K)} {m : Int} (hm : m ≠ 0) :
    ∃ b, fillCentr n buf k raw m = .ok b := by
  unfold fillCentr
  generalize List.range n = l
  induction l generalizing buf with
  | nil => exact ⟨_, rfl⟩
  | cons q l ih =>
    rw [List.foldlM_cons]
    by_cases hq : q = k
    · rw [if_pos hq]
      exact ih
    · rw [if_neg hq, if_neg hm]
      exact ih

end
end Danse
