import Verif.Proofs.Danse

/-!
# Helper lemmas for C117: rows of the filters, a DANSE run as an adaptive run
-/

set_option linter.unusedSectionVars false

namespace Danse
section
variable {K : Type} [Field K] [StarRing K] [DecidableEq K] {D : DanseCfg K} {k : Nat}

/-- The row written by the last of some events, for one kind of matrices. -/
theorem kind_row {m : Nat} (w0 : Nat → List (List K)) (l : List (UpEv (Fin D.nb) (Fin m) K ℚ))
    (e : UpEv (Fin D.nb) (Fin m) K ℚ) {w : Frame (Fin D.nb) (Fin m) K}
    (hw : (nodeRun (D.kind k m) (D.kind0 k m w0) (l ++ [e])).w (l.length + 1) = .ok w)
    {prev : List (List K)} (hp : e.bypass = true →
      ∃ v, (nodeRun (D.kind k m) (D.kind0 k m w0) l).w l.length = .ok v ∧
        ∀ (κ : Fin D.nb) (c : Fin m), v κ c = coef prev κ c) :
    D.RowOk k (l ++ [e]) e.bypass prev (w0 (l.length + 1)) (frameRow w) := by
  have hst := nodeRun_startedBy (D.kind k m) rfl (s := D.kind0 k m w0) rfl rfl rfl rfl (l ++ [e])
  have hscm := nodeRun_scmOf (D.kind k m) (s := D.kind0 k m w0) rfl rfl (l ++ [e])
  obtain ⟨r1, -⟩ := nodeRun_row (D.kind k m) (D.kind0 k m w0) rfl l e
  rw [hw] at r1
  refine ⟨frameRow_shape w, fun hb κ c => ?_, fun hb hn κ c => ?_, fun hb ha hs κ => ?_⟩
  · rw [if_pos hb] at r1
    obtain ⟨v, hv, hc⟩ := hp hb
    rw [hv] at r1
    injection r1 with r1
    rw [coef_frameRow, r1, hc]
  · rw [if_neg (by simp [hb]), if_neg ?_, nodeRun_unwritten _ _ rfl _ _ (by omega)] at r1
    · injection r1 with r1
      rw [coef_frameRow, r1, rowFrame_apply]
    · rintro ⟨h1, h2⟩
      rcases hn with h | h
      · rw [show (D.kind k m).bypassAll = D.bypassAll from rfl, h] at h1; cases h1
      · exact h (hst.1 h2)
  · rw [if_neg (by simp [hb]), if_pos ⟨ha, hst.2 hs⟩] at r1
    have h1 := seqBins_ok r1.symm κ
    rw [hscm.1, hscm.2] at h1
    have : (fun c : Fin m => coef (frameRow w) κ c) = w κ := by funext c; rw [coef_frameRow]
    unfold DanseCfg.scm
    rw [this]
    exact h1

/-- A DANSE run is a run with the strategy of its nodes, and the nodes are in the state that their
observations lead to. -/
theorem danseRun_adapt {y : Nat → List (List K)} {T : Nat} (evs : List (ℚ × Nat × EvType)) :
    ∀ {a : DanseSt D}, danseRun D y T evs = .ok a →
      adaptRun D.strategy y (.init D.g T D.M) evs = .ok a.run ∧
      ∀ k, ∃ r, D.nodeFold k (a.run.hist k) = .ok (a.node k, r) := by
  induction evs using List.reverseRecOn with
  | nil =>
    intro a h
    injection h with h
    subst h
    exact ⟨rfl, fun k => ⟨_, rfl⟩⟩
  | append_singleton evs ev ih =>
    intro a h
    unfold danseRun at h
    rw [List.foldlM_append] at h
    obtain ⟨a1, h1, h⟩ := bind_ok_inv h
    rw [List.foldlM_cons] at h
    obtain ⟨a2, h2, h⟩ := bind_ok_inv h
    injection h with h
    subst h
    obtain ⟨i1, i2⟩ := ih h1
    unfold adaptRun at i1 ⊢
    rw [List.foldlM_append, i1]
    obtain ⟨t, q, ty⟩ := ev
    have other : ty ≠ .up → adaptStep D.strategy y a1.run (t, q, ty) = .ok a2.run ∧
        ∀ k, ∃ r, D.nodeFold k (a2.run.hist k) = .ok (a2.node k, r) := by
      intro hty
      unfold danseStep at h2
      split at h2
      · rename_i e; exact absurd e hty
      · obtain ⟨s, hs, h2⟩ := bind_ok_inv h2
        injection h2 with h2
        subst h2
        refine ⟨?_, i2⟩
        unfold adaptStep
        split
        · rename_i e; exact absurd e hty
        · rw [hs]; rfl
    have key : adaptStep D.strategy y a1.run (t, q, ty) = .ok a2.run ∧
        ∀ k, ∃ r, D.nodeFold k (a2.run.hist k) = .ok (a2.node k, r) := by
      by_cases hty : ty = .up
      · subst hty
        unfold danseStep at h2
        simp only at h2
        obtain ⟨o, ho, h2⟩ := bind_ok_inv h2
        obtain ⟨r, hr, h2⟩ := bind_ok_inv h2
        obtain ⟨s, hs, h2⟩ := bind_ok_inv h2
        injection h2 with h2
        obtain ⟨r0, hr0⟩ := i2 q
        have hf : D.nodeFold q (a1.run.hist q ++ [o]) = .ok r := by
          rw [nodeFold_snoc, hr0]; exact hr
        have hrows : D.strategy.rows q (a1.run.hist q ++ [o]) = r.2 := by
          unfold DanseCfg.strategy
          simp only [hf]
          rfl
        have hrot : D.strategy.rot q (a1.run.hist q ++ [o]) = D.rot q r.1.times := by
          rw [(nodeFold_inv _ hf).times]; rfl
        constructor
        · unfold adaptStep
          simp only
          rw [ho]
          simp only [bind, Except.bind]
          rw [hrows, hrot, hs]
          simp only
          rw [← h2]
        · intro k
          rw [← h2]
          simp only
          by_cases hk : k = q
          · subst hk
            rw [Function.update_self, Function.update_self]
            exact ⟨r.2, hf⟩
          · rw [Function.update_of_ne hk, Function.update_of_ne hk]
            exact i2 k
      · exact other hty
    refine ⟨?_, key.2⟩
    show List.foldlM (adaptStep D.strategy y) a1.run [(t, q, ty)] = _
    rw [List.foldlM_cons, key.1]
    rfl

/-- Conversely, when the nodes never raise, a run with their strategy is a DANSE run. -/
theorem danseRun_of_adapt {y : Nat → List (List K)} {T : Nat} (H : ∀ k h, ∃ p, D.nodeFold k h = .ok p)
    (evs : List (ℚ × Nat × EvType)) :
    ∀ {b : AdaptSt K}, adaptRun D.strategy y (.init D.g T D.M) evs = .ok b →
      ∃ a, danseRun D y T evs = .ok a ∧ a.run = b := by
  induction evs using List.reverseRecOn with
  | nil =>
    intro b h
    injection h with h
    subst h
    exact ⟨_, rfl, rfl⟩
  | append_singleton evs ev ih =>
    intro b h
    unfold adaptRun at h
    rw [List.foldlM_append] at h
    obtain ⟨b1, h1, h⟩ := bind_ok_inv h
    rw [List.foldlM_cons] at h
    obtain ⟨b2, h2, h⟩ := bind_ok_inv h
    injection h with h
    subst h
    obtain ⟨a1, i1, rfl⟩ := ih h1
    have hn := (danseRun_adapt evs i1).2
    suffices hk : ∃ a, danseStep D y a1 ev = .ok a ∧ a.run = b2 by
      obtain ⟨a, ha, hb⟩ := hk
      refine ⟨a, ?_, hb⟩
      unfold danseRun at i1 ⊢
      rw [List.foldlM_append, i1]
      show List.foldlM (danseStep D y) a1 [ev] = _
      rw [List.foldlM_cons, ha]
      rfl
    obtain ⟨t, q, ty⟩ := ev
    by_cases hty : ty = .up
    · subst hty
      unfold adaptStep at h2
      simp only at h2
      obtain ⟨o, ho, h2⟩ := bind_ok_inv h2
      obtain ⟨s, hs, h2⟩ := bind_ok_inv h2
      injection h2 with h2
      obtain ⟨r0, hr0⟩ := hn q
      obtain ⟨r, hf⟩ := H q (a1.run.hist q ++ [o])
      have hr : D.nodeUpdate q (a1.node q) o = .ok r := by
        have := hf
        rw [nodeFold_snoc, hr0] at this
        exact this
      have hrows : D.strategy.rows q (a1.run.hist q ++ [o]) = r.2 := by
        unfold DanseCfg.strategy
        simp only [hf]
        rfl
      have hrot : D.strategy.rot q (a1.run.hist q ++ [o]) = D.rot q r.1.times := by
        rw [(nodeFold_inv _ hf).times]; rfl
      rw [hrows, hrot] at hs h2
      refine ⟨⟨b2, Function.update a1.node q r.1⟩, ?_, rfl⟩
      unfold danseStep
      simp only
      rw [ho]
      simp only [bind, Except.bind]
      rw [hr]
      simp only
      rw [hs, ← h2]
    · unfold adaptStep at h2
      split at h2
      · rename_i e; exact absurd e hty
      · obtain ⟨s, hs, h2⟩ := bind_ok_inv h2
        injection h2 with h2
        subst h2
        refine ⟨{ a1 with run := { a1.run with st := s } }, ?_, rfl⟩
        unfold danseStep
        split
        · rename_i e; exact absurd e hty
        · rw [hs]; rfl

/-- Rows of a run in terms of the nodes. -/
theorem danseRun_rows {y : Nat → List (List K)} {T : Nat} {evs : List (ℚ × Nat × EvType)} {a : DanseSt D}
    (h : danseRun D y T evs = .ok a) (k i : Nat) (hi : i < evUps evs k) :
    ∃ o, (a.run.hist k).take (i + 1) = (a.run.hist k).take i ++ [o] ∧ ((a.run.hist k).take i).length = i ∧
    ∃ p, D.nodeFold k ((a.run.hist k).take (i + 1)) = .ok p ∧
      a.run.cfg.wInt k (i + 1) = p.2.int ∧ a.run.cfg.wExt k (i + 1) = p.2.ext ∧
      a.run.cfg.wLoc k (i + 1) = p.2.loc ∧
      a.run.cfg.rot k i = D.rot k (((a.run.hist k).take (i + 1)).map fun o => (o.t, o.flags)) := by
  obtain ⟨h1, h2⟩ := danseRun_adapt evs h
  obtain ⟨w, -⟩ := adaptRun_written (fun _ => rfl) evs h1
  have hl := w.len k
  obtain ⟨r, hr⟩ := h2 k
  obtain ⟨p, hp⟩ := nodeFold_prefix (List.take_prefix (i + 1) _) hr
  obtain ⟨r1, r2, r3, r4⟩ := w.rows k i hi
  have hrows : D.strategy.rows k ((a.run.hist k).take (i + 1)) = p.2 := by
    unfold DanseCfg.strategy
    simp only [hp]
    rfl
  rw [hrows] at r1 r2 r3
  refine ⟨(a.run.hist k)[i]'(by omega), ?_, ?_, p, hp, r1, r2, r3, r4⟩
  · rw [List.take_succ_eq_append_getElem (by omega)]
  · rw [List.length_take]; omega

/-- Row `i` of the filters, as stored by the node after `i` updates. -/
theorem danseRun_stored {y : Nat → List (List K)} {T : Nat} {evs : List (ℚ × Nat × EvType)} {a : DanseSt D}
    (h : danseRun D y T evs = .ok a) (k i : Nat) (hi : i ≤ evUps evs k) :
    (∃ w, (nodeRun (D.kind k (D.dim k)) (D.kind0 k (D.dim k) (D.g.wInt k))
        (D.heard k ((a.run.hist k).take i))).w i = .ok w ∧
      ∀ (κ : Fin D.nb) (c : Fin (D.dim k)), w κ c = coef (a.run.cfg.wInt k i) κ c) ∧
    (∃ w, (nodeRun (D.kind k (D.M k)) (D.kind0 k (D.M k) (D.g.wLoc k))
        (D.heardLoc k ((a.run.hist k).take i))).w i = .ok w ∧
      ∀ (κ : Fin D.nb) (c : Fin (D.M k)), w κ c = coef (a.run.cfg.wLoc k i) κ c) ∧
    ∃ p, D.nodeFold k ((a.run.hist k).take i) = .ok p ∧
      ∀ (κ : Fin D.nb) (c : Fin (D.M k)), p.1.ext.ext κ c = coef (a.run.cfg.wExt k i) κ c := by
  obtain ⟨h1, -⟩ := danseRun_adapt evs h
  obtain ⟨w, -⟩ := adaptRun_written (fun _ => rfl) evs h1
  cases i with
  | zero =>
    obtain ⟨e1, e2, e3⟩ := w.old k 0 (.inl rfl)
    rw [e1, e2, e3]
    exact ⟨⟨_, rfl, fun _ _ => rfl⟩, ⟨_, rfl, fun _ _ => rfl⟩, _, rfl, fun _ _ => rfl⟩
  | succ i =>
    obtain ⟨o, ho, hl, p, hp, e1, e2, e3, -⟩ := danseRun_rows h k i (by omega)
    rw [ho] at hp ⊢
    obtain ⟨q, v, vl, -, hv, hvl, -, hr⟩ := nodeFold_rows _ _ hp
    rw [hl] at hv hvl
    rw [e1, e2, e3, hr]
    exact ⟨⟨v, hv, fun κ c => (coef_frameRow v κ c).symm⟩, ⟨vl, hvl, fun κ c => (coef_frameRow vl κ c).symm⟩,
      p, hp, fun κ c => (coef_frameRow _ κ c).symm⟩

theorem danseRun_rowOk {y : Nat → List (List K)} {T : Nat} {evs : List (ℚ × Nat × EvType)} {a : DanseSt D}
    (h : danseRun D y T evs = .ok a) (k i : Nat) (hi : i < evUps evs k) :
    D.RowOk k (D.heard k ((a.run.hist k).take (i + 1))) (D.bypass k i) (a.run.cfg.wInt k i)
      (D.g.wInt k (i + 1)) (a.run.cfg.wInt k (i + 1)) ∧
    D.RowOk k (D.heardLoc k ((a.run.hist k).take (i + 1))) (D.bypass k i) (a.run.cfg.wLoc k i)
      (D.g.wLoc k (i + 1)) (a.run.cfg.wLoc k (i + 1)) := by
  obtain ⟨s1, s2, -⟩ := danseRun_stored h k i (by omega)
  obtain ⟨o, ho, hl, p, hp, e1, e2, e3, -⟩ := danseRun_rows h k i hi
  rw [ho] at hp ⊢
  obtain ⟨q, v, vl, -, hv, hvl, -, hr⟩ := nodeFold_rows _ _ hp
  rw [e1, e3, hr]
  generalize (a.run.hist k).take i = H at *
  constructor
  · rw [heard_snoc] at hv ⊢
    have hlen : (D.heard k H).length = H.length := heard_length H
    rw [← hlen] at hv hl
    have := kind_row (prev := a.run.cfg.wInt k i) (D.g.wInt k) (D.heard k H) _ hv (fun _ => by rw [hl]; exact s1)
    rw [hl] at this
    rw [← hlen, hl] at *
    exact this
  · rw [heardLoc_snoc] at hvl ⊢
    have hlen : (D.heardLoc k H).length = H.length := heardLoc_length H
    rw [← hlen] at hvl hl
    have := kind_row (prev := a.run.cfg.wLoc k i) (D.g.wLoc k) (D.heardLoc k H) _ hvl (fun _ => by rw [hl]; exact s2)
    rw [hl] at this
    rw [← hlen, hl] at *
    exact this

end
end Danse
