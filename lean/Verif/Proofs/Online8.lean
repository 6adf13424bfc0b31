import Verif.Proofs.Online6

/-!
# Helper lemmas for C77: which row of the filters is used when
-/

set_option linter.unusedSectionVars false

namespace Danse
section
variable {K : Type} [Field K] [StarRing K] [DecidableEq K]
variable {y : Nat → List (List K)}

/-- `f` and `g` are the same up to rows of the filters that a run starting at iterations `it` with
`n k` updates of node `k` does not use. -/
structure RowsAgree (f g : GivenCfg K) (it n : Nat → Nat) : Prop where
  fixed : f.fixed g
  int : ∀ k i, it k < i → i ≤ it k + n k → f.wInt k i = g.wInt k i
  loc : ∀ k i, it k < i → i ≤ it k + n k → f.wLoc k i = g.wLoc k i
  rot : ∀ k i, it k ≤ i → i < it k + n k → f.rot k i = g.rot k i
  ext : ∀ k i, it k ≤ i → i ≤ it k + n k → f.wExt k i = g.wExt k i

theorem GivenCfg.ext_of_fixed {f g : GivenCfg K} (h : f.fixed g) :
    f = { g with wInt := f.wInt, wExt := f.wExt, wLoc := f.wLoc, rot := f.rot } := h

theorem bcast_rows {f g : GivenCfg K} {n : Nat → Nat} {s : GivenSt K} (h : RowsAgree f g s.net.it n)
    (t : ℚ) (k : Nat) : f.broadcast y s t k = g.broadcast y s t k := by
  have e := h.ext k (s.net.it k) le_rfl (by omega)
  have hf := h.fixed
  unfold GivenCfg.fixed at hf
  unfold GivenCfg.broadcast GivenCfg.bcFilter GivenCfg.currL
  rw [hf]
  simp only [e]

theorem update_rows {f g : GivenCfg K} {n : Nat → Nat} {s : GivenSt K} (h : RowsAgree f g s.net.it n)
    (t : ℚ) {k : Nat} (hk : 0 < n k) : f.update y s t k = g.update y s t k := by
  have e1 := h.int k (s.net.it k + 1) (by omega) (by omega)
  have e2 := h.loc k (s.net.it k + 1) (by omega) (by omega)
  have e3 := h.rot k (s.net.it k) le_rfl (by omega)
  have hf := h.fixed
  unfold GivenCfg.fixed at hf
  unfold GivenCfg.update GivenCfg.desired GivenCfg.rotate GivenCfg.updRange
  rw [hf]
  simp only [e1, e2, e3]

theorem step_it {g : GivenCfg K} {s s' : GivenSt K} {ev : ℚ × Nat × EvType} (h : g.step y s ev = .ok s')
    (k : Nat) : s'.net.it k = s.net.it k + evUps [ev] k := by
  obtain ⟨t, q, ty⟩ := ev
  unfold GivenCfg.step at h
  cases ty with
  | bc =>
    have := broadcast_frame (A := fun _ => False) (B := fun _ => False) (fun h => h)
      (fun _ h => h.elim) h
    rw [this.it]
    simp [evUps]
  | up =>
    rw [(update_frame h).1]
    by_cases e : q = k
    · subst e; simp [evUps]
    · rw [Function.update_of_ne (Ne.symm e)]; simp [evUps, e]
  | _ => cases h

theorem run_it {g : GivenCfg K} (evs : List (ℚ × Nat × EvType)) : ∀ {s s' : GivenSt K},
    g.run y s evs = .ok s' → ∀ k, s'.net.it k = s.net.it k + evUps evs k := by
  induction evs with
  | nil => intro s s' h k; injection h with h; subst h; simp [evUps]
  | cons ev evs ih =>
    intro s s' h k
    unfold GivenCfg.run at h
    rw [List.foldlM_cons] at h
    obtain ⟨s1, h1, h⟩ := bind_ok_inv h
    rw [ih h k, step_it h1 k]
    have : evUps (ev :: evs) k = evUps [ev] k + evUps evs k := by
      unfold evUps
      rw [← List.countP_append]; rfl
    omega

theorem run_rows {f g : GivenCfg K} (evs : List (ℚ × Nat × EvType)) : ∀ {s : GivenSt K},
    RowsAgree f g s.net.it (evUps evs) → f.run y s evs = g.run y s evs := by
  induction evs with
  | nil => intro s _; rfl
  | cons ev evs ih =>
    intro s h
    have hc : ∀ k, evUps (ev :: evs) k = evUps [ev] k + evUps evs k := by
      intro k
      unfold evUps
      rw [← List.countP_append]; rfl
    have hstep : f.step y s ev = g.step y s ev := by
      obtain ⟨t, q, ty⟩ := ev
      unfold GivenCfg.step
      cases ty with
      | bc => exact bcast_rows h t q
      | up => exact update_rows h t (by rw [hc]; simp [evUps])
      | _ => rfl
    unfold GivenCfg.run
    simp only [List.foldlM_cons, hstep]
    cases h1 : g.step y s ev with
    | error e => rfl
    | ok s1 =>
      have hi := fun k => step_it h1 k
      refine ih ⟨h.fixed, fun k i a b => h.int k i ?_ ?_, fun k i a b => h.loc k i ?_ ?_,
        fun k i a b => h.rot k i ?_ ?_, fun k i a b => h.ext k i ?_ ?_⟩ <;>
        have := hi k <;> have := hc k <;> omega

/-- The rows that a run has written. -/
structure Written (U : Strategy K) (g : GivenCfg K) (evs : List (ℚ × Nat × EvType)) (a : AdaptSt K) :
    Prop where
  fixed : a.cfg.fixed g
  len : ∀ k, (a.hist k).length = evUps evs k
  rows : ∀ k i, i < evUps evs k → a.cfg.wInt k (i + 1) = (U.rows k ((a.hist k).take (i + 1))).int ∧
    a.cfg.wExt k (i + 1) = (U.rows k ((a.hist k).take (i + 1))).ext ∧
    a.cfg.wLoc k (i + 1) = (U.rows k ((a.hist k).take (i + 1))).loc ∧
    a.cfg.rot k i = U.rot k ((a.hist k).take (i + 1))
  old : ∀ k i, i = 0 ∨ evUps evs k < i → a.cfg.wInt k i = g.wInt k i ∧ a.cfg.wExt k i = g.wExt k i ∧
    a.cfg.wLoc k i = g.wLoc k i

theorem adaptRun_written {U : Strategy K} {g : GivenCfg K} {s0 : GivenSt K} (h0 : ∀ k, s0.net.it k = 0)
    (evs : List (ℚ × Nat × EvType)) : ∀ {a : AdaptSt K},
    adaptRun U y ⟨g, s0, fun _ => []⟩ evs = .ok a →
    Written U g evs a ∧ a.cfg.run y s0 evs = .ok a.st := by
  induction evs using List.reverseRecOn with
  | nil =>
    intro a h
    injection h with h
    subst h
    refine ⟨⟨rfl, fun _ => by simp [evUps], fun k i hi => by simp [evUps] at hi, fun _ _ _ => ⟨rfl, rfl, rfl⟩⟩, rfl⟩
  | append_singleton evs ev ih =>
    intro a h
    unfold adaptRun at h
    rw [List.foldlM_append] at h
    obtain ⟨a1, h1, h⟩ := bind_ok_inv h
    rw [List.foldlM_cons] at h
    obtain ⟨a2, h2, h⟩ := bind_ok_inv h
    injection h with h
    subst h
    obtain ⟨w, hr⟩ := ih h1
    have hit : ∀ k, a1.st.net.it k = evUps evs k := by
      intro k
      rw [run_it evs hr k, h0, zero_add]
    have hc : ∀ k, evUps (evs ++ [ev]) k = evUps evs k + evUps [ev] k := by
      intro k
      unfold evUps
      rw [← List.countP_append]
    obtain ⟨t, q, ty⟩ := ev
    have nonup : ty ≠ .up → Written U g (evs ++ [(t, q, ty)]) a2 ∧
        a2.cfg.run y s0 (evs ++ [(t, q, ty)]) = .ok a2.st := by
      intro hty
      unfold adaptStep at h2
      split at h2
      · rename_i e; exact absurd e hty
      · obtain ⟨s, hs, h2⟩ := bind_ok_inv h2
        injection h2 with h2
        subst h2
        have hz : ∀ k, evUps (evs ++ [(t, q, ty)]) k = evUps evs k := by
          intro k; rw [hc]; simp [evUps, hty]
        refine ⟨⟨w.fixed, fun k => by rw [hz]; exact w.len k, fun k i => by rw [hz]; exact w.rows k i,
          fun k i => by rw [hz]; exact w.old k i⟩, ?_⟩
        unfold GivenCfg.run at hr ⊢
        rw [List.foldlM_append, hr]
        show (List.foldlM (a1.cfg.step y) a1.st [(t, q, ty)]) = _
        rw [List.foldlM_cons, hs]
        rfl
    by_cases hty : ty = .up
    · subst hty
      unfold adaptStep at h2
      simp only at h2
      obtain ⟨o, ho, h2⟩ := bind_ok_inv h2
      obtain ⟨s, hs, h2⟩ := bind_ok_inv h2
      injection h2 with h2
      have hq : evUps (evs ++ [(t, q, .up)]) q = evUps evs q + 1 := by rw [hc]; simp [evUps]
      have hne : ∀ k, k ≠ q → evUps (evs ++ [(t, q, .up)]) k = evUps evs k := by
        intro k hk; rw [hc]; simp [evUps, Ne.symm hk]
      have hgf : a2.cfg.fixed a1.cfg := by rw [← h2]; exact record_setRot_fixed ..
      -- entries of the new configuration
      have hcfg : a2.cfg = (a1.cfg.record q (evUps evs q + 1) (U.rows q (a1.hist q ++ [o]))).setRot q
          (evUps evs q) (U.rot q (a1.hist q ++ [o])) := by rw [← h2, ← hit q]
      have hhist : a2.hist = Function.update a1.hist q (a1.hist q ++ [o]) := by rw [← h2]
      have same : ∀ k i, k ≠ q ∨ i ≠ evUps evs q + 1 → a2.cfg.wInt k i = a1.cfg.wInt k i ∧
          a2.cfg.wExt k i = a1.cfg.wExt k i ∧ a2.cfg.wLoc k i = a1.cfg.wLoc k i := by
        intro k i hki
        rw [hcfg]
        by_cases hk : k = q
        · subst hk
          have hi := hki.resolve_left (by simp)
          simp [GivenCfg.record, GivenCfg.setRot, Function.update_of_ne hi]
        · simp [GivenCfg.record, GivenCfg.setRot, Function.update_of_ne hk]
      have sameR : ∀ k i, k ≠ q ∨ i ≠ evUps evs q → a2.cfg.rot k i = a1.cfg.rot k i := by
        intro k i hki
        rw [hcfg]
        by_cases hk : k = q
        · subst hk
          have hi := hki.resolve_left (by simp)
          simp [GivenCfg.record, GivenCfg.setRot, Function.update_of_ne hi]
        · simp [GivenCfg.record, GivenCfg.setRot, Function.update_of_ne hk]
      constructor
      · refine ⟨hgf.trans w.fixed, fun k => ?_, fun k i hi => ?_, fun k i hi => ?_⟩
        · by_cases hk : k = q
          · subst hk; rw [hhist, hq]; simp [w.len]
          · rw [hhist, hne k hk, Function.update_of_ne hk]; exact w.len k
        · by_cases hk : k = q
          · subst hk
            rw [hq] at hi
            have hh : a2.hist k = a1.hist k ++ [o] := by rw [hhist]; simp
            by_cases hi' : i = evUps evs k
            · subst hi'
              have : (a2.hist k).take (evUps evs k + 1) = a1.hist k ++ [o] := by
                rw [hh, List.take_of_length_le (by simp [w.len])]
              rw [this, hcfg]
              simp [GivenCfg.record, GivenCfg.setRot]
            · obtain ⟨r1, r2, r3⟩ := same k (i + 1) (.inr (by omega))
              rw [r1, r2, r3, sameR k i (.inr hi'), hh,
                List.take_append_of_le_length (by rw [w.len]; omega)]
              exact w.rows k i (by omega)
          · obtain ⟨r1, r2, r3⟩ := same k (i + 1) (.inl hk)
            rw [hne k hk] at hi
            rw [r1, r2, r3, sameR k i (.inl hk), hhist, Function.update_of_ne hk]
            exact w.rows k i hi
        · have hx : k ≠ q ∨ i ≠ evUps evs q + 1 := by
            by_cases hk : k = q
            · subst hk; rw [hq] at hi; right; omega
            · exact .inl hk
          obtain ⟨r1, r2, r3⟩ := same k i hx
          rw [r1, r2, r3]
          refine w.old k i (hi.imp id fun h => ?_)
          have := hc k; omega
      · have ha : RowsAgree a2.cfg a1.cfg s0.net.it (evUps evs) := by
          refine ⟨hgf, fun k i b c => (same k i ?_).1, fun k i b c => (same k i ?_).2.2,
            fun k i b c => sameR k i ?_, fun k i b c => (same k i ?_).2.1⟩ <;>
          · rw [h0] at c
            by_cases hk : k = q
            · subst hk; right; omega
            · exact .inl hk
        have hr2 := run_rows (y := y) evs ha
        rw [hr] at hr2
        unfold GivenCfg.run at hr2 ⊢
        rw [List.foldlM_append, hr2]
        show (List.foldlM (a2.cfg.step y) a1.st [(t, q, .up)]) = _
        have hs2 : a2.cfg.step y a1.st (t, q, .up) = .ok s := by rw [← h2]; exact hs
        rw [List.foldlM_cons, hs2, ← h2]
        rfl
    · exact nonup hty

end
end Danse
