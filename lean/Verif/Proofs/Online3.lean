import Verif.Proofs.Online2

/-!
# Helper lemmas for C73: runs that compute their own filters
-/

set_option linter.unusedSectionVars false

namespace Danse
section
variable {K : Type} [Field K] [StarRing K] [DecidableEq K]
variable {S : Nat → Prop} {a b : AdaptSt K} {y y' : Nat → List (List K)}

theorem observe_same {f g : GivenCfg K} {a b : GivenSt K} (h : LocRel S S f g a b) (t : ℚ) {k : Nat}
    (hk : S k) (hy : y k = y' k) : f.observe y a t k = g.observe y' b t k := by
  unfold GivenCfg.observe netStep processBuffers
  rw [h.cfg]
  simp only [h.it, h.buf k hk, h.z k hk, h.flags k hk, hy]
  split <;> simp [bind, Except.bind, h.flags k hk]

theorem LocRel.record_setRot {f g : GivenCfg K} {a b : GivenSt K} (h : LocRel S S f g a b) (k i j : Nat)
    (r : Rows K) (u : Nat → Nat → K) :
    LocRel S S ((f.record k i r).setRot k j u) ((g.record k i r).setRot k j u) a b := by
  refine ⟨?_, ?_, ?_, ?_, ?_, h.it, h.buf, h.z, h.flags, h.zLocal, h.wIR, h.lastUp, h.lastBc, h.d, h.dLoc⟩
  · have := h.cfg
    unfold GivenCfg.fixed GivenCfg.setRot GivenCfg.record at *
    rw [this]
  · intro q hq
    by_cases e : q = k
    · subst e; simp [GivenCfg.record, GivenCfg.setRot, h.wExt q hq]
    · simp [GivenCfg.record, GivenCfg.setRot, Function.update_of_ne e, h.wExt q hq]
  · intro q hq
    by_cases e : q = k
    · subst e; simp [GivenCfg.record, GivenCfg.setRot, h.wInt q hq]
    · simp [GivenCfg.record, GivenCfg.setRot, Function.update_of_ne e, h.wInt q hq]
  · intro q hq
    by_cases e : q = k
    · subst e; simp [GivenCfg.record, GivenCfg.setRot, h.wLoc q hq]
    · simp [GivenCfg.record, GivenCfg.setRot, Function.update_of_ne e, h.wLoc q hq]
  · intro q hq
    by_cases e : q = k
    · subst e; simp [GivenCfg.record, GivenCfg.setRot, h.rot q hq]
    · simp [GivenCfg.record, GivenCfg.setRot, Function.update_of_ne e, h.rot q hq]

theorem LocRel.record_setRot_other {f g : GivenCfg K} {a b : GivenSt K} (h : LocRel S S f g a b)
    {k : Nat} (hk : ¬ S k) (i j : Nat) (r r' : Rows K) (u u' : Nat → Nat → K) :
    LocRel S S ((f.record k i r).setRot k j u) ((g.record k i r').setRot k j u') a b := by
  have ne : ∀ q, S q → q ≠ k := by rintro q hq rfl; exact hk hq
  refine ⟨?_, ?_, ?_, ?_, ?_, h.it, h.buf, h.z, h.flags, h.zLocal, h.wIR, h.lastUp, h.lastBc, h.d, h.dLoc⟩
  · have := h.cfg
    unfold GivenCfg.fixed GivenCfg.setRot GivenCfg.record at *
    rw [this]
  · intro q hq; simp [GivenCfg.record, GivenCfg.setRot, Function.update_of_ne (ne q hq), h.wExt q hq]
  · intro q hq; simp [GivenCfg.record, GivenCfg.setRot, Function.update_of_ne (ne q hq), h.wInt q hq]
  · intro q hq; simp [GivenCfg.record, GivenCfg.setRot, Function.update_of_ne (ne q hq), h.wLoc q hq]
  · intro q hq; simp [GivenCfg.record, GivenCfg.setRot, Function.update_of_ne (ne q hq), h.rot q hq]

/-- Two runs agree at the nodes of `S`. -/
structure AdaptRel (S : Nat → Prop) (a b : AdaptSt K) : Prop where
  loc : LocRel S S a.cfg b.cfg a.st b.st
  hist : ∀ q, S q → a.hist q = b.hist q

theorem adaptStep_local {U U' : Strategy K} (h : AdaptRel S a b) (hN : Closed b.cfg.nb S)
    (hU : ∀ q, S q → U.rows q = U'.rows q ∧ U.rot q = U'.rot q)
    (hy : ∀ q, S q → y q = y' q) (ev : ℚ × Nat × EvType) :
    Ok2 (AdaptRel S) (adaptStep U y a ev) (adaptStep U' y' b ev) := by
  obtain ⟨t, k, ty⟩ := ev
  unfold adaptStep
  cases ty with
  | up =>
    simp only
    by_cases hk : S k
    · rw [observe_same h.loc t hk (hy k hk)]
      refine Ok2.bind (Ok2.refl _) ?_
      rintro o _ rfl
      rw [h.hist k hk, h.loc.it, (hU k hk).1, (hU k hk).2]
      refine Ok2.bind (step_local (h.loc.record_setRot k _ _ _ _) (fun _ hq => hq) hN hy _) ?_
      intro s s' hs
      refine Ok2.ok ⟨hs, update_agree_of h.hist k _⟩
    · refine Ok2.bind (R := fun _ _ => True) (fun _ _ _ _ => trivial) ?_
      intro o o' _
      rw [h.loc.it]
      refine Ok2.bind (step_local (h.loc.record_setRot_other hk _ _ _ _ _ _) (fun _ hq => hq) hN hy _) ?_
      intro s s' hs
      refine Ok2.ok ⟨hs, fun q hq => ?_⟩
      have ne : q ≠ k := by rintro rfl; exact hk hq
      simp only [Function.update_of_ne ne, h.hist q hq]
  | bc =>
    simp only
    refine Ok2.bind (step_local h.loc (fun _ hq => hq) hN hy _) ?_
    intro s s' hs
    exact Ok2.ok ⟨hs, h.hist⟩
  | _ => exact Ok2.errL

theorem adaptRun_local {U U' : Strategy K} {nb : Nat → List Nat} (hN : Closed nb S)
    (hU : ∀ q, S q → U.rows q = U'.rows q ∧ U.rot q = U'.rot q)
    (hy : ∀ q, S q → y q = y' q) (evs : List (ℚ × Nat × EvType)) :
    ∀ {a b : AdaptSt K}, b.cfg.nb = nb → AdaptRel S a b →
      Ok2 (AdaptRel S) (adaptRun U y a evs) (adaptRun U' y' b evs) := by
  induction evs with
  | nil => intro a b _ h; exact Ok2.ok h
  | cons ev evs ih =>
    intro a b hb h
    unfold adaptRun
    simp only [List.foldlM_cons]
    intro x z hx hz
    obtain ⟨a1, ha, hx⟩ := bind_ok_inv hx
    obtain ⟨b1, hb1, hz⟩ := bind_ok_inv hz
    have hr := adaptStep_local h (by rw [hb]; exact hN) hU hy ev a1 b1 ha hb1
    have hnb : b1.cfg.nb = nb := by rw [adaptStep_fixed hb1]; exact hb
    exact ih hnb hr x z hx hz

theorem LocRel.rfl_of {A B : Nat → Prop} (g : GivenCfg K) (s : GivenSt K) : LocRel A B g g s s :=
  ⟨rfl, fun _ _ => rfl, fun _ _ => rfl, fun _ _ => rfl, fun _ _ => rfl, rfl, fun _ _ => rfl,
    fun _ _ => rfl, fun _ _ => rfl, fun _ _ => rfl, fun _ _ => rfl, fun _ _ => rfl, fun _ _ => rfl,
    fun _ _ => rfl, fun _ _ => rfl⟩

end
end Danse
