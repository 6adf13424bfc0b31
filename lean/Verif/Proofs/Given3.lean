import Verif.Proofs.Given2

/-!
# Helper lemmas for C30: re-running with the filters of a run reproduces that run
-/

set_option linter.unusedSectionVars false

namespace Danse
section
variable {K : Type} [Field K] [StarRing K] [DecidableEq K]

/-- `f` has the same rows as `g` up to the current iteration of every node, and is otherwise the same
configuration. -/
structure Agree (f g : GivenCfg K) (it : Nat → Nat) : Prop where
  rest : f = { g with wInt := f.wInt, wExt := f.wExt, wLoc := f.wLoc }
  int : ∀ k i, i ≤ it k → f.wInt k i = g.wInt k i
  ext : ∀ k i, i ≤ it k → f.wExt k i = g.wExt k i
  loc : ∀ k i, i ≤ it k → f.wLoc k i = g.wLoc k i

theorem netStep_bc_it {nb : Nat → List Nat} {N Ns : Nat} {s s' : NetSt K} {k : Nat} {c : List K}
    (h : netStep nb N Ns s (.bc k c) = .ok s') : s'.it = s.it := by
  unfold netStep at h
  obtain ⟨b, _, h⟩ := bind_ok_inv h
  injection h with h
  subst h
  rfl

theorem netStep_up_it {nb : Nat → List Nat} {N Ns : Nat} {s s' : NetSt K} {k : Nat}
    (h : netStep nb N Ns s (.up k) = .ok s') : s'.it = Function.update s.it k (s.it k + 1) := by
  unfold netStep at h
  obtain ⟨b, _, h⟩ := bind_ok_inv h
  injection h with h
  subst h
  rfl

variable {f g : GivenCfg K} {y : Nat → List (List K)} {s s' : GivenSt K} {t : ℚ} {k : Nat}

theorem broadcast_it (h : g.broadcast y s t k = .ok s') : s'.net.it = s.net.it := by
  unfold GivenCfg.broadcast at h
  obtain ⟨fr, _, h⟩ := bind_ok_inv h
  split at h
  · cases h
  · split at h
    · obtain ⟨z, _, h⟩ := bind_ok_inv h
      obtain ⟨n, hn, h⟩ := bind_ok_inv h
      injection h with h
      subst h
      exact netStep_bc_it hn
    · obtain ⟨l, _, h⟩ := bind_ok_inv h
      obtain ⟨w, _, h⟩ := bind_ok_inv h
      obtain ⟨z, _, h⟩ := bind_ok_inv h
      obtain ⟨n, hn, h⟩ := bind_ok_inv h
      injection h with h
      subst h
      exact netStep_bc_it hn

theorem update_it (h : g.update y s t k = .ok s') :
    s'.net.it = Function.update s.net.it k (s.net.it k + 1) := by
  unfold GivenCfg.update at h
  obtain ⟨n, hn, h⟩ := bind_ok_inv h
  obtain ⟨fr, _, h⟩ := bind_ok_inv h
  split at h
  · cases h
  · obtain ⟨d, _, h⟩ := bind_ok_inv h
    obtain ⟨dl, _, h⟩ := bind_ok_inv h
    injection h with h
    subst h
    exact netStep_up_it hn

theorem broadcast_agree (h : Agree f g s.net.it) : f.broadcast y s t k = g.broadcast y s t k := by
  obtain ⟨hr, _, he, _⟩ := h
  have he := he k _ (le_refl _)
  rw [hr]
  unfold GivenCfg.broadcast GivenCfg.currL GivenCfg.bcFilter
  simp only [he]

theorem update_agree {it : Nat → Nat} (h : Agree f g it) (hk : s.net.it k + 1 ≤ it k) :
    f.update y s t k = g.update y s t k := by
  obtain ⟨hr, hi, _, hl⟩ := h
  have hi := hi k _ hk
  have hl := hl k _ hk
  rw [hr]
  unfold GivenCfg.update GivenCfg.desired GivenCfg.rotate GivenCfg.updRange
  simp only [hi, hl]

theorem freeRun_agree (y : Nat → List (List K)) (evs : List ((ℚ × Nat × EvType) × Rows K)) :
    ∀ (g F : GivenCfg K) (s s' : GivenSt K), GivenCfg.freeRun y (g, s) evs = .ok (F, s') →
      Agree F g s.net.it ∧ F.run y s (evs.map (·.1)) = .ok s' := by
  induction evs with
  | nil =>
    intro g F s s' h
    injection h with h
    injection h with h1 h2
    subst h1; subst h2
    exact ⟨⟨rfl, fun _ _ _ => rfl, fun _ _ _ => rfl, fun _ _ _ => rfl⟩, rfl⟩
  | cons ev evs ih =>
    intro g F s s' h
    unfold GivenCfg.freeRun at h
    rw [List.foldlM_cons] at h
    obtain ⟨⟨g1, s1⟩, h1, h⟩ := bind_ok_inv h
    obtain ⟨ha, hrun⟩ := ih g1 F s1 s' h
    obtain ⟨⟨t, k, ty⟩, rows⟩ := ev
    have key : ∀ hs : F.step y s (t, k, ty) = .ok s1,
        F.run y s ((((t, k, ty), rows) :: evs).map (·.1)) = .ok s' := by
      intro hs
      unfold GivenCfg.run
      rw [List.map_cons, List.foldlM_cons, hs]
      exact hrun
    unfold GivenCfg.freeStep at h1
    cases ty with
    | up =>
      simp only at h1
      obtain ⟨s2, hs, h1⟩ := bind_ok_inv h1
      injection h1 with h1
      injection h1 with e1 e2
      subst e2
      have hs' : (g.record k (s.net.it k + 1) rows).update y s t k = .ok s2 := hs
      have hit := update_it hs'
      have hk : s2.net.it k = s.net.it k + 1 := by rw [hit]; simp
      constructor
      · obtain ⟨hr, hi, he, hl⟩ := ha
        subst e1
        refine ⟨hr, ?_, ?_, ?_⟩
        · intro k' i hle
          by_cases e : k' = k
          · subst e
            rw [hi k' i (by omega)]
            simp [GivenCfg.record, Function.update_of_ne (show i ≠ s.net.it k' + 1 by omega)]
          · rw [hi k' i (by rw [hit, Function.update_of_ne e]; exact hle)]
            simp [GivenCfg.record, Function.update_of_ne e]
        · intro k' i hle
          by_cases e : k' = k
          · subst e
            rw [he k' i (by omega)]
            simp [GivenCfg.record, Function.update_of_ne (show i ≠ s.net.it k' + 1 by omega)]
          · rw [he k' i (by rw [hit, Function.update_of_ne e]; exact hle)]
            simp [GivenCfg.record, Function.update_of_ne e]
        · intro k' i hle
          by_cases e : k' = k
          · subst e
            rw [hl k' i (by omega)]
            simp [GivenCfg.record, Function.update_of_ne (show i ≠ s.net.it k' + 1 by omega)]
          · rw [hl k' i (by rw [hit, Function.update_of_ne e]; exact hle)]
            simp [GivenCfg.record, Function.update_of_ne e]
      · apply key
        show F.update y s t k = .ok s2
        rw [update_agree ha (by omega)]
        rw [← e1]
        exact hs'
    | bc =>
      simp only at h1
      obtain ⟨s2, hs, h1⟩ := bind_ok_inv h1
      injection h1 with h1
      injection h1 with e1 e2
      subst e1; subst e2
      have hs' : g.broadcast y s t k = .ok s2 := hs
      have hit := broadcast_it hs'
      rw [hit] at ha
      refine ⟨ha, key ?_⟩
      show F.broadcast y s t k = .ok s2
      rw [broadcast_agree ha]
      exact hs'
    | tr => simp only at h1; obtain ⟨s2, hs, h1⟩ := bind_ok_inv h1; cases hs
    | fu => simp only at h1; obtain ⟨s2, hs, h1⟩ := bind_ok_inv h1; cases hs
    | re => simp only at h1; obtain ⟨s2, hs, h1⟩ := bind_ok_inv h1; cases hs

end
end Danse
