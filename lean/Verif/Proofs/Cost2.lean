import Verif.Proofs.Cost
import Verif.Proofs.Single
import Verif.Proofs.TIDanse3

/-! # The local channels are the first channels -/

set_option linter.unusedSectionVars false

namespace Danse
section
variable {K : Type} [Field K] [StarRing K] [DecidableEq K] {D : DanseCfg K}

theorem heardLoc_restrict {k : Nat} (hrot : ∀ l (c : Nat), c < D.M k → ∀ κ, D.rot k l c κ = 1) {h : List (Obs K)}
    (hl : ∀ o ∈ h, o.loc.length = D.M k) : D.heardLoc k h =
      (D.heard k h).map fun e => ⟨fun κ c => e.y κ (Fin.castAdd _ c), e.vad, e.t, e.bypass⟩ := by
  unfold DanseCfg.heardLoc DanseCfg.heard
  rw [List.map_map]
  apply List.map_congr_left
  rintro ⟨o, i⟩ hoi
  have ho : o ∈ h := List.mem_of_getElem? (List.mem_zipIdx_iff_getElem?.mp hoi)
  simp only [Function.comp]
  congr 1
  funext κ c
  rw [hrot _ _ (by simp), mul_one]
  unfold coef
  simp only [Fin.val_castAdd]
  rw [List.map_append, List.getD_eq_getElem?_getD, List.getD_eq_getElem?_getD,
    List.getElem?_append_left (by rw [List.length_map, hl o ho]; exact c.isLt)]

theorem tiHeardLoc_restrict {k : Nat} {h : List (TIObs K)}
    (hl : ∀ o ∈ h, o.loc.length = D.M k) : D.tiHeardLoc k h =
      (D.tiHeard k h).map fun e => ⟨fun κ c => e.y κ (Fin.castAdd 1 c), e.vad, e.t, e.bypass⟩ := by
  unfold DanseCfg.tiHeardLoc DanseCfg.tiHeard
  rw [List.map_map]
  apply List.map_congr_left
  rintro ⟨o, i⟩ hoi
  have ho : o ∈ h := List.mem_of_getElem? (List.mem_zipIdx_iff_getElem?.mp hoi)
  simp only [Function.comp]
  congr 1
  funext κ c
  unfold coef
  simp only [Fin.val_castAdd]
  rw [List.map_append, List.getD_eq_getElem?_getD, List.getD_eq_getElem?_getD,
    List.getElem?_append_left (by rw [List.length_map, hl o ho]; exact c.isLt)]

theorem obs_loc_length {y : Nat → List (List K)} {T : Nat} {evs : List (ℚ × Nat × EvType)} {a : DanseSt D}
    (h : danseRun D y T evs = .ok a) {k : Nat} {o : Obs K} (ho : o ∈ a.run.hist k) : o.loc.length = (y k).length := by
  obtain ⟨fr, hfr, hloc⟩ := (C77_observed (C117_instance h) k).2.2.2 o ho
  rw [hloc, List.length_map, (mapM_get hfr).1]

theorem tiStepEv_loc {n : Nat} {y : Fin n → List (List K)} {trees : List (TreeObj n)} {g : GivenCfg K} {U : TIStrategy n K} {t : ℚ}
    {s s' : TISt n K} {e : OutEv} (h : tiStepEv g U y trees t s e = .ok s')
    (hs : ∀ k, ∀ o ∈ (s.node k).hist, o.loc.length = (y k).length) : ∀ k, ∀ o ∈ (s'.node k).hist, o.loc.length = (y k).length := by
  intro k o ho
  by_cases hty : e.ty = .up
  · unfold tiStepEv at h
    rw [hty] at h
    simp only at h
    split at h
    · rename_i hlt
      obtain ⟨nd, h1, h2⟩ := Except.bind_ok h
      injection h2 with h2
      subst h2
      by_cases e1 : k = ⟨e.node, hlt⟩
      · subst e1
        simp only [Function.update_self] at ho
        obtain ⟨loc, l1, l2, -⟩ := tiUpdate_inv h1
        rw [l2, List.mem_append] at ho
        rcases ho with ho | ho
        · exact hs _ o ho
        · rw [List.mem_singleton] at ho
          subst ho
          simp only [List.length_map]
          exact (mapM_get l1).1
      · simp only [Function.update_of_ne e1] at ho
        exact hs k o ho
    · cases h
  · rw [(tiStepEv_histExt hty h k).1] at ho
    exact hs k o ho

theorem tiRun_loc {n : Nat} {y : Fin n → List (List K)} {trees : List (TreeObj n)} {g : GivenCfg K} {U : TIStrategy n K}
    (out : List (Instant ℚ)) : ∀ {s s' : TISt n K}, tiRun g U y trees s out = .ok s' →
    (∀ k, ∀ o ∈ (s.node k).hist, o.loc.length = (y k).length) → ∀ k, ∀ o ∈ (s'.node k).hist, o.loc.length = (y k).length := by
  have ev : ∀ (t : ℚ) (evs : List OutEv) {s s' : TISt n K}, evs.foldlM (tiStepEv g U y trees t) s = .ok s' →
      (∀ k, ∀ o ∈ (s.node k).hist, o.loc.length = (y k).length) → ∀ k, ∀ o ∈ (s'.node k).hist, o.loc.length = (y k).length := by
    intro t evs
    induction evs with
    | nil => intro s s' h hs; injection h with h; subst h; exact hs
    | cons e evs ih =>
      intro s s' h hs
      rw [List.foldlM_cons] at h
      obtain ⟨b, hb, h⟩ := bind_ok_inv h
      exact ih h (tiStepEv_loc hb hs)
  unfold tiRun
  induction out with
  | nil => intro s s' h hs; injection h with h; subst h; exact hs
  | cons e out ih =>
    intro s s' h hs
    rw [List.foldlM_cons] at h
    obtain ⟨b, hb, h⟩ := bind_ok_inv h
    exact ih h (ev _ _ hb hs)

end

/-- Updating starts only after frames of both kinds. -/
theorem started_both {D : DanseCfg ℂ} {k m : Nat} {l : List (UpEv (Fin D.nb) (Fin m) ℂ ℚ)} (h : D.Started k l) (b : Bool) :
    framesWith b l ≠ [] := by
  obtain ⟨l1, e, ⟨r, rfl⟩, -, c1, c2, -⟩ := h
  intro hn
  have : framesWith b (l1 ++ [e]) = [] := by
    unfold framesWith at hn ⊢
    rw [List.filter_append, List.map_append] at hn
    exact (List.append_eq_nil_iff.mp hn).1
  cases b
  · rw [this] at c2; simp at c2
  · rw [this] at c1; simp at c1

end Danse
