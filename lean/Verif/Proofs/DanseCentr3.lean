import Verif.Proofs.DanseCentr2
import Verif.Proofs.Cost2

/-!
# Helper lemmas for C130: rows of the filters, the Wiener filter, and what is heard in a synchronous run
-/

set_option linter.unusedSectionVars false

namespace Danse
section
variable {K : Type} [Field K] [StarRing K] [DecidableEq K] {C : CDanseCfg K} {y : Nat → List (List K)} {T : Nat}
  {evs : List (ℚ × Nat × EvType)} {a : CDanseSt C}

theorem cdanse_rowC (hc : C.centr = true) (h : cdanseRun C y T evs = .ok a) {k i : Nat} (hv : C.SoundVad k)
    (hi : i < evUps evs k) : C.RowOkC k (C.heardC k ((a.chist k).take (i + 1))) (C.D.bypass k i) (a.cfg.wC k i)
      (C.wC0 k (i + 1)) (a.cfg.wC k (i + 1)) := by
  have w := cdanseRun_inv evs h
  have hl := w.len k
  obtain ⟨v, hv1, hv2⟩ := w.rowC hc k i hi
  have htl : ((a.chist k).take i).length = i := by rw [List.length_take]; omega
  have hp : C.D.bypass k ((a.chist k).take i).length = true →
      ∃ v, (nodeRun2 (C.kindC k) (C.D.kind0 k C.total (C.wC0 k)) (C.withOwn k (C.heardC k ((a.chist k).take i)))).w
        ((a.chist k).take i).length = .ok v ∧ ∀ (κ : Fin C.D.nb) (c : Fin C.total), v κ c = coef (a.cfg.wC k i) κ c := by
    intro _
    rw [htl]
    cases i with
    | zero =>
      rw [(w.old k 0 (.inl rfl)).1]
      exact ⟨_, rfl, fun _ _ => rfl⟩
    | succ i =>
      obtain ⟨u, hu1, hu2⟩ := w.rowC hc k i (by omega)
      exact ⟨u, hu1, fun κ c => by rw [hu2]; exact (coef_frameRow u κ c).symm⟩
  rw [hv2]
  rw [List.take_succ_eq_append_getElem (by omega)] at hv1 ⊢
  have := kindC_row hv ((a.chist k).take i) _ (w := v) (by rw [htl]; exact hv1) hp
  rw [htl] at this
  exact this

theorem cdanse_rowS (hc : C.ssbc = true) (h : cdanseRun C y T evs = .ok a) {k i : Nat}
    (hi : i < evUps evs k) : C.D.RowOk k (C.heardS k ((a.chist k).take (i + 1))) (C.D.bypass k i) (a.cfg.wS k i)
      (C.wS0 k (i + 1)) (a.cfg.wS k (i + 1)) := by
  have w := cdanseRun_inv evs h
  have hl := w.len k
  obtain ⟨⟨v, hv1, hv2⟩, -⟩ := w.rowS hc k i hi
  have htl : ((a.chist k).take i).length = i := by rw [List.length_take]; omega
  have hp : ∃ v, (nodeRun (C.D.kind k (C.D.dim k)) (C.D.kind0 k (C.D.dim k) (C.wS0 k)) (C.heardS k ((a.chist k).take i))).w
        i = .ok v ∧ ∀ (κ : Fin C.D.nb) (c : Fin (C.D.dim k)), v κ c = coef (a.cfg.wS k i) κ c := by
    cases i with
    | zero =>
      rw [(w.old k 0 (.inl rfl)).2]
      exact ⟨_, rfl, fun _ _ => rfl⟩
    | succ i =>
      obtain ⟨⟨u, hu1, hu2⟩, -⟩ := w.rowS hc k i (by omega)
      exact ⟨u, hu1, fun κ c => by rw [hu2]; exact (coef_frameRow u κ c).symm⟩
  rw [hv2]
  rw [List.take_succ_eq_append_getElem (by omega), heardS_snoc] at hv1 ⊢
  have hhl : (C.heardS k ((a.chist k).take i)).length = i := by rw [heardS_length, htl]
  have := kind_row (prev := a.cfg.wS k i) (C.wS0 k) (C.heardS k ((a.chist k).take i)) _ (w := v)
    (by rw [hhl]; exact hv1) (fun _ => by rw [hhl]; exact hp)
  rw [hhl] at this
  rw [htl] at this ⊢
  exact this

open Matrix

/-- What `mwfRule` returns is the one solution of the normal equations. -/
theorem mwfRule_unique {m : Nat} {Ryy Rnn : Matrix (Fin m) (Fin m) K} {r : Nat} {w : Fin m → K} (hw : mwfRule m Ryy Rnn r = .ok w) :
    ∃ href : r < m, ∀ v : Fin m → K, Ryy *ᵥ v = (Ryy - Rnn) *ᵥ Pi.single ⟨r, href⟩ 1 ↔ v = w := by
  have href : r < m := by
    by_contra hn
    unfold mwfRule at hw
    rw [dif_neg hn] at hw
    cases hw
  refine ⟨href, fun v => ?_⟩
  unfold mwfRule at hw
  rw [dif_pos href] at hw
  obtain ⟨hd, -⟩ := updateW_ok hw
  have hn := updateW_normal hw
  constructor
  · intro hv
    rw [← hn] at hv
    have := congrArg ((Ryy)⁻¹ *ᵥ ·) hv
    simpa [mulVec_mulVec, nonsing_inv_mul _ (Ne.isUnit hd)] using this
  · rintro rfl
    exact hn

/-- The state right after an update, and what was observed then. -/
theorem cdanse_at (h : cdanseRun C y T evs = .ok a) {k i : Nat} {o : CObs K} (ho : (a.chist k)[i]? = some o) :
    ∃ pre post b, evs = pre ++ (o.t, k, EvType.up) :: post ∧ evUps pre k = i ∧
      cdanseRun C y T (pre ++ [(o.t, k, .up)]) = .ok b ∧ o.yC = b.st.yCentr k ∧ o.yS = b.st.ySSBC k ∧
      ∃ c : CentrCfg K, ∃ s, c.fixed C.base ∧ c.observe y s o.t k = .ok o := by
  have w := cdanseRun_inv evs h
  have hi : i < evUps evs k := by
    rw [← w.len k]
    exact (List.getElem?_eq_some_iff.mp ho).1
  obtain ⟨pre, t, post, rfl, hpre⟩ := split_up k evs hi
  have hgrow : ∀ (evs : List (ℚ × Nat × EvType)) {b c : CDanseSt C}, evs.foldlM (cdanseStep C y) b = .ok c →
      ∀ k, b.chist k <+: c.chist k := by
    intro evs
    induction evs with
    | nil => intro b c h k; injection h with h; subst h; simp
    | cons ev evs ih =>
      intro b c h k
      rw [List.foldlM_cons] at h
      obtain ⟨d, hd, h⟩ := bind_ok_inv h
      refine List.IsPrefix.trans ?_ (ih h k)
      obtain ⟨t, q, ty⟩ := ev
      by_cases hty : ty = .up
      · subst hty
        unfold cdanseStep at hd
        simp only at hd
        obtain ⟨_, _, hd⟩ := bind_ok_inv hd
        obtain ⟨oc, _, hd⟩ := bind_ok_inv hd
        obtain ⟨_, _, hd⟩ := bind_ok_inv hd
        obtain ⟨_, _, hd⟩ := bind_ok_inv hd
        obtain ⟨_, _, hd⟩ := bind_ok_inv hd
        injection hd with hd
        subst hd
        by_cases hk : k = q
        · subst hk; simp
        · simp [Function.update_of_ne hk]
      · unfold cdanseStep at hd
        split at hd
        · rename_i e; exact absurd e hty
        · obtain ⟨s, hs, hd⟩ := bind_ok_inv hd
          injection hd with hd
          subst hd
          exact List.prefix_rfl
  have h0 := h
  unfold cdanseRun at h0
  rw [List.foldlM_append] at h0
  obtain ⟨a1, h1, h0⟩ := bind_ok_inv h0
  rw [List.foldlM_cons] at h0
  obtain ⟨b, hb, h0⟩ := bind_ok_inv h0
  have hpref := hgrow post h0 k
  have hbrun : cdanseRun C y T (pre ++ [(t, k, .up)]) = .ok b := by
    unfold cdanseRun
    rw [List.foldlM_append, h1]
    show List.foldlM (cdanseStep C y) a1 [_] = _
    rw [List.foldlM_cons, hb]
    rfl
  have w1 := cdanseRun_inv pre h1
  unfold cdanseStep at hb
  simp only at hb
  obtain ⟨_, _, hb⟩ := bind_ok_inv hb
  obtain ⟨oc, hoc, hb⟩ := bind_ok_inv hb
  obtain ⟨_, _, hb⟩ := bind_ok_inv hb
  obtain ⟨_, _, hb⟩ := bind_ok_inv hb
  obtain ⟨s, hs, hb⟩ := bind_ok_inv hb
  injection hb with hb
  have hob := fun hf => centr_observed (c := a1.cfg) hoc hf hs
  specialize hob rfl
  have hbo : (b.chist k)[i]? = some oc := by
    rw [← hb]
    simp only [Function.update_self]
    rw [List.getElem?_append_right (by rw [w1.len, hpre]), w1.len, hpre]
    simp
  have : (a.chist k)[i]? = some oc := by
    obtain ⟨r, hr⟩ := hpref
    rw [← hr, List.getElem?_append_left (List.getElem?_eq_some_iff.mp hbo).1]
    exact hbo
  rw [ho] at this
  injection this with this
  subst this
  obtain ⟨e1, e2, e3, -⟩ := hob
  have hst : b.st = s := by rw [← hb]
  refine ⟨pre, post, b, by rw [e1], hpre, by rw [e1]; exact hbrun, ?_, ?_, a1.cfg, a1.st, w1.fixed, by rw [e1]; exact hoc⟩
  · rw [hst]; exact e2.symm
  · rw [hst]; exact e3.symm

end
end Danse
