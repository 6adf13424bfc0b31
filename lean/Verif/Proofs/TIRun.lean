import Verif.Spec.TIRun
import Verif.Props.Tree

/-! # TI-DANSE runs: the phases of one instant -/

set_option linter.unusedSectionVars false

namespace Danse

theorem TreeOrder.rank_le {o : List Level} {x y : OutEv} (h : TreeOrder o x y) :
    evRank x.ty ≤ evRank y.ty := by
  rcases h with h | ⟨h, _⟩
  · exact h.le
  · rw [h]

theorem TreeOrder.node_ne {o : List Level} {x y : OutEv} (h : TreeOrder o x y) (ht : x.ty = y.ty) :
    x.node ≠ y.node := by
  intro hn
  rcases h with h | ⟨_, h | h | h⟩
  · rw [ht] at h; omega
  · omega
  · rw [hn] at h; omega
  · rw [hn] at h; omega

/-- The events of one type. -/
def ofTy (evs : List OutEv) (ty : EvType) : List OutEv := evs.filter fun e => decide (e.ty = ty)

theorem mem_ofTy {evs : List OutEv} {ty : EvType} {e : OutEv} : e ∈ ofTy evs ty ↔ e ∈ evs ∧ e.ty = ty := by
  unfold ofTy
  simp

theorem split_rank {evs : List OutEv} (h : evs.Pairwise fun x y => evRank x.ty ≤ evRank y.ty) :
    evs = ofTy evs .tr ++ (ofTy evs .fu ++ (ofTy evs .bc ++ (ofTy evs .re ++ ofTy evs .up))) := by
  induction evs with
  | nil => rfl
  | cons x l ih =>
    obtain ⟨h1, h2⟩ := List.pairwise_cons.mp h
    have ih := ih h2
    have hnil : ∀ ty, evRank ty < evRank x.ty → ofTy l ty = [] := by
      intro ty hr
      unfold ofTy
      rw [List.filter_eq_nil_iff]
      intro e he ht
      have := h1 e he
      rw [of_decide_eq_true ht] at this
      omega
    have hcons : ∀ ty, ofTy (x :: l) ty = if x.ty = ty then x :: ofTy l ty else ofTy l ty := by
      intro ty
      unfold ofTy
      rw [List.filter_cons]
      simp
    simp only [hcons]
    cases hx : x.ty <;> rw [hx] at hnil <;> simp [evRank] at hnil ⊢
    · exact ih
    · have e1 := hnil .tr (by simp [evRank])
      rw [e1] at ih ⊢
      simpa using ih
    · have e1 := hnil .tr (by simp [evRank])
      have e2 := hnil .fu (by simp [evRank])
      rw [e1, e2] at ih ⊢
      simpa using ih
    · have e1 := hnil .tr (by simp [evRank])
      have e2 := hnil .fu (by simp [evRank])
      have e3 := hnil .bc (by simp [evRank])
      rw [e1, e2, e3] at ih ⊢
      simpa using ih
    · have e1 := hnil .tr (by simp [evRank])
      have e2 := hnil .fu (by simp [evRank])
      have e3 := hnil .bc (by simp [evRank])
      have e4 := hnil .re (by simp [evRank])
      rw [e1, e2, e3, e4] at ih ⊢
      simpa using ih

theorem ofTy_nodes {o : List Level} {evs : List OutEv} (h : evs.Pairwise (TreeOrder o)) (ty : EvType) :
    ((ofTy evs ty).map (·.node)).Nodup := by
  unfold ofTy
  rw [List.Nodup, List.pairwise_map]
  refine (List.Pairwise.and_mem.mp (h.filter _)).imp ?_
  rintro x y ⟨hx, hy, hxy⟩
  simp at hx hy
  exact hxy.node_ne (hx.2.trans hy.2.symm)

section
variable {n : Nat} {K : Type} [Field K] [StarRing K] [DecidableEq K]
variable {g : GivenCfg K} {U : TIStrategy n K} {y : Fin n → List (List K)} {trees : List (TreeObj n)} {t : ℚ}

/-- All fusions of an instant. -/
theorem fuPhase (evs : List OutEv) (hty : ∀ e ∈ evs, e.ty = .fu ∧ e.node < n)
    (hn : (evs.map (·.node)).Nodup) (s s' : TISt n K) :
    evs.foldlM (tiStepEv g U y trees t) s = .ok s' ↔
      (∀ k : Fin n, (k : Nat) ∈ evs.map (·.node) →
        tiFuse g (y k) t k (s.node k) (s.net.buf k) = .ok (s'.node k, s'.net.buf k)) ∧
      (∀ k : Fin n, (k : Nat) ∉ evs.map (·.node) →
        s'.node k = s.node k ∧ s'.net.buf k = s.net.buf k) ∧
      s' = { s with node := s'.node, net := { s.net with buf := s'.net.buf } } := by
  induction evs generalizing s with
  | nil =>
    simp only [List.foldlM_nil, List.map_nil, List.not_mem_nil, false_imp_iff, implies_true, true_and,
      not_false_eq_true, true_imp_iff]
    constructor
    · intro h
      injection h with h
      subst h
      exact ⟨fun _ => ⟨rfl, rfl⟩, rfl⟩
    · rintro ⟨h1, h2⟩
      have e1 : s'.node = s.node := funext fun k => (h1 k).1
      have e2 : s'.net.buf = s.net.buf := funext fun k => (h1 k).2
      rw [e1, e2] at h2
      rw [h2]
      rfl
  | cons e l ih =>
    obtain ⟨h1, h2⟩ := hty e (by simp)
    simp only [List.map_cons, List.nodup_cons] at hn
    have hk : ∀ k : Fin n, (k : Nat) = e.node ↔ k = ⟨e.node, h2⟩ := by
      intro k
      rw [Fin.ext_iff]
    rw [List.foldlM_cons]
    have hstep : tiStepEv g U y trees t s e = (do
      let r ← tiFuse g (y ⟨e.node, h2⟩) t e.node (s.node ⟨e.node, h2⟩) (s.net.buf ⟨e.node, h2⟩)
      .ok { s with
        node := Function.update s.node ⟨e.node, h2⟩ r.1
        net := { s.net with buf := Function.update s.net.buf ⟨e.node, h2⟩ r.2 } }) := by
      unfold tiStepEv
      rw [h1]
      simp only [dif_pos h2]
    rw [hstep]
    cases hf : tiFuse g (y ⟨e.node, h2⟩) t e.node (s.node ⟨e.node, h2⟩) (s.net.buf ⟨e.node, h2⟩) with
    | error err =>
      constructor
      · intro h; cases h
      · rintro ⟨h3, _⟩
        have := h3 ⟨e.node, h2⟩ (by simp)
        simp only at this
        rw [hf] at this
        cases this
    | ok r =>
      simp only [bind, Except.bind]
      have ih' := ih (fun e he => hty e (by simp [he])) hn.2
        { s with
          node := Function.update s.node ⟨e.node, h2⟩ r.1
          net := { s.net with buf := Function.update s.net.buf ⟨e.node, h2⟩ r.2 } }
      refine ih'.trans ?_
      simp only [List.map_cons, List.mem_cons, hk]
      constructor
      · rintro ⟨h3, h4, h5⟩
        refine ⟨?_, ?_, ?_⟩
        · intro k hkm
          by_cases hke : k = ⟨e.node, h2⟩
          · subst hke
            have := h4 ⟨e.node, h2⟩ hn.1
            simp only [Function.update_self] at this
            rw [this.1, this.2]
            exact hf
          · have := h3 k (hkm.resolve_left hke)
            simpa [Function.update_of_ne hke] using this
        · intro k hkm
          push Not at hkm
          have := h4 k hkm.2
          simpa [Function.update_of_ne hkm.1] using this
        · exact h5
      · rintro ⟨h3, h4, h5⟩
        refine ⟨?_, ?_, ?_⟩
        · intro k hkm
          have hke : k ≠ ⟨e.node, h2⟩ := by
            rintro rfl
            exact hn.1 hkm
          have := h3 k (.inr hkm)
          simpa [Function.update_of_ne hke] using this
        · intro k hkm
          by_cases hke : k = ⟨e.node, h2⟩
          · subst hke
            have := h3 ⟨e.node, h2⟩ (.inl rfl)
            simp only at this
            rw [hf] at this
            injection this with this
            simp [this]
          · have := h4 k (by push Not; exact ⟨hke, hkm⟩)
            simpa [Function.update_of_ne hke] using this
        · exact h5

/-- All updates of an instant. -/
theorem upPhase (evs : List OutEv) (hty : ∀ e ∈ evs, e.ty = .up ∧ e.node < n)
    (hn : (evs.map (·.node)).Nodup) (s s' : TISt n K) :
    evs.foldlM (tiStepEv g U y trees t) s = .ok s' ↔
      (∀ k : Fin n, ∀ e ∈ evs, e.node = k →
        tiUpdate g (U.rows k) (U.started k) (y k) t k e.bypass (s.node k) (s.net.etaMk k) = .ok (s'.node k)) ∧
      (∀ k : Fin n, (k : Nat) ∉ evs.map (·.node) → s'.node k = s.node k) ∧
      s' = { s with node := s'.node } := by
  induction evs generalizing s with
  | nil =>
    simp only [List.foldlM_nil, List.map_nil, List.not_mem_nil, false_imp_iff, implies_true, true_and,
      not_false_eq_true, true_imp_iff]
    constructor
    · intro h
      injection h with h
      subst h
      exact ⟨fun _ => rfl, rfl⟩
    · rintro ⟨h1, h2⟩
      have e1 : s'.node = s.node := funext fun k => (h1 k)
      rw [e1] at h2
      rw [h2]
      rfl
  | cons e l ih =>
    obtain ⟨h1, h2⟩ := hty e (by simp)
    simp only [List.map_cons, List.nodup_cons] at hn
    have hk : ∀ k : Fin n, (k : Nat) = e.node ↔ k = ⟨e.node, h2⟩ := by
      intro k
      rw [Fin.ext_iff]
    rw [List.foldlM_cons]
    have hstep : tiStepEv g U y trees t s e = (do
      let nd ← tiUpdate g (U.rows ⟨e.node, h2⟩) (U.started ⟨e.node, h2⟩) (y ⟨e.node, h2⟩) t e.node e.bypass
        (s.node ⟨e.node, h2⟩) (s.net.etaMk ⟨e.node, h2⟩)
      .ok { s with node := Function.update s.node ⟨e.node, h2⟩ nd }) := by
      unfold tiStepEv
      rw [h1]
      simp only [dif_pos h2]
    rw [hstep]
    cases hf : tiUpdate g (U.rows ⟨e.node, h2⟩) (U.started ⟨e.node, h2⟩) (y ⟨e.node, h2⟩) t e.node e.bypass
        (s.node ⟨e.node, h2⟩) (s.net.etaMk ⟨e.node, h2⟩) with
    | error err =>
      constructor
      · intro h; cases h
      · rintro ⟨h3, _⟩
        have := h3 ⟨e.node, h2⟩ e (by simp) rfl
        simp only at this
        rw [hf] at this
        cases this
    | ok r =>
      simp only [bind, Except.bind]
      have ih' := ih (fun e he => hty e (by simp [he])) hn.2
        { s with node := Function.update s.node ⟨e.node, h2⟩ r }
      refine ih'.trans ?_
      simp only [List.map_cons, List.mem_cons, hk]
      constructor
      · rintro ⟨h3, h4, h5⟩
        refine ⟨?_, ?_, ?_⟩
        · intro k e' he' hke'
          rcases he' with rfl | he'
          · have hke : k = ⟨e'.node, h2⟩ := (hk k).mp hke'.symm
            subst hke
            have := h4 ⟨e'.node, h2⟩ hn.1
            simp only [Function.update_self] at this
            rw [this]
            exact hf
          · have hke : k ≠ ⟨e.node, h2⟩ := by
              rintro rfl
              exact hn.1 (List.mem_map.mpr ⟨e', he', hke'⟩)
            have := h3 k e' he' hke'
            simpa [Function.update_of_ne hke] using this
        · intro k hkm
          push Not at hkm
          have := h4 k hkm.2
          simpa [Function.update_of_ne hkm.1] using this
        · exact h5
      · rintro ⟨h3, h4, h5⟩
        refine ⟨?_, ?_, ?_⟩
        · intro k e' he' hke'
          have hke : k ≠ ⟨e.node, h2⟩ := by
            rintro rfl
            exact hn.1 (List.mem_map.mpr ⟨e', he', hke'⟩)
          have := h3 k e' (.inr he') hke'
          simpa [Function.update_of_ne hke] using this
        · intro k hkm
          by_cases hke : k = ⟨e.node, h2⟩
          · subst hke
            have := h3 ⟨e.node, h2⟩ e (.inl rfl) rfl
            simp only at this
            rw [hf] at this
            injection this with this
            simp [this]
          · have := h4 k (by push Not; exact ⟨hke, hkm⟩)
            simpa [Function.update_of_ne hke] using this
        · exact h5

/-- Partial sums and relays act on the arrays of the in-network sum only. -/
theorem sumPhase {root : Fin n} {fused : Fin n → List K} (evs : List OutEv)
    (hty : ∀ e ∈ evs, (e.ty = .bc ∨ e.ty = .re) ∧ e.node < n) (s : TISt n K) (hr : s.root = some root) :
    evs.foldlM (tiStepEv g U y trees t) s = (do
      let net ← tiInstant s.up root g.N g.Ns fused s.net (evs.filterMap (toTIEv n))
      .ok { s with net := net }) := by
  induction evs generalizing s with
  | nil => rfl
  | cons e l ih =>
    obtain ⟨h1, h2⟩ := hty e (by simp)
    rw [List.foldlM_cons]
    rcases h1 with h1 | h1
    · have e1 : toTIEv n e = some (.bc ⟨e.node, h2⟩) := by
        unfold toTIEv
        simp [h1, h2]
      rw [List.filterMap_cons_some e1]
      have hstep : tiStepEv g U y trees t s e = (do
          let net ← tiPartialSum s.up root g.N g.Ns s.net ⟨e.node, h2⟩
          .ok { s with net := net }) := by
        unfold tiStepEv
        rw [h1]
        simp only [dif_pos h2, hr]
      rw [hstep]
      unfold tiInstant
      rw [List.foldlM_cons]
      simp only [tiEvent]
      cases hp : tiPartialSum s.up root g.N g.Ns s.net ⟨e.node, h2⟩ with
      | error err => rfl
      | ok net =>
        simp only [bind, Except.bind]
        exact ih (fun e he => hty e (by simp [he])) { s with net := net } hr
    · have e1 : toTIEv n e = some (.re ⟨e.node, h2⟩) := by
        unfold toTIEv
        simp [h1, h2]
      rw [List.filterMap_cons_some e1]
      have hstep : tiStepEv g U y trees t s e = (do
          let net ← tiRelay s.up s.net ⟨e.node, h2⟩
          .ok { s with net := net }) := by
        unfold tiStepEv
        rw [h1]
        simp only [dif_pos h2]
      rw [hstep]
      unfold tiInstant
      rw [List.foldlM_cons]
      simp only [tiEvent]
      cases hp : tiRelay s.up s.net ⟨e.node, h2⟩ with
      | error err => rfl
      | ok net =>
        simp only [bind, Except.bind]
        exact ih (fun e he => hty e (by simp [he])) { s with net := net } hr

end
end Danse
