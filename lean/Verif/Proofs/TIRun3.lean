import Verif.Proofs.TIRun2

/-! # TI-DANSE runs: one instant is a direct exchange followed by updates -/

set_option linter.unusedSectionVars false

namespace Danse

theorem ups_some {evs : List OutEv} {t : ℚ} (hn : ((ofTy evs .up).map (·.node)).Nodup) {e : OutEv}
    (he : e ∈ ofTy evs .up) : (workOf ⟨t, evs⟩).ups e.node = some e.bypass := by
  unfold workOf
  simp only
  have hne : (evs.find? fun e' => decide (e'.ty = .up ∧ e'.node = e.node)) = some e := by
    cases hf : evs.find? fun e' => decide (e'.ty = .up ∧ e'.node = e.node) with
    | none =>
      rw [List.find?_eq_none] at hf
      have := hf e (mem_ofTy.mp he).1
      simp [(mem_ofTy.mp he).2] at this
    | some e' =>
      have h1 := List.find?_some hf
      have h2 := List.mem_of_find?_eq_some hf
      simp only [decide_eq_true_eq] at h1
      congr 1
      exact List.inj_on_of_nodup_map hn (mem_ofTy.mpr ⟨h2, h1.1⟩) he h1.2
  rw [hne]
  rfl

theorem ups_none {evs : List OutEv} {t : ℚ} {k : Nat} (hk : k ∉ (ofTy evs .up).map (·.node)) :
    (workOf ⟨t, evs⟩).ups k = none := by
  unfold workOf
  simp only [Option.map_eq_none_iff, List.find?_eq_none, decide_eq_true_eq]
  rintro e he ⟨h1, h2⟩
  exact hk (List.mem_map.mpr ⟨e, mem_ofTy.mpr ⟨he, h1⟩, h2⟩)

theorem TIView.ext_iff' {n : Nat} {K : Type} (a b : TIView n K) :
    a = b ↔ a.node = b.node ∧ a.buf = b.buf ∧ a.frame = b.frame ∧ a.eta = b.eta := by
  cases a; cases b
  simp

/-- The events of an instant are those of an exchange in which every node takes part, or of none. -/
def AllExchange (n : Nat) (evs : List OutEv) : Prop :=
  (∀ ty ∈ [EvType.fu, .bc, .re], ∀ v : Fin n, ∃ e ∈ evs, e.ty = ty ∧ e.node = v) ∨
  ∀ e ∈ evs, e.ty ∉ [EvType.fu, .bc, .re]

section
variable {n : Nat} {K : Type} [Field K] [StarRing K] [DecidableEq K]
variable {g : GivenCfg K} {U : TIStrategy n K} {y : Fin n → List (List K)} {trees : List (TreeObj n)} {t : ℚ}

/-- The updates of an instant. -/
theorem direct_updates {evs : List OutEv} (hnode : ∀ e ∈ evs, e.node < n)
    (hn : ((ofTy evs .up).map (·.node)).Nodup) (s s' : TISt n K) :
    (ofTy evs .up).foldlM (tiStepEv g U y trees t) s = .ok s' ↔
      DirectUpdates g U y (workOf ⟨t, evs⟩) s.view s'.view ∧ s' = { s with node := s'.node } := by
  rw [upPhase _ (fun e he => ⟨(mem_ofTy.mp he).2, hnode e (mem_ofTy.mp he).1⟩) hn]
  constructor
  · rintro ⟨h1, h2, h3⟩
    have e3 : s'.net = s.net := by rw [h3]
    refine ⟨⟨by simp [TISt.view, e3], by simp [TISt.view, e3], by simp [TISt.view, e3], ?_⟩, h3⟩
    intro k
    by_cases hk : (k : Nat) ∈ (ofTy evs .up).map (·.node)
    · obtain ⟨e, he, hek⟩ := List.mem_map.mp hk
      have := ups_some (t := t) hn he
      rw [hek] at this
      rw [this]
      exact h1 k e he hek
    · rw [ups_none hk]
      exact h2 k hk
  · rintro ⟨⟨_, _, _, h1⟩, h3⟩
    refine ⟨?_, ?_, h3⟩
    · intro k e he hek
      have h2 := h1 k
      have := ups_some (t := t) hn he
      rw [hek] at this
      rw [this] at h2
      exact h2
    · intro k hk
      have h2 := h1 k
      rw [ups_none hk] at h2
      exact h2

/-- One instant without tree formation, in a network whose tree is in force. -/
theorem instant_direct {T : TreeObj n} {lev : List Level} (hT : OrientedTree T lev) {evs : List OutEv}
    (hord : evs.Pairwise (TreeOrder lev)) (hnode : ∀ e ∈ evs, e.node < n) (htr : ofTy evs .tr = [])
    (hall : AllExchange n evs) (hNs : g.Ns < g.N)
    {s : TISt n K}
    (hbuf : (∃ e ∈ evs, e.ty = .fu) → ∀ (k : Fin n) r, tiFuse g (y k) t k (s.node k) (s.net.buf k) = .ok r →
      g.Ns ≤ r.2.length) (hup : s.up = T.up) (hr : s.root = some T.root) (hp : ∀ v, (s.net.prime v).length = g.N) :
    (∀ s', evs.foldlM (tiStepEv g U y trees t) s = .ok s' →
      DirectStep g U y (workOf ⟨t, evs⟩) s.view s'.view ∧ s'.up = s.up ∧ s'.root = s.root ∧
      s'.formed = s.formed ∧ ∀ v, (s'.net.prime v).length = g.N) ∧
    ∀ b, DirectStep g U y (workOf ⟨t, evs⟩) s.view b →
      ∃ s', evs.foldlM (tiStepEv g U y trees t) s = .ok s' ∧ s'.view = b := by
  have hn : ∀ ty, ((ofTy evs ty).map (·.node)).Nodup := ofTy_nodes hord
  have hsplit := split_rank (hord.imp fun h => h.rank_le)
  rw [htr, List.nil_append] at hsplit
  have hfold : evs.foldlM (tiStepEv g U y trees t) s =
      (ofTy evs .fu ++ (ofTy evs .bc ++ (ofTy evs .re ++ ofTy evs .up))).foldlM (tiStepEv g U y trees t) s := by
    rw [← hsplit]
  rw [hfold]
  clear hfold
  rcases hall with hall | hall
  · have hex : (workOf ⟨t, evs⟩).exchange = true := by
      unfold workOf
      obtain ⟨e, he, h1, _⟩ := hall .fu (by simp) T.root
      simp only [List.any_eq_true, decide_eq_true_eq]
      exact ⟨e, he, h1⟩
    have hofTy : ∀ ty ∈ [EvType.fu, .bc, .re], ∀ v : Fin n, ∃ e ∈ ofTy evs ty, e.node = v := by
      intro ty hty v
      obtain ⟨e, he, h1, h2⟩ := hall ty hty v
      exact ⟨e, mem_ofTy.mpr ⟨he, h1⟩, h2⟩
    have hfu := fuPhase (g := g) (U := U) (y := y) (trees := trees) (t := t) (ofTy evs .fu)
      (fun e he => ⟨(mem_ofTy.mp he).2, hnode e (mem_ofTy.mp he).1⟩) (hn .fu) s
    have hmem : ∀ k : Fin n, (k : Nat) ∈ (ofTy evs .fu).map (·.node) := by
      intro k
      obtain ⟨e, he, h1⟩ := hofTy .fu (by simp) k
      exact List.mem_map.mpr ⟨e, he, h1⟩
    have hbuf := hbuf (by
      obtain ⟨e, he, h1, _⟩ := hall .fu (by simp) T.root
      exact ⟨e, he, h1⟩)
    -- the exchange, after the fusions
    have hmid : ∀ s1 : TISt n K, (ofTy evs .fu).foldlM (tiStepEv g U y trees t) s = .ok s1 →
        ∃ net', (ofTy evs .bc ++ ofTy evs .re).foldlM (tiStepEv g U y trees t) s1 =
            .ok { s1 with net := net' } ∧
          DirectExchange g y t s.view (TISt.view { s1 with net := net' }) ∧
          ∀ v, (net'.prime v).length = g.N := by
      intro s1 h1
      obtain ⟨h2, _, h3⟩ := (hfu s1).mp h1
      have e1 : s1.net.prime = s.net.prime := by rw [h3]
      have e2 : s1.up = T.up := by rw [h3]; exact hup
      have e3 : s1.root = some T.root := by rw [h3]; exact hr
      have hb1 : ∀ v, g.Ns ≤ (s1.net.buf v).length := fun v => hbuf v _ (h2 v (hmem v))
      obtain ⟨net', n1, n2, n3, n4⟩ := exchange_net hT hord (hofTy .bc (by simp)) (hofTy .re (by simp)) hNs
        (s := s1.net) (by rw [e1]; exact hp) hb1
      refine ⟨net', ?_, ?_, ?_⟩
      · rw [sumPhase (root := T.root) (fused := s1.net.buf) _ ?_ s1 e3, e2, n1]
        · rfl
        · intro e he
          rcases List.mem_append.mp he with he | he
          · exact ⟨.inl (mem_ofTy.mp he).2, hnode e (mem_ofTy.mp he).1⟩
          · exact ⟨.inr (mem_ofTy.mp he).2, hnode e (mem_ofTy.mp he).1⟩
      · intro k
        simp only [TISt.view]
        refine ⟨?_, ?_, n4 k⟩
        · rw [n2]
          exact h2 k (hmem k)
        · rw [n3 k, n2, e1]
      · intro v
        rw [n3 v]
        unfold newFrame
        rw [List.length_append, List.length_drop, List.length_take, e1, hp v]
        have := hb1 v
        omega
    constructor
    · intro s' h
      rw [List.foldlM_append] at h
      obtain ⟨s1, h1, h⟩ := Except.bind_ok h
      obtain ⟨net', m1, m2, m3⟩ := hmid s1 h1
      rw [← List.append_assoc, List.foldlM_append, m1] at h
      have h : (ofTy evs .up).foldlM (tiStepEv g U y trees t) { s1 with net := net' } = .ok s' := h
      rw [direct_updates hnode (hn .up)] at h
      obtain ⟨h2, h3⟩ := h
      obtain ⟨_, _, h4⟩ := (hfu s1).mp h1
      refine ⟨⟨_, ?_, h2⟩, ?_, ?_, ?_, ?_⟩
      · rw [hex]
        exact m2
      · rw [h3]; simp only; rw [h4]
      · rw [h3]; simp only; rw [h4]
      · rw [h3]; simp only; rw [h4]
      · intro v
        rw [h3]
        exact m3 v
    · rintro b ⟨m, hm, hb⟩
      rw [hex] at hm
      have hm : DirectExchange g y t s.view m := hm
      have h1 : (ofTy evs .fu).foldlM (tiStepEv g U y trees t) s =
          .ok { s with node := m.node, net := { s.net with buf := m.buf } } := by
        rw [hfu]
        exact ⟨fun k _ => (hm k).1, fun k hk => absurd (hmem k) hk, rfl⟩
      obtain ⟨net', m1, m2, _⟩ := hmid _ h1
      have hv : TISt.view { s with node := m.node, net := net' } = m := by
        have h2 : m.frame = net'.prime := by
          funext k
          have e1 := (hm k).2.1
          have e2 := (m2 k).2.1
          have e3 := (m2 k).1.symm.trans (hm k).1
          simp only [TISt.view] at e2 e3
          injection e3 with e3
          injection e3 with _ e3
          rw [e1, e2]
          unfold newFrame
          rw [e3]
          rfl
        rw [TIView.ext_iff']
        refine ⟨rfl, ?_, h2.symm, ?_⟩
        · funext k
          have e3 := (m2 k).1.symm.trans (hm k).1
          simp only [TISt.view] at e3
          injection e3 with e3
          injection e3 with _ e3
        · funext k
          have e1 := (hm k).2.2
          have e2 := (m2 k).2.2
          simp only [TISt.view] at e2
          rw [e1, h2]
          exact e2
      rw [List.foldlM_append, h1]
      refine ⟨{ s with node := b.node, net := net' }, ?_, ?_⟩
      · show (ofTy evs .bc ++ (ofTy evs .re ++ ofTy evs .up)).foldlM (tiStepEv g U y trees t) _ = _
        rw [← List.append_assoc, List.foldlM_append, m1]
        show (ofTy evs .up).foldlM (tiStepEv g U y trees t) _ = _
        rw [direct_updates hnode (hn .up)]
        refine ⟨?_, rfl⟩
        simp only
        rw [hv]
        obtain ⟨b1, b2, b3, b4⟩ := hb
        refine ⟨?_, ?_, ?_, b4⟩
        · rw [← hv]; rfl
        · rw [← hv]; rfl
        · rw [← hv]; rfl
      · obtain ⟨b1, b2, b3, b4⟩ := hb
        rw [TIView.ext_iff']
        refine ⟨rfl, ?_, ?_, ?_⟩
        · rw [b1, ← hv]; rfl
        · rw [b2, ← hv]; rfl
        · rw [b3, ← hv]; rfl
  · have hex : (workOf ⟨t, evs⟩).exchange = false := by
      unfold workOf
      simp only [List.any_eq_false, decide_eq_true_eq]
      intro e he h
      exact hall e he (by simp [h])
    have hnil : ∀ ty ∈ [EvType.fu, .bc, .re], ofTy evs ty = [] := by
      intro ty hty
      unfold ofTy
      rw [List.filter_eq_nil_iff]
      intro e he h
      exact hall e he (by rw [of_decide_eq_true h]; exact hty)
    rw [hnil .fu (by simp), hnil .bc (by simp), hnil .re (by simp)]
    simp only [List.nil_append]
    constructor
    · intro s' h
      rw [direct_updates hnode (hn .up)] at h
      obtain ⟨h2, h3⟩ := h
      refine ⟨⟨s.view, ?_, h2⟩, ?_, ?_, ?_, ?_⟩
      · rw [hex]; rfl
      · rw [h3]
      · rw [h3]
      · rw [h3]
      · intro v
        rw [h3]
        exact hp v
    · rintro b ⟨m, hm, hb⟩
      rw [hex] at hm
      have hm : m = s.view := hm
      subst hm
      refine ⟨{ s with node := b.node }, ?_, ?_⟩
      · rw [direct_updates hnode (hn .up)]
        refine ⟨⟨rfl, rfl, rfl, hb.2.2.2⟩, rfl⟩
      · obtain ⟨b1, b2, b3, b4⟩ := hb
        rw [TIView.ext_iff']
        refine ⟨rfl, ?_, ?_, ?_⟩
        · rw [b1]; rfl
        · rw [b2]; rfl
        · rw [b3]; rfl

end
end Danse
