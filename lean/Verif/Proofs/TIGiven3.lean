import Verif.Proofs.TIGiven2
import Verif.Proofs.Online2

/-!
# Helper lemmas: few-sample TI-DANSE does not read the weight on the in-network sum
-/

set_option linter.unusedSectionVars false

namespace Danse
section
variable {n : Nat} {K : Type} [Field K] [StarRing K] [DecidableEq K] {g : GivenCfg K}

theorem mapM_take_ok {α β : Type} {f : α → Except PyErr β} {l : List α} {r : List β} (h : l.mapM f = .ok r) (M : Nat) :
    (l.take M).mapM f = .ok (r.take M) := by
  induction l generalizing r M with
  | nil => rw [List.mapM_nil] at h; cases h; simp; rfl
  | cons x l ih =>
    rw [List.mapM_cons] at h
    obtain ⟨b, h1, h⟩ := Except.bind_ok h
    obtain ⟨bs, h2, h⟩ := Except.bind_ok h
    cases h
    cases M with
    | zero => simp; rfl
    | succ M =>
      simp only [List.take_succ_cons, List.mapM_cons]
      rw [h1, ih h2 M]
      rfl

theorem zip_take_length {α β : Type} (w : List α) (y : List β) : (w.take y.length).zip y = w.zip y := by
  induction w generalizing y with
  | nil => simp
  | cons a w ih => cases y with
    | nil => simp
    | cons b y => simp [ih]

theorem fewSamples_take (L P : Nat) (w y : List (List K)) :
    fewSamples L P (w.take y.length) y = fewSamples L P w y := by
  unfold fewSamples
  rw [zip_take_length]

/-- The variables of a node with `M` sensors agree but for what the weight on the in-network sum touches. -/
structure NodeNoGk (M : Nat) (a b : TINode K) : Prop where
  ext : a.ext.take M = b.ext.take M
  wIR : a.wIR.take M = b.wIR.take M
  lastUp : a.lastUp = b.lastUp
  lastBc : a.lastBc = b.lastBc
  hist : a.hist = b.hist
  d : a.d = b.d
  dLoc : a.dLoc = b.dLoc

theorem tiFuse_noGk {L : Nat} {eff : Bool} (hb : g.bc = .few L eff) {yk : List (List K)} {t : ℚ} {k : Nat}
    {a b : TINode K} (h : NodeNoGk yk.length a b) (buf : List K) :
    Ok2 (fun x y => NodeNoGk yk.length x.1 y.1 ∧ x.2 = y.2) (tiFuse g yk t k a buf) (tiFuse g yk t k b buf) := by
  intro x y hx hy
  unfold tiFuse at hx hy
  obtain ⟨fr, h1, hx⟩ := Except.bind_ok hx
  obtain ⟨fr', h1', hy⟩ := Except.bind_ok hy
  rw [h1] at h1'
  cases h1'
  have hlen : (fr.map (·.1)).length = yk.length := by
    rw [List.length_map]; exact (mapM_ok_forall₂ h1).length_eq.symm
  split at hx
  · next hc =>
    rw [if_pos hc] at hy
    cases hx; cases hy
    exact ⟨h, rfl⟩
  · next hc =>
    rw [if_neg hc] at hy
    rw [hb] at hx hy
    simp only at hx hy
    obtain ⟨l, h2, hx⟩ := Except.bind_ok hx
    obtain ⟨w, h3, hx⟩ := Except.bind_ok hx
    obtain ⟨z, h4, hx⟩ := Except.bind_ok hx
    obtain ⟨l', h2', hy⟩ := Except.bind_ok hy
    obtain ⟨w', h3', hy⟩ := Except.bind_ok hy
    obtain ⟨z', h4', hy⟩ := Except.bind_ok hy
    have hl : l = l' := by
      unfold tiCurrL at h2 h2'
      rw [h.lastBc, h2'] at h2
      cases h2; rfl
    have hw : w.take yk.length = w'.take yk.length := by
      unfold tiBcFilter at h3 h3'
      rw [h.lastUp] at h3
      split at h3
      · next hc =>
        rw [if_pos hc] at h3'
        have e1 := mapM_take_ok h3 yk.length
        have e2 := mapM_take_ok h3' yk.length
        rw [h.ext, e2] at e1
        injection e1 with e1
        exact e1.symm
      · next hc =>
        rw [if_neg hc] at h3'
        cases h3; cases h3'
        exact h.wIR
    have hz : z = z' := by
      rw [← fewSamples_take, hlen, hl, hw] at h4
      rw [← fewSamples_take, hlen, h4] at h4'
      cases h4'; rfl
    cases hx; cases hy
    exact ⟨⟨h.ext, hw, by simp only [h.lastUp], by simp only [h.lastBc], h.hist, h.d, h.dLoc⟩, hz⟩

theorem tiUpdate_noGk {rows rows' : List (TIObs K) → Rows K} {st st' : List (TIObs K) → Bool} {yk : List (List K)}
    (hr : ∀ h, (rows h).int = (rows' h).int ∧ (rows h).loc = (rows' h).loc ∧
      (rows h).ext.take yk.length = (rows' h).ext.take yk.length)
    {t : ℚ} {k : Nat} {bp : Bool} {a b : TINode K} (h : NodeNoGk yk.length a b) (eta : List K) :
    Ok2 (NodeNoGk yk.length) (tiUpdate g rows st yk t k bp a eta) (tiUpdate g rows' st' yk t k bp b eta) := by
  intro x y hx hy
  unfold tiUpdate at hx hy
  obtain ⟨fr, h1, hx⟩ := Except.bind_ok hx
  obtain ⟨fr', h1', hy⟩ := Except.bind_ok hy
  rw [h1] at h1'
  cases h1'
  split at hx
  · cases hx
  · next hc =>
    rw [if_neg hc] at hy
    simp only at hx hy
    obtain ⟨d, h2, hx⟩ := Except.bind_ok hx
    obtain ⟨l, h3, hx⟩ := Except.bind_ok hx
    obtain ⟨d', h2', hy⟩ := Except.bind_ok hy
    obtain ⟨l', h3', hy⟩ := Except.bind_ok hy
    rw [← h.hist, ← (hr _).1, ← h.d, h2] at h2'
    rw [← h.hist, ← (hr _).2.1, ← h.dLoc, h3] at h3'
    cases h2'; cases h3'
    cases hx; cases hy
    exact ⟨by simp only [h.hist]; exact (hr _).2.2, h.wIR, h.lastUp, h.lastBc, by simp only [h.hist], rfl, rfl⟩

structure StNoGk (M : Fin n → Nat) (a b : TISt n K) : Prop where
  net : a.net = b.net
  up : a.up = b.up
  root : a.root = b.root
  formed : a.formed = b.formed
  node : ∀ k, NodeNoGk (M k) (a.node k) (b.node k)

theorem NodeNoGk.update {M : Fin n → Nat} {a b : Fin n → TINode K} (h : ∀ k, NodeNoGk (M k) (a k) (b k)) (j : Fin n)
    {x y : TINode K} (hx : NodeNoGk (M j) x y) (k : Fin n) :
    NodeNoGk (M k) (Function.update a j x k) (Function.update b j y k) := by
  by_cases e : k = j
  · subst e; simpa using hx
  · simpa [Function.update_of_ne e] using h k

theorem Ok2.foldlM {α β δ : Type} {R : α → β → Prop} {f : α → δ → Except PyErr α} {f' : β → δ → Except PyErr β}
    (l : List δ) (hf : ∀ x y e, R x y → Ok2 R (f x e) (f' y e)) : ∀ {x : α} {y : β}, R x y →
    Ok2 R (l.foldlM f x) (l.foldlM f' y) := by
  induction l with
  | nil => intro x y h; exact Ok2.ok h
  | cons e l ih =>
    intro x y h
    simp only [List.foldlM_cons]
    exact (hf x y e h).bind (fun _ _ h' => ih h')

theorem tiStepEv_noGk {U U' : TIStrategy n K} {y : Fin n → List (List K)} {trees : List (TreeObj n)} {t : ℚ}
    {L : Nat} {eff : Bool} (hb : g.bc = .few L eff)
    (hr : ∀ k h, (U.rows k h).int = (U'.rows k h).int ∧ (U.rows k h).loc = (U'.rows k h).loc ∧
      (U.rows k h).ext.take (y k).length = (U'.rows k h).ext.take (y k).length)
    {a b : TISt n K} (h : StNoGk (fun k => (y k).length) a b) (e : OutEv) :
    Ok2 (StNoGk fun k => (y k).length) (tiStepEv g U y trees t a e) (tiStepEv g U' y trees t b e) := by
  unfold tiStepEv
  cases e.ty with
  | tr =>
    simp only
    rw [h.formed]
    cases trees[b.formed]? with
    | none => exact Ok2.errL
    | some T => exact Ok2.ok ⟨h.net, rfl, rfl, rfl, h.node⟩
  | fu =>
    simp only
    split
    · next hk =>
      rw [h.net]
      refine (tiFuse_noGk hb (h.node ⟨e.node, hk⟩) _).bind ?_
      rintro x z ⟨h1, h2⟩
      refine Ok2.ok ⟨?_, h.up, h.root, h.formed, NodeNoGk.update (M := fun k => (y k).length) h.node _ h1⟩
      simp only [h2]
    · exact Ok2.errL
  | bc =>
    simp only
    rw [h.root, h.up, h.net]
    split
    · cases b.root with
      | none => exact Ok2.errL
      | some root =>
        refine (Ok2.refl _).bind ?_
        rintro x _ rfl
        exact Ok2.ok ⟨rfl, rfl, rfl, h.formed, h.node⟩
    · exact Ok2.errL
  | re =>
    simp only
    rw [h.up, h.net]
    split
    · refine (Ok2.refl _).bind ?_
      rintro x _ rfl
      exact Ok2.ok ⟨rfl, rfl, h.root, h.formed, h.node⟩
    · exact Ok2.errL
  | up =>
    simp only
    split
    · next hk =>
      rw [h.net]
      refine (tiUpdate_noGk (hr ⟨e.node, hk⟩) (h.node ⟨e.node, hk⟩) _).bind ?_
      intro x z h1
      exact Ok2.ok ⟨rfl, h.up, h.root, h.formed, NodeNoGk.update (M := fun k => (y k).length) h.node _ h1⟩
    · exact Ok2.errL

theorem tiRun_noGk {U U' : TIStrategy n K} {y : Fin n → List (List K)} {trees : List (TreeObj n)}
    {L : Nat} {eff : Bool} (hb : g.bc = .few L eff)
    (hr : ∀ k h, (U.rows k h).int = (U'.rows k h).int ∧ (U.rows k h).loc = (U'.rows k h).loc ∧
      (U.rows k h).ext.take (y k).length = (U'.rows k h).ext.take (y k).length)
    {a b : TISt n K} (h : StNoGk (fun k => (y k).length) a b) (out : List (Instant ℚ)) :
    Ok2 (StNoGk fun k => (y k).length) (tiRun g U y trees a out) (tiRun g U' y trees b out) := by
  unfold tiRun
  refine Ok2.foldlM out ?_ h
  intro x y i hxy
  unfold tiStepInstant
  exact Ok2.foldlM i.evs (fun x y e hxy => tiStepEv_noGk hb hr hxy e) hxy

end
end Danse
