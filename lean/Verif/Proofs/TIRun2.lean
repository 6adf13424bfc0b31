import Verif.Proofs.TIRun
import Verif.Props.Events

/-! # TI-DANSE runs: one instant -/

set_option linter.unusedSectionVars false

namespace Danse

theorem foldlM_keep {S A E : Type} {f : S → A → Except E S} {P : S → Prop}
    (hf : ∀ s a s', P s → f s a = .ok s' → P s') (l : List A) {s s' : S} (hs : P s)
    (h : l.foldlM f s = .ok s') : P s' := by
  induction l generalizing s with
  | nil =>
    injection h with h
    exact h ▸ hs
  | cons a l ih =>
    rw [List.foldlM_cons] at h
    obtain ⟨s1, h1, h2⟩ := Except.bind_ok h
    exact ih (hf _ _ _ hs h1) h2

section
variable {V K : Type} [DecidableEq V] [Field K]

theorem tiPartialSum_buf {up : V → List V} {root : V} {N Ns : Nat} {s s' : TIState V K} {k : V}
    (h : tiPartialSum up root N Ns s k = .ok s') : s'.buf = s.buf := by
  unfold tiPartialSum at h
  obtain ⟨s2, h2, h⟩ := Except.bind_ok h
  have hb : s2.buf = s.buf := by
    refine foldlM_keep (P := fun z => z.buf = s.buf) ?_ _ (by rfl) h2
    intro a l b ha hb
    split at hb
    · injection hb with hb
      exact hb ▸ ha
    · obtain ⟨z, _, hb⟩ := Except.bind_ok hb
      injection hb with hb
      subst hb
      exact ha
  split at h
  · obtain ⟨e, _, h⟩ := Except.bind_ok h
    injection h with h
    subst h
    exact hb
  · injection h with h
    exact h ▸ hb

theorem tiRelay_buf {up : V → List V} {s s' : TIState V K} {k : V}
    (h : tiRelay up s k = .ok s') : s'.buf = s.buf := by
  unfold tiRelay at h
  refine foldlM_keep (P := fun z => z.buf = s.buf) ?_ _ (by rfl) h
  intro a l b ha hb
  simp only at hb
  split at hb
  · obtain ⟨z, _, hb⟩ := Except.bind_ok hb
    injection hb with hb
    subst hb
    exact ha
  · injection hb with hb
    exact hb ▸ ha

/-- Partial sums and relays leave the outputs of the fusion as they are. -/
theorem tiInstant_buf {up : V → List V} {root : V} {N Ns : Nat} {s s' : TIState V K} {b c : List V}
    {fused : V → List K}
    (h : tiInstant up root N Ns fused s (b.map TIEv.bc ++ c.map TIEv.re) = .ok s') : s'.buf = s.buf := by
  unfold tiInstant at h
  rw [List.foldlM_append] at h
  obtain ⟨s1, h1, h2⟩ := Except.bind_ok h
  have e1 : s1.buf = s.buf := by
    rw [List.foldlM_map] at h1
    refine foldlM_keep (P := fun z => z.buf = s.buf) ?_ _ (by rfl) h1
    intro a l b ha hb
    exact (tiPartialSum_buf hb).trans ha
  rw [List.foldlM_map] at h2
  refine foldlM_keep (P := fun z => z.buf = s.buf) ?_ _ e1 h2
  intro a l b ha hb
  exact (tiRelay_buf hb).trans ha

/-- Fusions that give what is there already change nothing. -/
theorem tiInstant_fu_self {up : V → List V} {root : V} {N Ns : Nat} (s : TIState V K) (a : List V)
    (r : List (TIEv V)) :
    tiInstant up root N Ns s.buf s (a.map TIEv.fu ++ r) = tiInstant up root N Ns s.buf s r := by
  unfold tiInstant
  induction a with
  | nil => rfl
  | cons k a ih =>
    rw [List.map_cons, List.cons_append, List.foldlM_cons]
    have e : tiEvent up root N Ns s.buf s (.fu k) = .ok s := by
      simp only [tiEvent, Function.update_eq_self]
    rw [e]
    exact ih

end

/-- The nodes of a list of events. -/
def finNodes (n : Nat) (l : List OutEv) : List (Fin n) :=
  l.filterMap fun e => if h : e.node < n then some ⟨e.node, h⟩ else none

theorem mem_finNodes {n : Nat} {l : List OutEv} {k : Fin n} :
    k ∈ finNodes n l ↔ ∃ e ∈ l, e.node = k := by
  unfold finNodes
  rw [List.mem_filterMap]
  constructor
  · rintro ⟨e, he, h⟩
    split at h
    · injection h with h
      exact ⟨e, he, by rw [← h]⟩
    · cases h
  · rintro ⟨e, he, h⟩
    refine ⟨e, he, ?_⟩
    rw [dif_pos (by rw [h]; exact k.2)]
    simp [h]

theorem finNodes_pairwise {n : Nat} {l : List OutEv} {R : OutEv → OutEv → Prop} {Q : Fin n → Fin n → Prop}
    (h : l.Pairwise R) (hQ : ∀ x ∈ l, ∀ y ∈ l, R x y → ∀ a b : Fin n, x.node = a → y.node = b → Q a b) :
    (finNodes n l).Pairwise Q := by
  unfold finNodes
  rw [List.pairwise_filterMap]
  refine (List.Pairwise.and_mem.mp h).imp ?_
  rintro x y ⟨hx, hy, hxy⟩ a ha b hb
  split at ha
  · split at hb
    · injection ha with ha
      injection hb with hb
      exact hQ x hx y hy hxy a b (by rw [← ha]) (by rw [← hb])
    · cases hb
  · cases ha

theorem filterMap_toTIEv {n : Nat} (l : List OutEv) (ty : EvType) (c : Fin n → TIEv (Fin n))
    (hc : ∀ e : OutEv, e.ty = ty → toTIEv n e = if h : e.node < n then some (c ⟨e.node, h⟩) else none)
    (h : ∀ e ∈ l, e.ty = ty) : l.filterMap (toTIEv n) = (finNodes n l).map c := by
  induction l with
  | nil => rfl
  | cons e l ih =>
    have ih := ih fun e he => h e (by simp [he])
    have he := hc e (h e (by simp))
    unfold finNodes at ih ⊢
    by_cases hn : e.node < n
    · rw [List.filterMap_cons_some (by rw [he, dif_pos hn]),
        List.filterMap_cons_some (b := ⟨e.node, hn⟩) (by rw [dif_pos hn]), List.map_cons, ih]
    · rw [List.filterMap_cons_none (by rw [he, dif_neg hn]),
        List.filterMap_cons_none (by rw [dif_neg hn]), ih]

section
variable {n : Nat} {K : Type} [Field K] [StarRing K] [DecidableEq K]

/-- An exchange in a tree: every node has its new frame and the sum of the others'. -/
theorem exchange_net {T : TreeObj n} {lev : List Level} (hT : OrientedTree T lev) {evs : List OutEv}
    (hord : evs.Pairwise (TreeOrder lev)) (hbc : ∀ v : Fin n, ∃ e ∈ ofTy evs .bc, e.node = v)
    (hre : ∀ v : Fin n, ∃ e ∈ ofTy evs .re, e.node = v) {N Ns : Nat} (hNs : Ns < N)
    {s : TIState (Fin n) K} (hp : ∀ v, (s.prime v).length = N) (hb : ∀ v, Ns ≤ (s.buf v).length) :
    ∃ s', tiInstant T.up T.root N Ns s.buf s ((ofTy evs .bc ++ ofTy evs .re).filterMap (toTIEv n)) = .ok s' ∧
      s'.buf = s.buf ∧ (∀ k, s'.prime k = newFrame Ns s.prime s.buf k) ∧
      ∀ k, s'.etaMk k = sumOthers N s'.prime k := by
  obtain ⟨G, nbr, o, hG, hnb, ho, hup, rfl⟩ := hT
  have hlev := (C21_ordering_covers hG hnb T.root (by omega) ho).2
  have h1 : (ofTy evs .bc).filterMap (toTIEv n) = (finNodes n (ofTy evs .bc)).map TIEv.bc :=
    filterMap_toTIEv _ .bc _ (by intro e he; unfold toTIEv; simp [he]) fun e he => (mem_ofTy.mp he).2
  have h2 : (ofTy evs .re).filterMap (toTIEv n) = (finNodes n (ofTy evs .re)).map TIEv.re :=
    filterMap_toTIEv _ .re _ (by intro e he; unfold toTIEv; simp [he]) fun e he => (mem_ofTy.mp he).2
  have hsub : ∀ ty, (ofTy evs ty).Pairwise (TreeOrder (o.2.map TreeLevel.toLevel)) := fun ty => hord.filter _
  obtain ⟨s', e1, e2⟩ := C22_in_network_sum (K := K) hG hnb T.root (by simp) ho hNs hp hb
    (fus := List.finRange n) (bcs := finNodes n (ofTy evs .bc)) (res := finNodes n (ofTy evs .re))
    (by simp) (fun v => mem_finNodes.mpr (hbc v))
    (finNodes_pairwise (hsub _) (by
      intro x hx y hy hxy a b ha hb hab
      refine hxy.node_ne ((mem_ofTy.mp hx).2.trans (mem_ofTy.mp hy).2.symm) ?_
      rw [ha, hb, hab]))
    (finNodes_pairwise (hsub _) (by
      intro x hx y hy hxy a b ha hb
      have la := hlev a
      have lb := hlev b
      have tx := (mem_ofTy.mp hx).2
      have ty := (mem_ofTy.mp hy).2
      unfold TreeOrder at hxy
      rw [tx, ty, ha, hb] at hxy
      simp [evRank] at hxy
      omega))
    (fun v => mem_finNodes.mpr (hre v))
    (finNodes_pairwise (hsub _) (by
      intro x hx y hy hxy a b ha hb
      have la := hlev a
      have lb := hlev b
      have tx := (mem_ofTy.mp hx).2
      have ty := (mem_ofTy.mp hy).2
      unfold TreeOrder at hxy
      rw [tx, ty, ha, hb] at hxy
      simp [evRank] at hxy
      omega))
  rw [List.append_assoc, tiInstant_fu_self] at e1
  refine ⟨s', ?_, tiInstant_buf e1, fun k => (e2 k).1, ?_⟩
  · rw [List.filterMap_append, h1, h2, hup]
    exact e1
  · intro k
    obtain ⟨_, _, h3, h4⟩ := e2 k
    unfold sumOthers
    apply List.ext_getElem
    · simp [h3]
    · intro i hi hi'
      have := (h4 i (by simpa using hi')).2
      unfold at0 at this
      rw [List.getD_eq_getElem?_getD, List.getElem?_eq_getElem hi, Option.getD_some] at this
      rw [this]
      simp only [List.getElem_map, List.getElem_range]
      apply Finset.sum_congr rfl
      intro v _
      rw [(e2 v).1]
      rfl

end
end Danse
