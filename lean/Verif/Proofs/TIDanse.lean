import Verif.Spec.TIDanse
import Verif.Proofs.Danse4
import Verif.Proofs.TIGiven2
import Verif.Proofs.TIRun11

/-!
# Helper lemmas for C119: the updates of a node of a TI-DANSE run
-/

set_option linter.unusedSectionVars false

namespace Danse
section
variable {F n K W T : Type} [Fintype n] [Field K] [StarRing K] [Preorder T] [DecidableLE T]

/-- Matrices, start flag and index do not depend on the filters. -/
theorem nodeStep_like {c : NodeCfg F n K W T} {s s' : NodeSt F n K W} (h1 : s.scm = s'.scm)
    (h2 : s.started = s'.started) (h3 : s.i = s'.i) (y : Frame F n K) (v : Bool) (t : T) (b : Bool) :
    (nodeStep c s y v t b).scm = (nodeStep c s' y v t b).scm ∧
    (nodeStep c s y v t b).started = (nodeStep c s' y v t b).started ∧
    (nodeStep c s y v t b).i = (nodeStep c s' y v t b).i := by
  rw [nodeStep_scm, nodeStep_scm, nodeStep_started, nodeStep_started, nodeStep_i, nodeStep_i, h1, h2, h3]
  exact ⟨rfl, rfl, rfl⟩

/-- The rows of one update. -/
theorem nodeStep_row (c : NodeCfg F n K W T) (s : NodeSt F n K W) (y : Frame F n K) (v : Bool) (t : T) (b : Bool) :
    (nodeStep c s y v t b).w (s.i + 1) =
      (if b then s.w s.i
      else if c.bypassAll = false ∧ (nodeStep c s y v t b).started = true then
        c.upd (nodeStep c s y v t b).scm.ryy (nodeStep c s y v t b).scm.rnn
      else s.w (s.i + 1)) ∧
    ∀ j, j ≠ s.i + 1 → (nodeStep c s y v t b).w j = s.w j := by
  rw [nodeStep_scm, nodeStep_started]
  unfold nodeStep
  simp only
  cases b with
  | true =>
    simp only [if_true]
    exact ⟨trivial, fun j hj => by rw [if_neg hj]⟩
  | false =>
    simp only [Bool.false_eq_true, if_false]
    by_cases h : c.bypassAll = false ∧
        checkCov c (scmUpdate c.use1st c.beta s.scm y v v) s.started t = true
    · rw [if_pos h, if_pos h]
      simp only [if_true]
      exact ⟨trivial, fun j hj => by rw [if_neg hj]⟩
    · rw [if_neg h, if_neg h]
      exact ⟨rfl, fun j _ => rfl⟩

end

section
variable {K : Type} [Field K] [StarRing K] [DecidableEq K] {D : DanseCfg K} {k : Nat}

theorem tiHeard_snoc (h : List (TIObs K)) (o : TIObs K) : D.tiHeard k (h ++ [o]) = D.tiHeard k h ++
    [⟨D.spectra (D.M k + 1) (o.loc ++ [o.eta]), D.vad k h.length, o.t, o.bypass⟩] := by
  unfold DanseCfg.tiHeard
  rw [List.zipIdx_append, List.map_append]
  simp only [List.zipIdx_cons, List.zipIdx_nil, List.map_cons, List.map_nil, zero_add]
  rfl

theorem tiHeardLoc_snoc (h : List (TIObs K)) (o : TIObs K) : D.tiHeardLoc k (h ++ [o]) = D.tiHeardLoc k h ++
    [⟨D.spectra (D.M k) o.loc, D.vad k h.length, o.t, o.bypass⟩] := by
  unfold DanseCfg.tiHeardLoc
  rw [List.zipIdx_append, List.map_append]
  simp only [List.zipIdx_cons, List.zipIdx_nil, List.map_cons, List.map_nil, zero_add]
  rfl

theorem tiHeard_length (h : List (TIObs K)) : (D.tiHeard k h).length = h.length := by simp [DanseCfg.tiHeard]

theorem tiHeardLoc_length (h : List (TIObs K)) : (D.tiHeardLoc k h).length = h.length := by
  simp [DanseCfg.tiHeardLoc]

theorem tiHeard_vad (k : Nat) (h : List (TIObs K)) :
    (D.tiHeard k h).map (·.vad) = (List.range h.length).map (D.vad k) := by
  induction h using List.reverseRecOn with
  | nil => rfl
  | append_singleton h o ih => rw [tiHeard_snoc, List.map_append, ih]; simp [List.range_succ]

theorem tiHeardLoc_vad (k : Nat) (h : List (TIObs K)) :
    (D.tiHeardLoc k h).map (·.vad) = (List.range h.length).map (D.vad k) := by
  induction h using List.reverseRecOn with
  | nil => rfl
  | append_singleton h o ih => rw [tiHeardLoc_snoc, List.map_append, ih]; simp [List.range_succ]

theorem tiHeard_t (k : Nat) (h : List (TIObs K)) : (D.tiHeard k h).map (·.t) = h.map (·.t) := by
  induction h using List.reverseRecOn with
  | nil => rfl
  | append_singleton h o ih => rw [tiHeard_snoc, List.map_append, ih]; simp

theorem tiHeardLoc_t (k : Nat) (h : List (TIObs K)) : (D.tiHeardLoc k h).map (·.t) = h.map (·.t) := by
  induction h using List.reverseRecOn with
  | nil => rfl
  | append_singleton h o ih => rw [tiHeardLoc_snoc, List.map_append, ih]; simp

theorem tiNodeFold_snoc (h : List (TIObs K)) (o : TIObs K) :
    D.tiNodeFold k (h ++ [o]) = (D.tiNodeFold k h >>= fun p => D.tiNodeUpdate k p.1 o) := by
  unfold DanseCfg.tiNodeFold
  rw [List.foldlM_append]
  congr 1
  funext p
  rw [List.foldlM_cons]
  cases D.tiNodeUpdate k p.1 o <;> rfl

theorem tiNodeFold_prefix {h h' : List (TIObs K)} (hp : h' <+: h) {p} (hk : D.tiNodeFold k h = .ok p) :
    ∃ q, D.tiNodeFold k h' = .ok q := by
  obtain ⟨t, rfl⟩ := hp
  unfold DanseCfg.tiNodeFold at hk
  rw [List.foldlM_append] at hk
  obtain ⟨q, hq, -⟩ := bind_ok_inv hk
  exact ⟨q, hq⟩

/-- State of a node after the updates on `h`. -/
structure TINodeInv (D : DanseCfg K) (k : Nat) (h : List (TIObs K)) (s : TDNode D.nb (D.M k) K) : Prop where
  scm : s.danse.scm = (nodeRun (D.kind k (D.M k + 1)) (D.kind0 k (D.M k + 1) (D.g.wInt k)) (D.tiHeard k h)).scm
  started : s.danse.started =
    (nodeRun (D.kind k (D.M k + 1)) (D.kind0 k (D.M k + 1) (D.g.wInt k)) (D.tiHeard k h)).started
  i : s.danse.i = h.length
  loc : s.loc = nodeRun (D.kind k (D.M k)) (D.kind0 k (D.M k) (D.g.wLoc k)) (D.tiHeardLoc k h)
  later : ∀ j, h.length < j → s.danse.w j = .ok (rowFrame _ _ (D.g.wInt k j))
  first : s.danse.w 0 = .ok (rowFrame _ _ (D.g.wInt k 0))
  norm : 1 ≤ s.lastNorm ∧ (s.lastNorm = 1 ∨ ∃ o ∈ h, o.t = s.lastNorm)

theorem tiNormalize_ok {B M : Nat} {seq : Bool} {k : Nat} {bypass : Bool} {t last : ℚ}
    {w : Frame (Fin B) (Fin (M + 1)) K} {p} (h : tiNormalize seq k bypass t last w = .ok p) :
    (seq = true ∧ k = 0 ∧ bypass = false ∧ last ≤ t ∧ p.2 = t ∧ (∀ κ, w κ (Fin.last M) ≠ 0) ∧
      (∀ κ, p.1 κ (Fin.last M) = 1) ∧ ∀ κ c, c ≠ Fin.last M → p.1 κ c = w κ c) ∨
    (¬ (seq = true ∧ k = 0 ∧ bypass = false ∧ last ≤ t) ∧ p.1 = w ∧ p.2 = last) := by
  unfold tiNormalize at h
  split at h
  · cases h
  · rename_i hn
    injection h with h
    subst h
    unfold normalizeFilter
    by_cases hc : seq = true ∧ k = 0 ∧ bypass = false ∧ 0 ≤ t - last
    · left
      rw [if_pos hc]
      have hz : ∀ κ, w κ (Fin.last M) ≠ 0 := fun κ e => hn ⟨hc.1, hc.2.1, hc.2.2.1, hc.2.2.2, κ, e⟩
      refine ⟨hc.1, hc.2.1, hc.2.2.1, by linarith [hc.2.2.2], rfl, hz, fun κ => ?_, fun κ c h => ?_⟩
      · simp only [if_true]
        exact div_self (hz κ)
      · simp only [h, if_false]
    · right
      rw [if_neg hc]
      refine ⟨fun hh => hc ⟨hh.1, hh.2.1, hh.2.2.1, by linarith [hh.2.2.2]⟩, rfl, rfl⟩

/-- One more update. -/
theorem tiNodeUpdate_inv {h : List (TIObs K)} {o : TIObs K} {s : TDNode D.nb (D.M k) K} (is : TINodeInv D k h s)
    {p} (hp : D.tiNodeUpdate k s o = .ok p) :
    TINodeInv D k (h ++ [o]) p.1 ∧ (∀ j, j ≠ h.length + 1 → p.1.danse.w j = s.danse.w j) ∧
    ∃ V W wl, (nodeStep (D.kind k (D.M k + 1)) s.danse (D.spectra (D.M k + 1) (o.loc ++ [o.eta]))
        (D.vad k h.length) o.t o.bypass).w (h.length + 1) = .ok V ∧
      tiNormalize D.seq k o.bypass o.t s.lastNorm V = .ok (W, p.1.lastNorm) ∧
      p.1.danse.w (h.length + 1) = .ok W ∧ p.1.loc.w (h.length + 1) = .ok wl ∧
      p.1.ext = extStep (D.tiExt k) s.ext W (some o.t) ∧
      p.2 = ⟨frameRow W, frameRow p.1.ext.ext, frameRow wl⟩ := by
  have hi := is.i
  unfold DanseCfg.tiNodeUpdate at hp
  obtain ⟨w, hw, hp⟩ := bind_ok_inv hp
  obtain ⟨wl, hwl, hp⟩ := bind_ok_inv hp
  obtain ⟨q, hq, hp⟩ := bind_ok_inv hp
  injection hp with hp
  subst hp
  simp only [hi] at hw hwl hq ⊢
  have hstep := nodeStep_like (c := D.kind k (D.M k + 1)) is.scm is.started
    (s' := nodeRun (D.kind k (D.M k + 1)) (D.kind0 k (D.M k + 1) (D.g.wInt k)) (D.tiHeard k h))
    (by rw [hi, nodeRun_i, tiHeard_length]; exact (Nat.zero_add _).symm)
    (D.spectra (D.M k + 1) (o.loc ++ [o.eta])) (D.vad k h.length) o.t o.bypass
  obtain ⟨-, rw2⟩ := nodeStep_row (D.kind k (D.M k + 1)) s.danse
    (D.spectra (D.M k + 1) (o.loc ++ [o.eta])) (D.vad k h.length) o.t o.bypass
  rw [hi] at rw2
  refine ⟨⟨?_, ?_, ?_, ?_, ?_, ?_, ?_⟩, ?_, w, q.1, wl, hw, hq, ?_, hwl, rfl, rfl⟩
  · rw [tiHeard_snoc, nodeRun_snoc]; exact hstep.1
  · rw [tiHeard_snoc, nodeRun_snoc]; exact hstep.2.1
  · simp only [nodeStep_i, hi, List.length_append, List.length_singleton]
  · rw [tiHeardLoc_snoc, nodeRun_snoc, ← is.loc]
  · intro j hj
    rw [List.length_append, List.length_singleton] at hj
    simp only
    rw [Function.update_of_ne (by omega), rw2 j (by omega)]
    exact is.later j (by omega)
  · simp only
    rw [Function.update_of_ne (by omega), rw2 0 (by omega)]
    exact is.first
  · simp only
    rcases tiNormalize_ok hq with ⟨-, -, -, hl, ht, -⟩ | ⟨-, -, ht⟩
    · rw [ht]
      exact ⟨le_trans is.norm.1 hl, .inr ⟨o, by simp, rfl⟩⟩
    · rw [ht]
      refine ⟨is.norm.1, is.norm.2.imp_right ?_⟩
      rintro ⟨o', ho', e⟩
      exact ⟨o', List.mem_append_left _ ho', e⟩
  · intro j hj
    rw [Function.update_of_ne hj, rw2 j hj]
  · rw [Function.update_self]

theorem tiNodeFold_inv (h : List (TIObs K)) : ∀ {p}, D.tiNodeFold k h = .ok p → TINodeInv D k h p.1 := by
  induction h using List.reverseRecOn with
  | nil =>
    intro p hp
    injection hp with hp
    subst hp
    exact ⟨rfl, rfl, rfl, rfl, fun _ _ => rfl, rfl, le_refl _, .inl rfl⟩
  | append_singleton h o ih =>
    intro p hp
    rw [tiNodeFold_snoc] at hp
    obtain ⟨q, hq, hp⟩ := bind_ok_inv hp
    exact (tiNodeUpdate_inv (ih hq) hp).1

/-- Rows written so far are kept. -/
theorem tiNodeFold_keep (h t : List (TIObs K)) : ∀ {p q}, D.tiNodeFold k h = .ok q → D.tiNodeFold k (h ++ t) = .ok p →
    ∀ j ≤ h.length, p.1.danse.w j = q.1.danse.w j ∧ p.1.loc.w j = q.1.loc.w j := by
  induction t using List.reverseRecOn with
  | nil =>
    intro p q hq hp j _
    rw [List.append_nil, hq] at hp
    injection hp with hp
    subst hp
    exact ⟨rfl, rfl⟩
  | append_singleton t o ih =>
    intro p q hq hp j hj
    rw [← List.append_assoc, tiNodeFold_snoc] at hp
    obtain ⟨r, hr, hp⟩ := bind_ok_inv hp
    have ir := tiNodeFold_inv _ hr
    have ip := (tiNodeUpdate_inv ir hp)
    obtain ⟨a1, a2⟩ := ih hq hr j hj
    constructor
    · rw [ip.2.1 j (by rw [List.length_append]; omega)]; exact a1
    · rw [ip.1.loc, tiHeardLoc_snoc, (nodeRun_row _ _ rfl _ _).2 j (by rw [tiHeardLoc_length, List.length_append]; omega),
        ← ir.loc]
      exact a2

end
end Danse
