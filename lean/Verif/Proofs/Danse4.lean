import Verif.Proofs.Danse3
import Verif.Proofs.Mwf2
import Verif.Props.Total

/-!
# Totality of a DANSE run
-/

namespace Danse
section
variable {K : Type} [Field K] [StarRing K] [DecidableEq K] {D : DanseCfg K}

theorem framesWith_countP {F n T : Type} (b : Bool) (l : List (UpEv F n K T)) :
    (framesWith b l).length = (l.map (·.vad)).countP (· == b) := by
  unfold framesWith
  rw [List.length_map, List.countP_map, List.countP_eq_length_filter]
  rfl

theorem heard_vad (k : Nat) (h : List (Obs K)) :
    (D.heard k h).map (·.vad) = (List.range h.length).map (D.vad k) := by
  induction h using List.reverseRecOn with
  | nil => rfl
  | append_singleton h o ih => rw [heard_snoc, List.map_append, ih]; simp [List.range_succ]

theorem heardLoc_vad (k : Nat) (h : List (Obs K)) :
    (D.heardLoc k h).map (·.vad) = (List.range h.length).map (D.vad k) := by
  induction h using List.reverseRecOn with
  | nil => rfl
  | append_singleton h o ih => rw [heardLoc_snoc, List.map_append, ih]; simp [List.range_succ]

theorem heard_t (k : Nat) (h : List (Obs K)) : (D.heard k h).map (·.t) = h.map (·.t) := by
  induction h using List.reverseRecOn with
  | nil => rfl
  | append_singleton h o ih => rw [heard_snoc, List.map_append, ih]; simp

theorem heardLoc_t (k : Nat) (h : List (Obs K)) : (D.heardLoc k h).map (·.t) = h.map (·.t) := by
  induction h using List.reverseRecOn with
  | nil => rfl
  | append_singleton h o ih => rw [heardLoc_snoc, List.map_append, ih]; simp

theorem strategy_bins (k : Nat) (h : List (Obs K)) :
    (∀ b ∈ (D.strategy.rows k h).int, b.length = D.g.N / 2 + 1) ∧
    (∀ b ∈ (D.strategy.rows k h).ext, b.length = D.g.N / 2 + 1) ∧
    ∀ b ∈ (D.strategy.rows k h).loc, b.length = D.g.N / 2 + 1 := by
  have triv : ∀ r : Rows K, r = ⟨[], [], []⟩ → (∀ b ∈ r.int, b.length = D.g.N / 2 + 1) ∧
      (∀ b ∈ r.ext, b.length = D.g.N / 2 + 1) ∧ ∀ b ∈ r.loc, b.length = D.g.N / 2 + 1 := by
    rintro r rfl
    simp
  rcases List.eq_nil_or_concat h with rfl | ⟨l, o, rfl⟩
  · exact triv _ rfl
  · rw [List.concat_eq_append]
    cases hp : D.nodeFold k (l ++ [o]) with
    | error e => exact triv _ (by unfold DanseCfg.strategy; simp only; rw [hp]; rfl)
    | ok p =>
      have e : D.strategy.rows k (l ++ [o]) = p.2 := by
        unfold DanseCfg.strategy; simp only; rw [hp]; rfl
      obtain ⟨q, w, wl, -, -, -, -, hr⟩ := nodeFold_rows _ _ hp
      rw [e, hr]
      exact ⟨(frameRow_shape w).2, (frameRow_shape _).2, (frameRow_shape wl).2⟩

end

section
open scoped ComplexOrder
variable {D : DanseCfg ℂ} {y : Nat → List (List ℂ)}

theorem scmOf_posDef {F n : Type} [Fintype n] [DecidableEq n] {b : ℝ} (h0 : 0 < b) (h1 : b ≤ 1)
    {R0 : Cov F n ℂ} (f : F) (h : (R0 f).PosDef) (l : List (Frame F n ℂ)) :
    (scmOf false (b : ℂ) R0 l f).PosDef := by
  induction l using List.reverseRecOn with
  | nil => exact h
  | append_singleton l y ih =>
    rw [scmOf_snoc _ _ _ _ _ (.inl rfl)]
    exact posDef_blend h0 h1 ih (rankOne_posSemidef y f)

theorem mwfRule_total {m : Nat} {Ryy Rnn : Matrix (Fin m) (Fin m) ℂ} {r : Nat} (hr : r < m) (h : Ryy.PosDef) :
    ∃ w, mwfRule m Ryy Rnn r = .ok w := by
  unfold mwfRule
  rw [dif_pos hr]
  exact ⟨_, updateW_of_det (ne_of_gt h.det_pos)⟩

theorem gevdRule_total {lib : (m : Nat) → LinAlg m} {rank m : Nat} {Ryy Rnn : Matrix (Fin m) (Fin m) ℂ} {r : Nat}
    (hr : r < m) (hk : rank ≤ m) (hl : ∃ σ X, (lib m).Ok Ryy Rnn σ X) :
    ∃ w, gevdRule lib rank m Ryy Rnn r = .ok w := by
  obtain ⟨σ, X, hl⟩ := hl
  unfold gevdRule
  rw [dif_pos hr]
  obtain ⟨s, X', -, -, -, -, h⟩ := updateWGevd_eq (lib m) hl ⟨r, hr⟩ hk
  exact ⟨_, h⟩

end
end Danse
