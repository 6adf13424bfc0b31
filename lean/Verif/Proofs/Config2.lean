import Verif.Proofs.Config

/-!
# Lemmas on shared parameter objects
-/

namespace Danse

theorem flat_set {a : Attrs} (h : a.Flat) (k : String) (v : Leaf) : (a.set k (.leaf v)).Flat := by
  induction a with
  | nil => trivial
  | leaf k' w r ih =>
    simp only [Attrs.set]
    split
    · exact h
    · exact ih h
  | node _ _ _ _ => exact h.elim

theorem flat_loadInto {y : YDict} {a a' : Attrs} (h : a.Flat) (hl : loadInto a y.leaves = .ok a') :
    a'.Flat := by
  induction y generalizing a with
  | nil => simp only [YDict.leaves, loadInto] at hl; injection hl with hl; rw [← hl]; exact h
  | leaf k v r ih => exact ih (flat_set h k v) hl
  | node k s r _ ih => exact ih h hl

theorem flat_find {a : Attrs} (h : a.Flat) (k : String) (d : Decl) (s : Attrs) :
    a.find k ≠ some (.node d s) := by
  induction a with
  | nil => simp [Attrs.find]
  | leaf k' v r ih =>
    simp only [Attrs.find]
    split
    · simp
    · exact ih h
  | node => exact h.elim

theorem flat_get {a : Attrs} (h : a.Flat) (k k' : String) (p : List String) :
    a.get (k :: k' :: p) = none := by
  rw [Attrs.get_cons]
  cases hf : a.find k with
  | none => rfl
  | some x =>
    cases x with
    | leaf v => rfl
    | node d s => exact absurd hf (flat_find h k d s)

theorem nodes_find (y : YDict) (k : String) :
    y.nodes.find k = (match y.find k with | some (.node s) => some (.node s) | _ => none) ∨
    ∃ v, y.find k = some (.leaf v) := by
  induction y with
  | nil => left; rfl
  | leaf k0 v r ih =>
    simp only [YDict.find, YDict.nodes]
    by_cases hk : k0 = k
    · right; exact ⟨v, by rw [if_pos hk]⟩
    · simp only [if_neg hk]; exact ih
  | node k0 s r _ ih =>
    simp only [YDict.find, YDict.nodes]
    by_cases hk : k0 = k
    · left; simp only [if_pos hk]
    · simp only [if_neg hk]; exact ih

theorem nodes_find_none {y : YDict} {k : String} (h : y.find k = none) :
    y.nodes.find k = none := by
  rcases nodes_find y k with h1 | ⟨v, h1⟩
  · rw [h] at h1; exact h1
  · rw [h] at h1; cases h1

theorem nodes_uniq {y : YDict} (h : y.Uniq) : y.nodes.Uniq := by
  induction y with
  | nil => trivial
  | leaf k v r ih => exact ih h.2
  | node k s r _ ih => exact ⟨nodes_find_none h.1, h.2.1, ih h.2.2⟩

theorem nodes_find_node {y s : YDict} {k : String} (h : y.find k = some (.node s)) :
    y.nodes.find k = some (.node s) := by
  rcases nodes_find y k with h1 | ⟨v, h1⟩
  · rw [h] at h1; exact h1
  · rw [h] at h1; cases h1

/-- A given nested value is stored by `_load_into_dataclass`. -/
theorem loadInto_get {y : YDict} {a a' : Attrs} (hu : y.Uniq) (h : loadInto a y = .ok a')
    {p : List String} {v : Leaf} (hv : y.get p = some (.leaf v)) : a'.get p = some (.leaf v) := by
  induction p generalizing a a' y with
  | nil => cases hv
  | cons k p ih =>
    have hf := loadInto_find hu h k
    rw [YDict.get_cons] at hv
    rw [Attrs.get_cons]
    cases hy : y.find k with
    | none => rw [hy] at hv; cases hv
    | some x =>
      rw [hy] at hv hf
      cases x with
      | leaf v0 =>
        cases p with
        | cons k' p => cases hv
        | nil =>
          injection hv with hv
          injection hv with hv
          subst hv
          simp only [LoadedAt] at hf
          rw [hf]; rfl
      | node s =>
        cases p with
        | nil => cases hv
        | cons k' p =>
          change s.get (k' :: p) = _ at hv
          rcases hf with ⟨w, g1, g2, g3⟩ | ⟨d, sub, sub', g1, g2, g3⟩
          · rw [g2] at hv; cases hv
          · rw [g3]
            exact ih (hu.find_node hy) g2 hv

/-- An unmentioned nested value is kept by `_load_into_dataclass`. -/
theorem loadInto_untouched {y : YDict} {a a' : Attrs} (hu : y.Uniq) (h : loadInto a y = .ok a')
    {p : List String} (hp : ∀ q, q <+: p → ∀ v, y.get q ≠ some (.leaf v)) (v : Leaf) :
    a'.get p = some (.leaf v) ↔ a.get p = some (.leaf v) := by
  induction p generalizing a a' y with
  | nil => simp [Attrs.get, AVal.at]
  | cons k p ih =>
    have hf := loadInto_find hu h k
    rw [Attrs.get_cons, Attrs.get_cons]
    cases hy : y.find k with
    | none => rw [hy] at hf; simp only [LoadedAt] at hf; rw [hf]
    | some x =>
      rw [hy] at hf
      cases x with
      | leaf v0 =>
        exact absurd (by rw [YDict.get_cons, hy]; rfl) (hp [k] (by simp) v0)
      | node s =>
        rcases hf with ⟨w, g1, g2, g3⟩ | ⟨d, sub, sub', g1, g2, g3⟩
        · rw [g1, g3]
        · rw [g1, g3]
          cases p with
          | nil => simp [AVal.at]
          | cons k' p =>
            refine ih (hu.find_node hy) g2 ?_
            intro q hq v0
            have := hp (k :: q) (by simpa using hq) v0
            rw [YDict.get_cons, hy] at this
            cases q with
            | nil => intro hc; cases hc
            | cons q0 q => exact this

theorem nodes_get {y : YDict} (k k' : String) (p : List String) :
    y.nodes.get (k :: k' :: p) = y.get (k :: k' :: p) ∨
      ∃ v, y.get [k] = some (.leaf v) := by
  rw [YDict.get_cons, YDict.get_cons]
  rcases nodes_find y k with h1 | ⟨v, h1⟩
  · left
    rw [h1]
    cases y.find k with
    | none => rfl
    | some x => cases x <;> rfl
  · right; exact ⟨v, by rw [YDict.get_cons, h1]; rfl⟩

end Danse
