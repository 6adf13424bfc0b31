import Mathlib.Data.List.Basic
import Mathlib.Data.List.Forall2
import Verif.Model.Py

/-! # Helper lemmas on the Python primitives -/

namespace Danse

theorem pyGet_natCast {α : Type _} (l : List α) (n : Nat) :
    pyGet l (n : Int) = match l[n]? with
      | some x => .ok x
      | none => .error .indexError := by
  unfold pyGet
  have h1 : ¬ ((n : Int) < 0) := by omega
  simp [h1]
  cases l[n]? <;> rfl

theorem pyGet_zero_cons {α : Type _} (a : α) (l : List α) : pyGet (a :: l) 0 = .ok a := by
  have := pyGet_natCast (a :: l) 0
  simpa using this

theorem pyGet_zero_nil {α : Type _} : pyGet ([] : List α) 0 = .error .indexError := by
  have := pyGet_natCast ([] : List α) 0
  simpa using this

theorem pyGet_neg_one {α : Type _} (l : List α) (h : l ≠ []) :
    pyGet l (-1) = .ok (l.getLast h) := by
  have hl : 0 < l.length := List.length_pos_of_ne_nil h
  unfold pyGet
  simp only [show ((-1 : Int) < 0) from by omega, if_true]
  rw [if_neg (by omega)]
  have : (-1 + (l.length : Int)).toNat = l.length - 1 := by omega
  rw [this, List.getElem?_eq_getElem (by omega), List.getLast_eq_getElem]

theorem pyGet_neg_one_nil {α : Type _} : pyGet ([] : List α) (-1) = .error .indexError := by
  simp [pyGet]

/-- `mapM` in the exception monad, element by element. -/
theorem mapM_ok_of_forall {α β : Type} {f : α → Except PyErr β} {P : α → β → Prop} {l : List α}
    (h : ∀ x ∈ l, ∃ y, f x = .ok y ∧ P x y) :
    ∃ ys, l.mapM f = .ok ys ∧ List.Forall₂ P l ys := by
  induction l with
  | nil => exact ⟨[], rfl, .nil⟩
  | cons a r ih =>
    obtain ⟨y, hy, hp⟩ := h a (by simp)
    obtain ⟨ys, hys, hps⟩ := ih (fun x hx => h x (by simp [hx]))
    refine ⟨y :: ys, ?_, .cons hp hps⟩
    rw [List.mapM_cons, hy, hys]; rfl

theorem mapM_ok_forall₂ {α β : Type} {f : α → Except PyErr β} {l : List α} {ys : List β}
    (h : l.mapM f = .ok ys) : List.Forall₂ (fun x y => f x = .ok y) l ys := by
  induction l generalizing ys with
  | nil =>
    rw [List.mapM_nil] at h
    cases h
    exact .nil
  | cons a r ih =>
    rw [List.mapM_cons] at h
    cases hf : f a with
    | error e => rw [hf] at h; cases h
    | ok y =>
      rw [hf] at h
      cases hr : r.mapM f with
      | error e => rw [hr] at h; cases h
      | ok zs =>
        rw [hr] at h
        cases h
        exact .cons hf (ih hr)

theorem mapM_error_of_head {α β : Type} {f : α → Except PyErr β} {l : List α} {e : PyErr}
    {a : α} (h : f a = .error e) : (a :: l).mapM f = .error e := by
  rw [List.mapM_cons, h]; rfl

end Danse
