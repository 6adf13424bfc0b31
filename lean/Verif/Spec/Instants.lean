import Mathlib.Order.Defs.LinearOrder
import Mathlib.Data.List.Basic

/-! # Specification vocabulary for event instants -/

namespace Danse

variable {τ : Type} [LinearOrder τ]

/-- `r` is the earliest time stamp not before `t`, or the last time stamp when `t` is after the
end of the recording. -/
def IsAlignedUp (stamps : List τ) (t r : τ) : Prop :=
  r ∈ stamps ∧
  ((∃ s ∈ stamps, t ≤ s) → t ≤ r ∧ ∀ s ∈ stamps, t ≤ s → r ≤ s) ∧
  ((∀ s ∈ stamps, s < t) → ∀ s ∈ stamps, s ≤ r)

/-- `r` is the latest admissible instant not after `t`, or the first admissible instant when
none is before `t`. -/
def IsAlignedDown (possible : List τ) (t r : τ) : Prop :=
  r ∈ possible ∧
  ((∃ s ∈ possible, s ≤ t) → r ≤ t ∧ ∀ s ∈ possible, s ≤ t → s ≤ r) ∧
  ((∀ s ∈ possible, t < s) → ∀ s ∈ possible, r ≤ s)

/-- The stamps number `L, 2L, 3L, ...`. -/
def IsMultipleStamp (stamps : List τ) (L : Nat) (x : τ) : Prop :=
  ∃ m, 1 ≤ m ∧ stamps[m * L]? = some x

/-- `t` is the earliest of the instants `u` that lies strictly after `prev`. -/
def IsEarliestAfter (u : List τ) (prev t : τ) : Prop :=
  t ∈ u ∧ prev < t ∧ ∀ s ∈ u, prev < s → t ≤ s

end Danse
