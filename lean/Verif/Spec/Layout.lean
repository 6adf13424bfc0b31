import Verif.Model.Topo
import Mathlib.LinearAlgebra.Matrix.Notation
import Mathlib.Data.Matrix.Mul

/-!
# Specification: positions in the room
-/

namespace Danse
open Matrix

/-- A rotation or reflection. -/
def Orthogonal (R : Matrix (Fin 3) (Fin 3) ℝ) : Prop := Rᵀ * R = 1

/-- At least `m` away from all the walls of a room with dimensions `rd`. -/
def InBox (rd : Pt) (m : ℝ) (p : Pt) : Prop := ∀ i, m ≤ p i ∧ p i ≤ rd i - m

/-- No two of the points are closer than `d`. -/
def Apart (d : ℝ) (pts : List Pt) : Prop := pts.Pairwise fun p q => d ≤ ptDist p q

/-- The same distances between the points of the two lists. -/
def SameDist (l l' : List Pt) : Prop :=
  l.length = l'.length ∧ ∀ (i j : Nat) (p q p' q' : Pt), l[i]? = some p → l[j]? = some q → l'[i]? = some p' → l'[j]? = some q' →
    ptDist p' q' = ptDist p q

end Danse
