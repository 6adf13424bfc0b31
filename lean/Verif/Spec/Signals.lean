import Verif.Model.Compress
import Mathlib.RingTheory.RootsOfUnity.PrimitiveRoots

/-! # Specification vocabulary for the signal-processing properties -/

namespace Danse
section
variable {K : Type} [Field K] [StarRing K]

/-- All values of a signal are real. -/
def IsReal (x : List K) : Prop := ∀ a ∈ x, star a = a

/-- The filter that selects channel `ref` among `M` channels in each of `nf` bins. -/
def selector (M ref nf : Nat) : List (List K) :=
  (List.range M).map fun m => List.replicate nf (if m = ref then 1 else 0)

/-- Linear convolution of two finite signals. -/
def linConv (a b : List K) (m : Nat) : K := ∑ i ∈ Finset.range (m + 1), at0 a i * at0 b (m - i)

/-- Frame of `N` samples starting at sample `b`. -/
def frameAt (y : List K) (b N : Nat) : List K := (y.drop b).take N

end
end Danse
