import Mathlib.Algebra.Group.Defs

/-!
# Specification: sums of signals

`Sums a b c` says that the signal `c` is the sample-by-sample sum of the signals `a` and `b`, which
have the same length as `c`.
-/

namespace Danse

/-- `All3 R a b c`: the lists have the same length and corresponding elements are related by `R`. -/
inductive All3 {α β γ : Type} (R : α → β → γ → Prop) : List α → List β → List γ → Prop
  | nil : All3 R [] [] []
  | cons {x y z a b c} : R x y z → All3 R a b c → All3 R (x :: a) (y :: b) (z :: c)

/-- `c` is the sample-by-sample sum of `a` and `b`. -/
def Sums {K : Type} [Add K] (a b c : List K) : Prop := All3 (fun x y z => z = x + y) a b c

/-- The same for multichannel signals (lists of channels). -/
def SumsM {K : Type} [Add K] (a b c : List (List K)) : Prop := All3 Sums a b c

/-- All samples are zero. -/
def silent {K : Type} [Zero K] [DecidableEq K] (l : List K) : Bool := l.all (fun x => x = 0)

end Danse
