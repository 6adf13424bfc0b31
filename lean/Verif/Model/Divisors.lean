import Verif.Model.Py
import Mathlib.Tactic.Linarith
import Mathlib.Algebra.Order.Ring.Nat

/-!
# Model of the divisor helpers

Models `prime_factors`, `prod` and `get_divisors` (`danse_toolbox/d_base.py` 2548-2578). The
Python code divides with `/` (floats); the model uses natural numbers, which agrees as long as
`n < 2^53`.
-/

namespace Danse

/-- `prime_factors` from trial divisor `i` (d_base.py 2548-2558). Only called with `i ≥ 2`; the
model stops immediately for smaller `i` (where the code would not terminate). -/
def primeFactorsFrom (n i : Nat) : List Nat :=
  if h : 2 ≤ i ∧ i * i ≤ n then
    if n % i = 0 then i :: primeFactorsFrom (n / i) i
    else primeFactorsFrom n (i + 1)
  else if 1 < n then [n] else []
termination_by n - i
decreasing_by
  · have h1 : n / i < n := Nat.div_lt_self (by nlinarith [h.1, h.2]) (by omega)
    have h2 : i < n := by nlinarith [h.1, h.2]
    omega
  · have h2 : i < n := by nlinarith [h.1, h.2]
    omega

/-- `prime_factors(n)` (d_base.py 2548-2558). -/
def primeFactors (n : Nat) : List Nat := primeFactorsFrom n 2

/-- `prod` (d_base.py 2560-2564). -/
def pyProd (l : List Nat) : Nat := l.foldl (fun r i => r * i) 1

/-- `collections.Counter(l).items()`: distinct values in order of first appearance, with their
number of occurrences (d_base.py 2570). -/
def counterItems (l : List Nat) : List (Nat × Nat) :=
  (l.foldl (fun acc t => if t ∈ acc then acc else acc ++ [t]) []).map fun x => (x, l.count x)

/-- `itertools.product(*ls)`: cartesian product, last component varying fastest
(d_base.py 2577). -/
def cartesian : List (List Nat) → List (List Nat)
  | [] => [[]]
  | l :: ls => l.flatMap fun x => (cartesian ls).map fun r => x :: r

/-- `get_divisors` (d_base.py 2566-2578). -/
def getDivisors (n : Nat) : List Nat :=
  let powers := (counterItems (primeFactors n)).map fun (f, c) =>
    (List.range (c + 1)).map fun i => f ^ i
  (cartesian powers).map pyProd

end Danse
