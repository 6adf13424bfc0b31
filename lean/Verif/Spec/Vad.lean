import Verif.Model.Vad
import Mathlib.Algebra.BigOperators.Intervals

/-! # Specification of the VAD -/

namespace Danse

/-- Sample `j` of a signal (0 outside). -/
def smp (x : List ℚ) (j : Nat) : ℚ := x.getD j 0

/-- The samples of the window of half-length `h` around sample `i`, clipped to `n` samples. -/
def vadWindow (n i h : Nat) : Finset Nat := Finset.Ico (i - h) (min (i + h) n)

/-- A maximal pause `[i, j)` between two speech segments. -/
structure Pause (vad : List Bool) (i j : Nat) : Prop where
  pos : 0 < i
  lt : i < j
  before : vad[i - 1]? = some true
  silent : ∀ m, i ≤ m → m < j → vad[m]? = some false
  next : vad[j]? = some true

/-- `[i, j)` is the first pause of at least `D` samples. -/
def FirstLongPause (vad : List Bool) (D : ℚ) (i j : Nat) : Prop :=
  Pause vad i j ∧ D ≤ (j : ℚ) - i ∧ ∀ i' j', Pause vad i' j' → i' < i → (j' : ℚ) - i' < D

end Danse

namespace Danse

/-- Number of complete frames of length `N` and shift `Ns` in `len` samples. -/
def numComplete (len N Ns : Nat) : Nat := if N ≤ len then (len - N) / Ns + 1 else 0

/-- The VAD a call should return: the energy VAD with the threshold "peak energy over `eFact`". -/
def freshVad (c : VadCall) : Except PyErr (List Bool) :=
  (maxSq c.x).map fun m => oracleVAD c.x c.Nw (m / c.eFact) c.fs

/-- Results of a sequence of calls that share one folder. -/
def vadCalls {H : Type} [DecidableEq H] (hash : List ℚ → H) :
    List VadCall → (VadKey H → Option (List Bool)) → Except PyErr (List (List Bool))
  | [], _ => .ok []
  | c :: r, folder => do
    let (v, folder') ← getOrLoadVad hash c folder
    let vs ← vadCalls hash r folder'
    return v :: vs

end Danse
