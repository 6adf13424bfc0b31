import Mathlib.Data.Rat.Floor
import Mathlib.Data.List.Sort
import Verif.Model.Py

/-!
# Oracle acoustic coherence state

`get_oracle_acs` (dxcpphat/demo_utils.py 454-488); times are exact rationals.
-/

namespace Danse

/-- `np.linspace(0, sig_len, n)` (demo_utils.py 466). -/
def acsAxis (sigLen : ℚ) (n : Nat) : List ℚ :=
  (List.range n).map fun (i : Nat) => if n = 1 then 0 else (i : ℚ) * sigLen / ((n : ℚ) - 1)

/-- `scene_activity_mask` at time `t` (demo_utils.py 473-476). -/
def acsActive (scenes : List (ℚ × ℚ)) (t : ℚ) : Bool := scenes.any fun s => decide (t > s.1) && decide (t < s.2)

/-- `scene_changes` before and after sorting (demo_utils.py 473-475, 479). -/
def acsChanges (scenes : List (ℚ × ℚ)) : List ℚ := (scenes.flatMap fun s => [s.1, s.2]).insertionSort (· ≤ ·)

/-- `scene_stationary_mask` at time `t` (demo_utils.py 480-482); `last` is `np.max(dxcpphat_time_axis)`. -/
def acsStationary (changes : List ℚ) (delay last t : ℚ) : Bool :=
  changes.zipIdx.any fun (e : ℚ × Nat) =>
    decide (t ≥ e.1 + delay) && decide (t < if e.2 < changes.length - 1 then changes.getD (e.2 + 1) 0 else last)

/-- `get_oracle_acs` (demo_utils.py 454-488). The argument `delay` is overwritten in line 467. -/
def oracleAcs (scenes : List (ℚ × ℚ)) (sigLen : ℚ) (n : Nat) (_delay : ℚ) : Except PyErr (List Nat) :=
  let axis := acsAxis sigLen n
  let delay : ℚ := 128 / 10
  if axis = [] ∧ scenes ≠ [] then .error .valueError
  else
    let last := axis.foldl max (axis.headD 0)
    .ok (axis.map fun t => if acsActive scenes t && acsStationary (acsChanges scenes) delay last t then 1 else 0)

end Danse
