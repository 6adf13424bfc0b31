import Verif.Model.SigTools

/-!
# Random pauses of a random source (siggen/utils.py 713-731)

`np.random.uniform(a, b)` is `a + (b - a) * u` for a draw `u` of the random generator in `[0, 1)`; the
draws are an argument of the model.
-/

namespace Danse

/-- `np.random.uniform(low, high)` for the draw `u` of the generator. -/
def npUniform (low high u : ℚ) : ℚ := low + (high - low) * u

/-- `nPauses = int(n / ((randPauseDuration_min + randPauseDuration_max) * fs) / 2)`
(siggen/utils.py 717-720); Python floats: dividing by zero raises. -/
def nRandPauses (n : Nat) (dmin dmax fs : ℚ) : Except PyErr Int :=
  if (dmin + dmax) * fs = 0 then .error .zeroDivisionError
  else .ok (pyInt ((n : ℚ) / ((dmin + dmax) * fs) / 2))

/-- One random pause (siggen/utils.py 722-731): `d.1`, `d.2` are the draws for its length and its
position. -/
def addRandPause (n : Nat) (dmin dmax fs : ℚ) (y : List ℚ) (d : ℚ × ℚ) : List ℚ :=
  let leng := npUniform dmin dmax d.1
  let pausePos := npUniform 0 ((n : ℚ) - leng * fs) d.2
  zeroSlice y (pyInt pausePos) (pyInt (pausePos + leng * fs))

/-- `pauseType == 'random'` in `generate_rand_signal` (siggen/utils.py 713-731): `draws i` are the two
draws of pause `i`; `range` of a negative number is empty. -/
def addRandPauses (y : List ℚ) (dmin dmax fs : ℚ) (draws : Nat → ℚ × ℚ) : Except PyErr (List ℚ) :=
  match nRandPauses y.length dmin dmax fs with
  | .error e => .error e
  | .ok m => .ok (((List.range m.toNat).map draws).foldl (addRandPause y.length dmin dmax fs) y)

end Danse
