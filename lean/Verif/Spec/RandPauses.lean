import Mathlib.Data.Rat.Floor

/-!
# Vocabulary of C135
-/

namespace Danse

/-- Sample `j` lies in the pause that lasts `leng` samples from the position `pos`: the positions are
cut to whole samples. -/
def InPause (pos leng : ℚ) (j : Nat) : Prop := ⌊pos⌋ ≤ (j : Int) ∧ (j : Int) < ⌊pos + leng⌋

/-- Length, in samples, of a pause with length draw `u`. -/
def pauseLen (dmin dmax fs u : ℚ) : ℚ := (dmin + (dmax - dmin) * u) * fs

/-- Start of a pause with draws `d` in a signal of `n` samples. -/
def pauseStart (n : Nat) (dmin dmax fs : ℚ) (d : ℚ × ℚ) : ℚ := (n - pauseLen dmin dmax fs d.1) * d.2

end Danse
