import Verif.Spec.Clock

/-!
# Specification: networks of nodes with different clocks
-/

namespace Danse

/-- A network in which node `k` has a clock of `fs k` Hz and `n` samples; `nbs` lists the neighbours of
each node. -/
def asyncNodes (fs : Nat → ℚ) (n : Nat) (nbs : List (List Nat)) : List ClockNode :=
  nbs.zipIdx.map fun (nb, k) => ⟨fs k, clockStamps (fs k) n, nb⟩

/-- The number of multiples of `sep` samples in a recording of `n` samples at `fs` Hz, if the sampling
frequency is believed to be `f`. -/
def stepsIn (n sep : Nat) (fs f : ℚ) : Nat := ⌊((n - 1 : Nat) : ℚ) / fs * f / sep⌋₊

/-- The broadcast times of a node: as in `syncBc`. -/
def asyncBc (bc : BcType) (N Ns n : Nat) (fs f : ℚ) : List ℚ :=
  match bc with
  | .whole => everySep Ns fs (N / Ns) (stepsIn n Ns fs f)
  | .few L _ => everySep L fs 1 (stepsIn n L fs f)

/-- The inferred sampling frequency `f` is close enough to `fs` for a recording of `n` samples not to be
overrun by more than one step of `sep` samples. -/
def ClockClose (n sep : Nat) (fs f : ℚ) : Prop :=
  ((n - 1 : Nat) : ℚ) * f ^ 2 ≤ ((n - 1 : Nat) : ℚ) * fs ^ 2 + sep * f * fs

end Danse
