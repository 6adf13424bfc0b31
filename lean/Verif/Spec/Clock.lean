import Verif.Model.Clock

/-!
# Specification: regular clocks
-/

namespace Danse

/-- Time stamps of `n` samples of a clock of `fs` Hz: sample `i` is taken at time `i / fs`. -/
def clockStamps (fs : ℚ) (n : Nat) : List ℚ := (List.range n).map fun (i : Nat) => (i : ℚ) / fs

/-- Mean sampling interval. -/
def meanInterval (stamps : List ℚ) : ℚ := (npDiff stamps).sum / (npDiff stamps).length

/-- The times of the broadcasts of node `k` in a schedule. -/
def bcTimes (evs : List (ℚ × Nat × EvType)) (k : Nat) : List ℚ :=
  evs.filterMap fun ev => if ev.2.1 = k ∧ ev.2.2 = .bc then some ev.1 else none

/-- The times `a * sep / fs`, `(a + 1) * sep / fs`, ..., `(b - 1) * sep / fs`. -/
def everySep (sep : Nat) (fs : ℚ) (a b : Nat) : List ℚ :=
  (List.range (b - a)).map fun (j : Nat) => ((a + j : Nat) : ℚ) * sep / fs

end Danse

namespace Danse

/-- A network of nodes with the same clock and `n` samples each; `nbs` lists the neighbours of each. -/
def syncNodes (fs : ℚ) (n : Nat) (nbs : List (List Nat)) : List ClockNode :=
  nbs.map fun nb => ⟨fs, clockStamps fs n, nb⟩

/-- The broadcast times of a node with a clock of `fs` Hz and `n` samples: every `L` samples from sample
`L` on, or every `Ns` samples from sample `N` on with whole-chunk broadcasts. -/
def syncBc (bc : BcType) (N Ns n : Nat) (fs : ℚ) : List ℚ :=
  match bc with
  | .whole => everySep Ns fs (N / Ns) ((n - 1) / Ns)
  | .few L _ => everySep L fs 1 ((n - 1) / L)

end Danse

namespace Danse

/-- The efficient few-sample broadcast times of a node in a network with one clock of `fs` Hz and `n` samples:
for every update (of its neighbours, at the samples `i Ns`, from `N` samples on), the last multiple of `L`
samples. -/
def syncBcEff (L N Ns n : Nat) (fs : ℚ) : List ℚ :=
  (List.range ((n - 1) / Ns - ⌈(N : ℚ) / Ns⌉₊)).map fun (j : Nat) =>
    (((⌈(N : ℚ) / Ns⌉₊ + j) * Ns / L * L : Nat) : ℚ) / fs

end Danse
