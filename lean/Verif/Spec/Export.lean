import Verif.Model.Export

/-!
# What sound files a run should leave (C138)
-/

namespace Danse

/-- The signal of a file is wanted: `wanted o fc nd k kind x` says that after a run with outputs `o`, a file of kind
`kind` with the signal `x` is expected for node `k` (counted from 0). -/
def WantedWav (o : WavOut) (fc : Bool) (nd : WavNode) (k : Nat) (kind : WavKind) (x : List ℚ) : Prop :=
  match kind with
  | .noisy r => r = o.refSensor + 1 ∧ x = nd.data.flatten
  | .desired r => r = o.refSensor + 1 ∧ nd.clean[o.refSensor]? = some x
  | .enhanced => x = o.est k ∧ x ≠ []
  | .fused => x = o.fused k ∧ o.est k ≠ [] ∧ o.wholeChunk = true ∧ fc = true ∧ o.batch = false
  | .fusedTI => (∃ f, o.fusedTI = some f ∧ x = f k) ∧ o.est k ≠ [] ∧ o.wholeChunk = true ∧ fc = false
  | .centr => o.computeCentralised = true ∧ x ≠ [] ∧ ∃ f, o.estC = some f ∧ x = f k
  | .loc => o.computeLocal = true ∧ x ≠ [] ∧ ∃ f, o.estL = some f ∧ x = f k
  | .ssbc => o.computeSSBC = true ∧ x ≠ [] ∧ ∃ f, o.estS = some f ∧ x = f k

/-- The samples of a file are the 16-bit version of `x` (or NaN values if the maximum of `x` is zero). -/
def Is16Bit (x : List ℚ) (d : Option (List Int)) : Prop :=
  match d with
  | some v => normalizeToInt16 x = .ok v
  | none => x ≠ [] ∧ amax x = 0

end Danse
