import Verif.Spec.Danse
import Verif.Spec.Online

/-! # Specification: when a node has no reason to adapt -/

namespace Danse
section
variable {K : Type} [Field K] [StarRing K] [DecidableEq K]

/-- The filters with `m` channels of node `k` have no reason to change in a schedule: updates are switched off, or at most
`m` of the frames of its updates are active, or at most `m` are inactive, or its last update comes before the time from
which updating is allowed. -/
def DanseCfg.Idle (D : DanseCfg K) (evs : List (ℚ × Nat × EvType)) (k m : Nat) : Prop :=
  D.bypassAll = true ∨ (∃ b, ((List.range (evUps evs k)).map (D.vad k)).countP (· == b) ≤ m) ∨
    ∀ t ∈ upTimes evs k, t < D.startAfter

end
end Danse
