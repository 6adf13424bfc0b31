import Verif.Spec.TIDanse
import Verif.Spec.Dead

/-! # Specification: when a TI-DANSE node has no reason to adapt -/

namespace Danse
section
variable {K : Type} [Field K] [StarRing K] [DecidableEq K]

/-- The filters with `m` channels of a node that has observed `h` have had no reason to change: updates are switched
off, or at most `m` of its frames are active, or at most `m` are inactive, or its last update came before the time from
which updating is allowed. -/
def DanseCfg.TIIdle (D : DanseCfg K) (h : List (TIObs K)) (k m : Nat) : Prop :=
  D.bypassAll = true ∨ (∃ b, ((List.range h.length).map (D.vad k)).countP (· == b) ≤ m) ∨
    ∀ o ∈ h, o.t < D.startAfter

/-- In one bin, the channels of all the active (or of all the inactive) frames of `l` satisfy one and the same linear
equation, while the covariance matrices are based on frames only and the test before the first update passes matrices of
full rank only. -/
def DanseCfg.Deficient (D : DanseCfg K) {m : Nat} (l : List (UpEv (Fin D.nb) (Fin m) K ℚ)) : Prop :=
  D.use1st = true ∧ D.FullRankTest ∧ ∃ b κ v, Redundant l b κ v

end
end Danse
