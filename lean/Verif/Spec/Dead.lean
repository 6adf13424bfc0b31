import Verif.Spec.Danse

/-!
# Specification: sensors that carry no information of their own
-/

namespace Danse
section
variable {K : Type} [Field K] [StarRing K] [DecidableEq K]

/-- The test before the first update passes matrices of full rank only, in all the bins. -/
def DanseCfg.FullRankTest (D : DanseCfg K) : Prop :=
  ∀ (m : Nat) (Rnn Ryy : Cov (Fin D.nb) (Fin m) K), D.valid m Rnn Ryy = true →
    ∀ κ, (Rnn κ).det ≠ 0 ∧ (Ryy κ).det ≠ 0

/-- In bin `κ` the channels of all the frames flagged `b` satisfy one and the same linear equation. -/
def Redundant {F T : Type} {m : Nat} (l : List (UpEv F (Fin m) K T)) (b : Bool) (κ : F) (v : Fin m → K) : Prop :=
  v ≠ 0 ∧ ∀ e ∈ l, e.vad = b → ∑ c, v c * e.y κ c = 0

/-- Two filters of `m` channels are the same. -/
def DanseCfg.SameFilter (D : DanseCfg K) (m : Nat) (w w' : List (List K)) : Prop :=
  ∀ (κ : Fin D.nb) (c : Fin m), coef w κ c = coef w' κ c

/-- A signal of zeros. -/
def Silent (x : List K) : Prop := ∀ v ∈ x, v = 0

end
end Danse
