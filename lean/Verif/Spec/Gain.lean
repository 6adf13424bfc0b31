import Verif.Model.Danse

/-!
# Specification: microphones with other gains
-/

namespace Danse
section
variable {K : Type} [Field K]

/-- Channels, each with its own gain: channel `c` is multiplied by `g c`. -/
def gained (g : Nat → K) (x : List (List K)) : List (List K) := x.mapIdx fun c ch => ch.map (g c * ·)

/-- Covariance matrix of channels with gains `g`. -/
def gainedCov {m : Nat} (g : Nat → K) (A : Matrix (Fin m) (Fin m) K) : Matrix (Fin m) (Fin m) K :=
  Matrix.of fun i j => g i * g j * A i j

variable [StarRing K] [DecidableEq K]

/-- Real gains other than zero. -/
def RealGains (g : Nat → K) : Prop := ∀ c, star (g c) = g c ∧ g c ≠ 0

/-- The filter update makes up for gains: when the channels have gains `g`, the filter of channel `c` is divided
by `g c` and multiplied by the gain of the reference channel `r`. The rank test does not see gains. -/
def DanseCfg.GainFree (D : DanseCfg K) : Prop :=
  ∀ g : Nat → K, RealGains g →
    (∀ m (Ryy Rnn : Matrix (Fin m) (Fin m) K) r,
      D.rule m (gainedCov g Ryy) (gainedCov g Rnn) r = (D.rule m Ryy Rnn r).map fun w (c : Fin m) => g r / g c * w c) ∧
    ∀ m (Rnn Ryy : Cov (Fin D.nb) (Fin m) K),
      D.valid m (fun κ => gainedCov g (Rnn κ)) (fun κ => gainedCov g (Ryy κ)) = D.valid m Rnn Ryy

/-- A filter row that uses channel `r` only (`selectFirstSensor`). -/
def Selects (r : Nat) (w : List (List K)) : Prop := ∀ c, c ≠ r → ∀ v ∈ w.getD c [], v = 0

/-- The initial filters of all nodes, broadcast filters included, use the reference sensor only. -/
structure DanseCfg.SelectsRef (D : DanseCfg K) : Prop where
  int : ∀ k j, Selects D.g.refSensor (D.g.wInt k j)
  ext : ∀ k j, Selects D.g.refSensor (D.g.wExt k j)
  loc : ∀ k j, Selects D.g.refSensor (D.g.wLoc k j)
  target : ∀ k, Selects D.g.refSensor (D.extTarget0 k)

end
end Danse
