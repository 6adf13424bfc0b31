import Verif.Model.Danse
import Verif.Spec.Signals

/-!
# Specification: sensors in another order
-/

namespace Danse
section
variable {K : Type}

/-- Channels in another order: channel `c` of the result is channel `σ c`. -/
def reordered {α : Type} [Inhabited α] (σ : Equiv.Perm Nat) (x : List α) : List α :=
  (List.range x.length).map fun c => x.getD (σ c) default

/-- A new order of the sensors of every node. The reference sensor keeps its place; numbers that are not sensors of the
node are left alone. -/
structure SensorOrder (M : Nat → Nat) (ref : Nat) (σ : Nat → Equiv.Perm Nat) : Prop where
  ref : ∀ k, σ k ref = ref
  fix : ∀ k c, M k ≤ c → σ k c = c

variable [Field K] [StarRing K] [DecidableEq K]

/-- The filter update and the rank test do not depend on the order of the channels: a permutation `π` of the channels, with
the reference channel in its place, permutes the filter. -/
def DanseCfg.OrderFree (D : DanseCfg K) : Prop :=
  ∀ m (π : Equiv.Perm (Fin m)),
    (∀ (r : Fin m), π r = r → ∀ Ryy Rnn : Matrix (Fin m) (Fin m) K,
      D.rule m (Ryy.submatrix π π) (Rnn.submatrix π π) r = (D.rule m Ryy Rnn r).map fun w => w ∘ π) ∧
    ∀ Rnn Ryy : Cov (Fin D.nb) (Fin m) K,
      D.valid m (fun κ => (Rnn κ).submatrix π π) (fun κ => (Ryy κ).submatrix π π) = D.valid m Rnn Ryy

/-- The phase factors of `compensate_sros` do not distinguish the sensors of the node (they are 1 for all of them). -/
def DanseCfg.LocalUnrotated (D : DanseCfg K) : Prop := ∀ k l c κ, c < D.M k → D.rot k l c κ = 1

/-- The initial filters of all nodes, broadcast filters included, select the reference sensor. -/
structure DanseCfg.StartsAtRef (D : DanseCfg K) : Prop where
  int : ∀ k j, D.g.wInt k j = selector (D.dim k) D.g.refSensor D.nb
  ext : ∀ k j, D.g.wExt k j = selector (D.M k) D.g.refSensor D.nb
  loc : ∀ k j, D.g.wLoc k j = selector (D.M k) D.g.refSensor D.nb
  target : ∀ k, D.extTarget0 k = selector (D.M k) D.g.refSensor D.nb

/-- The initial covariance matrices do not depend on the order of the sensors (e.g. multiples of the identity). -/
def DanseCfg.EvenStart (D : DanseCfg K) (σ : Nat → Equiv.Perm Nat) : Prop :=
  ∀ k κ i j, D.cov0 k κ (σ k i) (σ k j) = D.cov0 k κ i j

end
end Danse
