import Verif.Spec.Order
import Verif.Model.TIDanse

/-!
# Specification: sensors in another order, TI-DANSE
-/

namespace Danse
section
variable {K : Type} [Field K] [StarRing K] [DecidableEq K]

/-- The initial filters of all nodes, broadcast filters included, select the reference sensor; the last channel of the filters
is the one of the in-network sum. -/
structure DanseCfg.TIStartsAtRef (D : DanseCfg K) : Prop where
  int : ∀ k j, D.g.wInt k j = selector (D.M k + 1) D.g.refSensor D.nb
  ext : ∀ k, D.g.wExt k 0 = selector (D.M k + 1) D.g.refSensor D.nb
  loc : ∀ k j, D.g.wLoc k j = selector (D.M k) D.g.refSensor D.nb
  target : ∀ k, D.extTarget0 k = selector (D.M k + 1) D.g.refSensor D.nb

end
end Danse
