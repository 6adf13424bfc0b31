import Verif.Spec.TIRun

/-! # Specification: a network without its last node -/

namespace Danse
section
variable {n : Nat} {K : Type}

/-- The signals of all nodes but the last one. -/
def withoutLast (y : Fin (n + 1) → List (List K)) : Fin n → List (List K) := fun k => y k.castSucc

end
end Danse
