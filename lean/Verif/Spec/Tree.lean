import Verif.Model.TI
import Verif.Model.Events
import Verif.Spec.Events
import Mathlib.Combinatorics.SimpleGraph.Metric

/-! # Specification vocabulary for tree networks -/

namespace Danse

/-- The neighbour lists of a network whose links are the graph `G`. -/
def NeighboursOf {V : Type} (G : SimpleGraph V) (nbr : V → List V) : Prop :=
  ∀ v, (nbr v).Nodup ∧ ∀ q, q ∈ nbr v ↔ G.Adj v q

/-- A level as the event scheduler sees it (bare indices). -/
def TreeLevel.toLevel {n : Nat} : TreeLevel (Fin n) → Level
  | .one v => .one v
  | .many vs => .many (vs.map Fin.val)

/-- The in-network-sum event corresponding to a scheduled event. -/
def toTIEv (n : Nat) (e : OutEv) : Option (TIEv (Fin n)) :=
  if h : e.node < n then
    match e.ty with
    | .fu => some (.fu ⟨e.node, h⟩)
    | .bc => some (.bc ⟨e.node, h⟩)
    | .re => some (.re ⟨e.node, h⟩)
    | _ => none
  else none

/-- The fused frame of node `v` at the current instant: the newest `N` fused samples, of which
the last `Ns` are the first `Ns` samples of the latest fusion. -/
def newFrame {V K : Type} (Ns : Nat) (old fused : V → List K) (v : V) : List K :=
  (old v).drop Ns ++ (fused v).take Ns

end Danse
