import Verif.Model.Prune
import Verif.Spec.TIRun

/-! # Specification vocabulary for pruning a network to a tree -/

namespace Danse

/-- `T` is a spanning forest of `G`: it has only links of `G`, no cycle, and connects whatever `G`
connects. -/
structure SpanningForest {V : Type} (G T : SimpleGraph V) : Prop where
  links : T ≤ G
  acyclic : T.IsAcyclic
  reach : ∀ u v, G.Reachable u v → T.Reachable u v

open Classical in
/-- The sum of the weights of all links (each link once in each direction). -/
noncomputable def totalWeight {n : Nat} (w : Fin n → Fin n → ℝ) (T : SimpleGraph (Fin n)) : ℝ :=
  ∑ u, ∑ v, if T.Adj u v then w u v else 0

/-- What is assumed of a minimum-spanning-tree algorithm: its result is a spanning forest, and there is
none of a smaller total weight. -/
def MstAlgorithm {n : Nat}
    (mst : SimpleGraph (Fin n) → (Fin n → Fin n → ℝ) → SimpleGraph (Fin n)) : Prop :=
  ∀ G w, SpanningForest G (mst G w) ∧
    ∀ T, SpanningForest G T → totalWeight w (mst G w) ≤ totalWeight w T

/-- All nodes are at (nearly) the position of the first one. -/
def NearlySamePosition {n : Nat} (p : Fin n → Pt) : Prop :=
  ∀ k0 k : Fin n, k0.val = 0 → ∀ i, |p k0 i - p k i| ≤ 1e-8 + 1e-5 * |p k i|

/-- The network whose links are those of the neighbour lists. -/
def nbrGraph {n : Nat} (nbr : Fin n → List (Fin n)) : SimpleGraph (Fin n) :=
  SimpleGraph.fromRel fun u v => u ∈ nbr v

/-- The mean power of the samples at which the VAD has the given value. -/
noncomputable def powerWhen (b : Bool) (x : List ℝ) (vad : List Bool) : ℝ :=
  meanOf (((x.zip vad).filter fun s => s.2 == b).map fun s => s.1 ^ 2)

end Danse
