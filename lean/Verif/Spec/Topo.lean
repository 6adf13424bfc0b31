import Verif.Model.Topo

/-! # Specification of neighbour lists -/

namespace Danse

/-- The neighbour lists of an undirected network of `n` nodes with links `link`: one increasing list
per node, holding exactly the other nodes it is linked with. -/
structure NeighbourLists (n : Nat) (link : Nat → Nat → Prop) (nb : List (List Nat)) : Prop where
  length : nb.length = n
  increasing : ∀ (k : Nat) l, nb[k]? = some l → l.Pairwise (· < ·)
  mem : ∀ (k : Nat) l, nb[k]? = some l → ∀ q, q ∈ l ↔ q < n ∧ q ≠ k ∧ link k q
  symm : ∀ k < n, ∀ q < n, link k q ↔ link q k

/-- A valid user-defined connectivity matrix for `n` nodes. -/
def ValidConn (n : Nat) (M : NpMat) : Prop :=
  M.rows = n ∧ M.cols = n ∧ (∀ i < n, ∀ j < n, M.at' i j = 0 ∨ M.at' i j = 1) ∧
    ∀ i < n, ∀ j < n, M.at' i j = M.at' j i

/-- Global index of the first sensor of node `k`. -/
def firstSensor (nSensors : List Nat) (k : Nat) : Nat := (nSensors.take k).sum

/-- `m` is sensor `j` of node `k`. -/
def Owns (nSensors : List Nat) (k j m : Nat) : Prop :=
  ∃ s, nSensors[k]? = some s ∧ j < s ∧ m = firstSensor nSensors k + j

end Danse
