import Verif.Model.DemoNet

/-! # Specification vocabulary for topology descriptions and their simulation -/

namespace Danse

variable {N : Type}

/-- The nodes of a level that are synchronised there: all but the first of each branch. -/
def children (L : List (List N)) : List N := L.flatMap List.tail

/-- A description with root `root` that `verify_topology` should accept: one branch at the root, branches of at
least two known nodes, no node twice in a level, no node synchronised twice, the root never. `early` are the
references that are allowed besides the nodes synchronised in the level before. -/
structure TopoOk (levels : List (List (List N))) (white : List N) (root : N) (early : Nat → N → Prop) : Prop where
  first : ∃ t rest, levels = [root :: t] :: rest
  nonempty : ∀ L ∈ levels, L ≠ []
  two : ∀ L ∈ levels, ∀ B ∈ L, 2 ≤ B.length
  known : ∀ L ∈ levels, ∀ B ∈ L, ∀ n ∈ B, n ∈ white
  once : ∀ L ∈ levels, L.flatten.Nodup
  leafOnce : levels.Pairwise fun L L' => ∀ n ∈ children L, n ∉ children L'
  rootNever : ∀ L ∈ levels, root ∉ children L
  heads : ∀ l L L', levels[l]? = some L → levels[l + 1]? = some L' → ∀ h t, h :: t ∈ L' →
    h ∈ children L ∨ early l h

/-- A description of a tree level by level: every reference is synchronised in the level before. -/
def ProperTopo (levels : List (List (List N))) (white : List N) (root : N) : Prop :=
  TopoOk levels white root fun _ _ => False

/-- What `verify_topology` accepts: the branches of the second level may also refer to the root. -/
def AcceptedTopo (levels : List (List (List N))) (white : List N) (root : N) : Prop :=
  TopoOk levels white root fun l h => l = 0 ∧ h = root

/-- The nodes in the order of the description: the root, then level by level. -/
def nodeOrder (levels : List (List (List N))) (root : N) : List N := root :: levels.flatMap children

/-- `out c t` is what the estimator of node `c` returns for frame `t`, if every node is synchronised with the
*synchronised* signal of its reference, its own signal being delayed by two frames per level; column `col c`
of the signals belongs to node `c`. -/
structure SyncRun {E F A : Type} (e : Estimator E F A) (zero : F) (sig : Nat → Nat → F) (acs : Nat → A)
    (levels : List (List (List N))) (root : N) (ctl : Bool) (col : N → Nat) (out : N → Nat → EstOut F) : Prop where
  root : ∀ t, (out root t).blk = sig t 0
  child : ∀ l L h B c, levels[l]? = some L → h :: B ∈ L → c ∈ B →
    out c = pairOut e (if ctl then 200 * l else 0) (fun t => (out h t).blk)
      (fun t => if t < 2 * l then zero else sig (t - 2 * l) (col c)) acs

end Danse
