import Verif.Model.Py
import Mathlib.Logic.Function.Basic

/-!
# Tree orientation and in-network sums (TI-DANSE)

Nodes are elements of any type with decidable equality; the code uses `0 .. K-1` (`Fin K`).
-/

namespace Danse

section
variable {V : Type} [DecidableEq V]

/-- `upstreamNeighborsIdx` and `downstreamNeighborsIdx` of every node (siggen/classes.py 579-581). -/
structure Orient (V : Type) where
  up : V → List V
  down : V → List V

/-- Last loop of `identify_upstream_downstream` (siggen/classes.py 569-573): neighbours of `q` that
are not yet classified become upstream. -/
def classifyRest (q : V) (l : List V) (s : Orient V) : Orient V :=
  l.foldl (fun s ii =>
    if ii ∉ s.down q ∧ ii ∉ s.up q then
      { s with up := Function.update s.up q (s.up q ++ [ii]) }
    else s) s

/-- One turn of the loop of `identify_upstream_downstream` over the neighbours `q` of node `v`
(siggen/classes.py 559-573); `acc` is (`nextNodesIndices`, network). -/
def visitNbr (nbr : V → List V) (v : V) (passed : List V) (acc : List V × Orient V) (q : V) :
    List V × Orient V :=
  let (next, s) := acc
  let (next', s') :=
    if v ∉ s.down q ∧ v ∉ s.up q then
      let s1 : Orient V := { s with down := Function.update s.down q (s.down q ++ [v]) }
      if q ∉ passed then
        (next ++ [q],
          if q ∉ s1.up v then { s1 with up := Function.update s1.up v (s1.up v ++ [q]) } else s1)
      else (next, s1)
    else (next, s)
  (next', classifyRest q (nbr q) s')

/-- `identify_upstream_downstream` (siggen/classes.py 552-574). -/
def identifyUpDown (nbr : V → List V) (v : V) (s : Orient V) (passed : List V) :
    List V × Orient V :=
  (nbr v).foldl (visitNbr nbr v passed) ([], s)

/-- Body of the `while` loop of `orientate` (siggen/classes.py 585-591): all nodes of one level;
returns (network, `passedNodes`, `nextNextRootIndices`). -/
def orientLevel (nbr : V → List V) (level : List V) (s : Orient V) (passed : List V) :
    Orient V × List V × List V :=
  level.foldl (fun (st : Orient V × List V × List V) k =>
    let (foo, s') := identifyUpDown nbr k st.1 st.2.1
    (s', st.2.1 ++ [k], st.2.2 ++ foo)) (s, passed, [])

/-- An entry of `leafToRootOrdering`: the bare root index, or the list of a level's nodes. -/
inductive TreeLevel (V : Type) where
  | one (v : V)
  | many (vs : List V)

/-- The nodes of one entry. -/
def TreeLevel.nodes : TreeLevel V → List V
  | .one v => [v]
  | .many vs => vs

/-- The `while` loop of `orientate` (siggen/classes.py 584-595), `none` if it has not ended after
`fuel` turns. -/
def orientLoop (nbr : V → List V) : Nat → List V → Orient V → List V → List (TreeLevel V) →
    Option (Orient V × List (TreeLevel V))
  | 0, _, _, _, _ => none
  | fuel + 1, level, s, passed, order =>
    if level = [] then some (s, order)
    else
      let (s', passed', next) := orientLevel nbr level s passed
      orientLoop nbr fuel next s' passed' (if next = [] then order else order ++ [.many next])

/-- `WASN.orientate` (siggen/classes.py 546-596) for a network with a root (without one the code
raises `ValueError`): up- and downstream lists and `leafToRootOrdering`. -/
def orientate (nbr : V → List V) (root : V) (fuel : Nat) :
    Option (Orient V × List (TreeLevel V)) :=
  (orientLoop nbr fuel [root] ⟨fun _ => [], fun _ => []⟩ [] [.one root]).map
    fun (s, order) => (s, order.reverse)

end

end Danse
