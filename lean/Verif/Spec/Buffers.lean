import Verif.Model.Buffers

/-! # Specification vocabulary for the buffers: what a history of broadcasts and updates means -/

namespace Danse
section
variable {α : Type}

/-- Is this the update event of node `q`? -/
def BufOp.isUp (q : Nat) : BufOp α → Bool
  | .up k => k = q
  | .bc _ _ => false

/-- Everything node `k` broadcasts in a history, in order. -/
def sent (ops : List (BufOp α)) (k : Nat) : List α :=
  ops.flatMap fun
    | .bc j c => if j = k then c else []
    | .up _ => []

/-- The part of a history after the last update of node `q` (everything if there is none). -/
def sinceUp (q : Nat) (ops : List (BufOp α)) : List (BufOp α) :=
  ops.foldl (fun acc op => if op.isUp q then [] else acc ++ [op]) []

/-- The part of a history up to (and including) the last update of node `q` (nothing if there is
none). -/
def untilUp (q : Nat) (ops : List (BufOp α)) : List (BufOp α) :=
  ops.take (ops.length - (sinceUp q ops).length)

/-- Number of updates of node `q` in a history. -/
def numUps (q : Nat) (ops : List (BufOp α)) : Nat := ops.countP (BufOp.isUp q)

/-- A neighbour relation as used by the code: symmetric, no node listed twice. -/
structure GoodNeighbours (nb : Nat → List Nat) : Prop where
  nodup : ∀ k, (nb k).Nodup
  symm : ∀ k q, q ∈ nb k → k ∈ nb q

/-- `s` holds the last `n` samples of a stream preceded by silence. -/
def LastSamples [Zero α] (n : Nat) (stream s : List α) : Prop :=
  s.length = n ∧ ∃ pre, List.replicate n 0 ++ stream = pre ++ s

end
end Danse
