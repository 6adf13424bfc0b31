import Verif.Model.Py
import Verif.Model.GivenRun

/-!
# The arrays that a run fills, one row per update

`DANSEvariables.init_from_wasn` allocates, for every node, arrays with one row per expected iteration
(`danse_toolbox/d_classes.py` 492, 593-601, 665-775); every update event of the node fills the row with the
index `self.i[k]` (filters: the next one) and reads the VAD decision with that index, then increments the index
(1252-1330, 2920-2993). The values that are written are arbitrary here (`upd i`, `frm i`): what they are is the
matter of other parts of the model.
-/

namespace Danse

/-- `nIter` (d_classes.py 492): `int((n - N) / Ns) + 1`; `int` truncates towards zero. The quotient of two
integers is taken to be exact. -/
def allocIter (n N Ns : Nat) : Except PyErr Int :=
  if Ns = 0 then .error .zeroDivisionError else .ok (((n : Int) - N).tdiv Ns + 1)

/-- `np.zeros`/`np.full`/`init_complex_filter` with `rows` rows (d_classes.py 593-601, 665-775): `ValueError`
for a negative number. -/
def allocRows {α : Type} (x : α) (rows : Int) : Except PyErr (List α) :=
  if rows < 0 then .error .valueError else .ok (List.replicate rows.toNat x)

/-- `a[:, i, :] = x` for a non-negative row index. -/
def setRow {α : Type} (a : List α) (i : Nat) (x : α) : Except PyErr (List α) :=
  if i < a.length then .ok (a.set i x) else .error .indexError

/-- The rows of one node: the iteration index `i[k]`, the filters (`wTilde`, `wTildeExt`, `wLocal`, `wCentr`;
one row more), the frames (`bufferFlags`, `yTilde`, `yTildeHat`, `dhat`, `mseCostOnline`, ...), and the VAD
decisions that were read. -/
structure NodeRows (α β : Type) where
  i : Nat
  filt : List α
  frames : List β
  vads : List Bool
deriving DecidableEq

section
variable {α β : Type} (k : Nat) (upd : Nat → α) (frm : Nat → β) (vad : List Bool)

/-- One event, as far as the rows of node `k` are concerned (d_classes.py 1252-1330, 2094, 2920-2993). -/
def rowsStep (s : NodeRows α β) (ev : ℚ × Nat × EvType) : Except PyErr (NodeRows α β) :=
  if ev.2.1 = k ∧ ev.2.2 = .up then do
    let frames ← setRow s.frames s.i (frm s.i)
    let v ← pyGet vad s.i
    let filt ← setRow s.filt (s.i + 1) (upd s.i)
    .ok ⟨s.i + 1, filt, frames, s.vads ++ [v]⟩
  else .ok s

/-- The rows of node `k` after a run over the events `evs` (d_classes.py 492-775; d_core.py 66-76). -/
def nodeRows (w0 : α) (f0 : β) (n N Ns : Nat) (evs : List (ℚ × Nat × EvType)) :
    Except PyErr (NodeRows α β) := do
  let nIter ← allocIter n N Ns
  let frames ← allocRows f0 nIter
  let filt ← allocRows w0 (nIter + 1)
  evs.foldlM (rowsStep k upd frm vad) ⟨0, filt, frames, []⟩

end

/-- The filters of a node after a batch run (d_core.py 286-330, 396-440; d_batch.py): the same allocation, one row
for each of `B = maxBatchUpdates` updates. -/
def batchRows {α : Type} (upd : Nat → α) (w0 : α) (n N Ns B : Nat) : Except PyErr (List α) := do
  let nIter ← allocIter n N Ns
  let filt ← allocRows w0 (nIter + 1)
  (List.range B).foldlM (fun f i => setRow f (i + 1) (upd i)) filt

end Danse
