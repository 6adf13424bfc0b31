import Mathlib.Algebra.Notation.Defs
import Mathlib.Logic.Function.Basic
import Verif.Model.Py
import Verif.Model.Events

/-!
# Model of the inter-node signal buffers of an online DANSE run

Models, from `danse_toolbox/d_classes.py`: `fill_buffers` (1185-1224), `fill_buffers_centr`
(1226-1250), `wipe_buffers` (1361-1366), `process_incoming_signals_buffers` (1701-1805), its
centralised version (1809-1886), `get_buffer_size_for_efficient_bc` (1130-1160), and the order in
which `broadcast` (1043-1128) and `update_and_estimate` (1252-1330) use them.

Samples are elements of an arbitrary type with a zero. State indexed by node (`zBuffer[k]`,
`z[k]`, `i[k]`, `bufferFlags[k]`) is a function of the node index. `bufferFlags` is a growing list
instead of a preallocated array (running past the preallocated number of frames is not
modelled). Not modelled: the printed messages; the values of the compressed signals, which are
arbitrary here.
-/

namespace Danse

section
variable {α : Type}

/-- `x[-m:]` for `m > 0`: the last `m` samples. -/
def lastN (m : Nat) (l : List α) : List α := l.drop (l.length - m)

/-- The chunk of the local compressed signal that is sent (d_classes.py 1199-1207): last `|n|`
samples for negative `n`, first `n` for positive `n`, nothing for `n = 0`. -/
def chunkOf (zLocal : List α) (n : Int) : List α :=
  if n < 0 then lastN n.natAbs zLocal
  else if n > 0 then zLocal.take n.toNat
  else []

/-- `[i for i, x in enumerate(neighbors[q]) if x == k][0]` (d_classes.py 1213-1216). -/
def slotOf (nbq : List Nat) (k : Nat) : Except PyErr Nat :=
  pyGet (nbq.zipIdx.filterMap fun (x, i) => if x = k then some i else none) 0

/-- `fill_buffers` (d_classes.py 1208-1221): append the chunk of node `k` to the buffer that each
neighbour `q` holds for `k`. -/
def fillBuffers (nb : Nat → List Nat) (buf : Nat → Nat → List α) (k : Nat) (chunk : List α) :
    Except PyErr (Nat → Nat → List α) :=
  (nb k).foldlM (fun buf q => do
    let idx ← slotOf (nb q) k
    .ok (Function.update buf q (Function.update (buf q) idx (buf q idx ++ chunk)))) buf

/-- The frame and flag computed from one buffer (d_classes.py 1733-1797). `first` is
`self.i[k] == 0`, `zPrev` is the column `self.z[k][:, idxq]` of the previous frame. -/
def frameOf [Zero α] (Ndft Ns : Nat) (first : Bool) (zPrev buf : List α) : List α × Int :=
  let Bq := buf.length
  if first then
    if Bq = Ndft then (buf, 0)
    else if Bq < Ndft then (List.replicate (Ndft - Bq) 0 ++ buf, -((Ndft - Bq : Nat) : Int))
    else (lastN Ndft buf, ((Bq - Ndft : Nat) : Int))
  else
    let flag : Int :=
      if Bq = Ns then 0
      else if Bq < Ns then -((Ns - Bq : Nat) : Int)
      else ((Bq - Ns : Nat) : Int)
    if 0 < Ndft - Bq then (lastN (Ndft - Bq) zPrev ++ buf, flag)
    else (buf, flag)

/-- Run state of the buffers. `z k` is the list of columns of `self.z[k]`; `flags k` the list,
over the updates of `k`, of the vectors `bufferFlags[k][i, :]`. -/
structure NetSt (α : Type) where
  zBuffer : Nat → Nat → List α
  z : Nat → List (List α)
  it : Nat → Nat
  flags : Nat → List (List Int)

/-- Initial state (d_classes.py 780, 883): empty buffers, no frame yet. -/
def NetSt.init : NetSt α := ⟨fun _ _ => [], fun _ => [], fun _ => 0, fun _ => []⟩

/-- What can happen to the buffers: node `k` broadcasts a chunk, or node `k` updates. -/
inductive BufOp (α : Type) where
  | bc (k : Nat) (chunk : List α)
  | up (k : Nat)

/-- `process_incoming_signals_buffers` (d_classes.py 1701-1801): one column per neighbour;
stacking a column that does not have `Ndft` samples raises `ValueError`. -/
def processBuffers [Zero α] (nb : Nat → List Nat) (Ndft Ns : Nat) (s : NetSt α) (k : Nat) :
    Except PyErr (List (List α) × List Int) :=
  let r := (List.range (nb k).length).map fun idx =>
    frameOf Ndft Ns (s.it k = 0) ((s.z k).getD idx []) (s.zBuffer k idx)
  if r.all (fun x => x.1.length = Ndft) then .ok (r.map (·.1), r.map (·.2))
  else .error .valueError

/-- One event as far as the buffers are concerned: `broadcast` ends with `fill_buffers`
(d_classes.py 1126); `update_and_estimate` processes the buffers, wipes them and increments the
iteration index, whether or not the filter update itself is bypassed (d_classes.py 1277-1278,
1325). -/
def netStep [Zero α] (nb : Nat → List Nat) (Ndft Ns : Nat) (s : NetSt α) :
    BufOp α → Except PyErr (NetSt α)
  | .bc k chunk => do
    let buf ← fillBuffers nb s.zBuffer k chunk
    .ok { s with zBuffer := buf }
  | .up k => do
    let (z, fl) ← processBuffers nb Ndft Ns s k
    .ok { zBuffer := Function.update s.zBuffer k (fun _ => [])
          z := Function.update s.z k z
          it := Function.update s.it k (s.it k + 1)
          flags := Function.update s.flags k (s.flags k ++ [fl]) }

/-- A run of the main loop of `danse` (d_core.py 66-92) seen from the buffers. -/
def netRun [Zero α] (nb : Nat → List Nat) (Ndft Ns : Nat) (ops : List (BufOp α)) :
    Except PyErr (NetSt α) :=
  ops.foldlM (netStep nb Ndft Ns) NetSt.init

/-- What the events of one instant of a fully connected schedule do to the buffers (main loop of
`danse`, d_core.py 75-92); `ch t k` is the chunk that node `k` broadcasts at time `t`. -/
def opsAt {τ : Type} (ch : τ → Nat → List α) (t : τ) (es : List (Nat × EvType)) : List (BufOp α) :=
  es.filterMap fun
    | (k, .bc) => some (.bc k (ch t k))
    | (k, .up) => some (.up k)
    | _ => none

/-- The main loop of `danse` over a whole schedule (d_core.py 66-92), seen from the buffers. -/
def opsOf {τ : Type} (ch : τ → Nat → List α) (out : List (Instant τ)) : List (BufOp α) :=
  out.flatMap fun i => opsAt ch i.t (i.evs.map fun e => (e.node, e.ty))

/-- Neighbours in a fully connected network of `n` nodes: all other nodes. -/
def fcNeighbours (n k : Nat) : List Nat :=
  if k < n then (List.range n).filter (fun q => q ≠ k) else []

/-- Slot of node `k` in the centralised buffers of node `q ≠ k` (d_classes.py 1240-1245). -/
def centrSlot (k q : Nat) : Nat := if k < q then k else k - 1

/-- Slot that node `k` reads for node `q` in the centralised buffers (d_classes.py 1820-1823). -/
def centrReadSlot (k q : Nat) : Nat := if q > k then q - 1 else q

/-- `yBufferCentr[q]` after `wipe_buffers_centr` (d_classes.py 1368-1371): the nodes for which
there is a slot, in slot order. -/
def centrSlots (nNodes q : Nat) : List Nat := (List.range nNodes).filter (fun i => i ≠ q)

/-- Column range of node `q` in the centralised observation matrix of node `k`
(d_classes.py 1860-1868). -/
def centrCols (nSensors : List Nat) (k q : Nat) : Nat × Nat :=
  let start := if centrReadSlot k q = 0 then 0
    else ((List.range nSensors.length).filter (fun i => i ≠ k ∧ i < q)).foldl
      (fun acc i => acc + nSensors.getD i 0) 0
  (start, start + nSensors.getD q 0)

/-- `get_buffer_size_for_efficient_bc` (d_classes.py 1148-1160): number of whole groups of
`bl` samples among the samples recorded after `last` and not after `now`. `bl = 0` cannot occur
for accepted parameters (NumPy would warn and produce a value that `int` rejects). -/
def bufferSizeEff {τ : Type} [LinearOrder τ] (stamps : List τ) (last now : τ) (bl : Nat) :
    Except PyErr Nat :=
  if bl = 0 then .error .valueError
  else .ok (bl * ((stamps.filter fun t => decide (last < t) && decide (t ≤ now)).length / bl))

end

end Danse
