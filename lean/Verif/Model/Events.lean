import Mathlib.Order.Defs.LinearOrder
import Mathlib.Data.List.Dedup
import Verif.Model.Py

/-!
# Model of the DANSE event schedule

Models `danse_toolbox/d_base.py`, `build_events_matrix` (962-1225),
`sort_simultaneous_events` (1228-1334) and `events_groupping_check` (1337-1388).

Event times are only ever compared, so they are elements of an arbitrary linear order `τ`
(finite IEEE doubles are one).
-/

namespace Danse

/-- Event types, `eventsCodesDict` (d_base.py 1066-1072). -/
inductive EvType where
  | tr  -- form tree topology
  | fu  -- fuse local signals
  | bc  -- (partial sum and) broadcast
  | re  -- relay in-network sum
  | up  -- update filters
  deriving DecidableEq, Repr

/-- Integer priority codes, `eventsCodesDict[...][0]` (d_base.py 1066-1072). -/
def EvType.code : EvType → Int
  | .tr => -1
  | .fu => 0
  | .bc => 1
  | .re => 2
  | .up => 3

/-- Downstream flag, `eventsCodesDict[...][1] == 'ds'` (d_base.py 1066-1072). -/
def EvType.isDs : EvType → Bool
  | .tr => true
  | .fu => true
  | .bc => true
  | .re => false
  | .up => false

/-- Keys of `eventsCodesDict` in insertion order (d_base.py 1066-1072). -/
def evTypes : List EvType := [.tr, .fu, .bc, .re, .up]

/-- One row of the flattened event array (d_base.py 1017-1034): instant, node, type. -/
structure Ev (τ : Type) where
  t : τ
  node : Nat
  ty : EvType
  deriving DecidableEq, Repr

/-- One level of a leaf-to-root ordering: a bare node index or a list of node indices
(d_base.py 1263-1290, `isinstance(treeLevel, list)`). -/
inductive Level where
  | one (n : Nat)
  | many (ns : List Nat)
  deriving DecidableEq, Repr

/-- One event of an output instant with its `bypassUpdate` flag. -/
structure OutEv where
  node : Nat
  ty : EvType
  bypass : Bool
  deriving DecidableEq, Repr

/-- `DANSEeventInstant` (d_base.py 1190-1196). The three parallel lists `nodes`, `type`,
`bypassUpdate` are zipped into one list. -/
structure Instant (τ : Type) where
  t : τ
  evs : List OutEv
  deriving Repr

section
variable {τ : Type} [LinearOrder τ]

/-- `np.unique`: the distinct values in increasing order. -/
def npUnique (l : List τ) : List τ := l.dedup.mergeSort (fun a b => decide (a ≤ b))

/-- `_flatten_instants` (d_base.py 992-1035): nothing if `t` is empty; otherwise the
`np.unique` instants of nodes `0..K-1`; `t[k]` raises `IndexError` when `t` is too short. -/
def flattenInstants (K : Nat) (t : List (List τ)) (ty : EvType) : Except PyErr (List (Ev τ)) :=
  if t.length = 0 then .ok []
  else if t.length < K then .error .indexError
  else .ok ((t.take K).zipIdx.flatMap fun (ts, k) => (npUnique ts).map fun x => ⟨x, k, ty⟩)

/-- `events_groupping_check` (d_base.py 1337-1388): starting from the current event, collect
the immediately following events with the same instant; returns them and the remaining rows. -/
def groupCheck (curr : Ev τ) : List (Ev τ) → List (Ev τ) × List (Ev τ)
  | [] => ([], [])
  | nxt :: rest =>
    if curr.t = nxt.t then
      let r := groupCheck nxt rest
      (nxt :: r.1, r.2)
    else ([], nxt :: rest)

theorem groupCheck_length (curr : Ev τ) (l : List (Ev τ)) :
    (groupCheck curr l).2.length ≤ l.length := by
  induction l generalizing curr with
  | nil => simp [groupCheck]
  | cons nxt rest ih =>
    unfold groupCheck
    split
    · have := ih nxt
      simp only [List.length_cons]
      omega
    · simp

/-- `_compile_indices` (d_base.py 1263-1300), acting on the events of one type instead of on
their indices: for each level, the events of the level's nodes (lists in ascending node order,
`treeLevel.sort()`). -/
def compileOrder (order : List Level) (evs : List (Ev τ)) : List (Ev τ) :=
  order.flatMap fun
    | .one n => evs.filter (fun e => e.node = n)
    | .many ns => (ns.mergeSort (fun a b => decide (a ≤ b))).flatMap
        fun k => evs.filter (fun e => e.node = k)

/-- `sort_simultaneous_events` (d_base.py 1228-1334), returning the reordered events rather
than the permutation indices. -/
def sortSimultaneous (ti : Bool) (order : List Level) (evs : List (Ev τ)) : List (Ev τ) :=
  if ti then
    (evTypes.filter (·.isDs)).flatMap (fun ty => compileOrder order (evs.filter (·.ty = ty)))
    ++ (evTypes.filter (fun ty => !ty.isDs)).flatMap
        (fun ty => compileOrder order.reverse (evs.filter (·.ty = ty)))
  else
    evTypes.flatMap fun ty =>
      (evs.filter (·.ty = ty)).mergeSort (fun a b => decide (a.node ≤ b.node))

/-- Loop-carried state of the bypass logic (d_base.py 1109-1117). -/
structure BypassSt where
  lastUpNode : Int
  nFrames : Int
  deriving DecidableEq, Repr

/-- Configuration read by the bypass logic: number of nodes, `'seq' in nodeUpdating`,
`minNumFramesBwUpdates`. -/
structure BypassCfg where
  nNodes : Nat
  seq : Bool
  minFrames : Int
  deriving DecidableEq, Repr

/-- The inner `for ii in range(len(types))` decision for one event (d_base.py 1166-1183):
`nFrames` is the already incremented counter. -/
def bypassOf (c : BypassCfg) (lastUpNode nFrames : Int) (e : Ev τ) : Bool :=
  if e.ty = .up then
    if nFrames < c.minFrames then true
    else if c.seq then
      if (e.node : Int) = (lastUpNode + 1) % (c.nNodes : Int) then false else true
    else false
  else false

/-- `lastUpNodeUpdated` after the inner loop (d_base.py 1165-1180). -/
def lastUpdated (c : BypassCfg) (lastUpNode nFrames : Int) (evs : List (Ev τ)) : Int :=
  evs.foldl (fun acc e =>
    if e.ty = .up then
      if nFrames < c.minFrames then acc
      else if c.seq then
        if (e.node : Int) = (lastUpNode + 1) % (c.nNodes : Int) then (e.node : Int) else acc
      else acc
    else acc) lastUpNode

/-- "Address update bypassing" (d_base.py 1159-1187): flags and new loop state for one
instant. -/
def bypassStep (c : BypassCfg) (s : BypassSt) (evs : List (Ev τ)) : List OutEv × BypassSt :=
  if evs.any (fun e => e.ty = .up) then
    let nf := s.nFrames + 1
    let out : List OutEv := evs.map fun e => ⟨e.node, e.ty, bypassOf c s.lastUpNode nf e⟩
    let allBypassed := out.all fun o => if o.ty = .up then o.bypass else true
    (out, ⟨lastUpdated c s.lastUpNode nf evs, if allBypassed then nf else 0⟩)
  else
    (evs.map fun e => ⟨e.node, e.ty, false⟩, s)

/-- Loop-carried state of the tree-formation counter (d_base.py 1118-1121). -/
structure TreeSt (τ : Type) where
  counter : Int
  last : Option τ

/-- Static inputs of the grouping loop. `trTimes` is `trInstants[:, 0]`. -/
structure LoopCfg (τ : Type) where
  byp : BypassCfg
  ti : Bool
  trTimes : List τ
  orderings : List (List Level)

/-- "Check if a new tree topology must be formed" (d_base.py 1128-1138). The ordering list is
indexed with Python semantics (`-1` is the last element; past the end raises `IndexError`). -/
def treeStep (c : LoopCfg τ) (s : TreeSt τ) (t : τ) : Except PyErr (List Level × TreeSt τ) :=
  if c.ti then
    let s' : TreeSt τ :=
      if t ∈ c.trTimes ∧ s.last ≠ some t then ⟨s.counter + 1, some t⟩ else s
    match pyGet c.orderings s'.counter with
    | .ok o => .ok (o, s')
    | .error e => .error e
  else .ok ([], s)

/-- The `while eventIdx < numEventInstants` loop (d_base.py 1122-1199) over the time-sorted
event rows. -/
def groupLoop (c : LoopCfg τ) (b : BypassSt) (s : TreeSt τ) :
    List (Ev τ) → Except PyErr (List (Instant τ))
  | [] => .ok []
  | e :: rest =>
    match treeStep c s e.t with
    | .error err => .error err
    | .ok (order, s') =>
      let g := groupCheck e rest
      let evs := sortSimultaneous c.ti order (e :: g.1)
      let r := bypassStep c.byp b evs
      match groupLoop c r.2 s' g.2 with
      | .error err => .error err
      | .ok out => .ok (⟨e.t, r.1⟩ :: out)
termination_by l => l.length
decreasing_by
  have := groupCheck_length e rest
  simp only [List.length_cons]
  omega

/-- Arguments of `build_events_matrix` (d_base.py 962-973), without the plotting flag.
`nodeUpdating` only matters through `'seq' in nodeUpdating`. -/
structure EvArgs (τ : Type) where
  up_t : List (List τ)
  bc_t : List (List τ) := []
  seq : Bool := true
  fuse_t : List (List τ) := []
  re_t : List (List τ) := []
  tr_t : List (List τ) := []
  orderings : List (List Level) := []
  firstUpdatingNode : Int := 0
  minFrames : Int := 0

/-- `tiFlag` (d_base.py 1080-1081). -/
def EvArgs.tiFlag (a : EvArgs τ) : Bool :=
  a.fuse_t.any (fun ts => decide (0 < ts.length)) && decide (a.fuse_t.length = a.up_t.length)

/-- The flattened, concatenated event rows before sorting (d_base.py 1083-1104). -/
def flatRows (a : EvArgs τ) : Except PyErr (List (Ev τ)) := do
  let n := a.up_t.length
  let up ← flattenInstants n a.up_t .up
  let bc ← flattenInstants n a.bc_t .bc
  if a.tiFlag then
    let fu ← flattenInstants n a.fuse_t .fu
    let re ← flattenInstants n a.re_t .re
    let tr ← flattenInstants n a.tr_t .tr
    .ok (tr ++ up ++ bc ++ fu ++ re)
  else .ok (up ++ bc)

/-- The part of `build_events_matrix` after the sort (d_base.py 1109-1225), for an already
time-sorted array of rows. -/
def processRows (a : EvArgs τ) (rows : List (Ev τ)) : Except PyErr (List (Instant τ)) :=
  groupLoop
    { byp := ⟨a.up_t.length, a.seq, a.minFrames⟩
      ti := a.tiFlag
      trTimes := if a.tiFlag then (rows.filter (·.ty = .tr)).map (·.t) else []
      orderings := a.orderings }
    ⟨a.firstUpdatingNode - 1, 0⟩ ⟨-1, none⟩ rows

/-- `build_events_matrix` (d_base.py 962-1225). `np.argsort` is modelled by a stable merge
sort; theorem `C01_tie_break_independent` shows that any other sort gives the same result. -/
def buildEvents (a : EvArgs τ) : Except PyErr (List (Instant τ)) := do
  let rows ← flatRows a
  processRows a (rows.mergeSort (fun x y => decide (x.t ≤ y.t)))

end

end Danse
