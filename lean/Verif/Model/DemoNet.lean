import Verif.Model.Dxcp

/-!
# Synchronising a network of nodes along a tree

`dxcpphat/demo_utils.py`: `verify_topology`, `get_unique_node_list`, `get_async_node_delays`,
`run_simulation_online`, `run_simulation_parallel`. A topology description is a list of levels, a level a list
of branches, a branch a list of node names, the first of which is the reference of the others. The types of
its entries are not checked here. Frames of a signal are of any type `F`.
-/

namespace Danse

variable {N : Type} [DecidableEq N]

/-- `is_unique_list` (demo_utils.py 342-346). -/
def isUniqueList (l : List N) : Bool := l.all fun e => ! decide (l.count e > 1)

/-- The loop body over the nodes of a branch (demo_utils.py 384-402): `none` is `return False`. `acc` holds
`level_all_nodes` and `level_leaf_nodes`. -/
def verifyNode (white enc prev : List N) (lid : Nat) (acc : List N × List N) (e : N × Nat) :
    Option (List N × List N) :=
  if e.1 ∉ white then none
  else if 0 < e.2 ∧ e.1 ∈ enc then none
  else if e.2 = 0 ∧ 0 < lid then
    if e.1 ∉ prev then none else some (acc.1 ++ [e.1], acc.2)
  else some (acc.1 ++ [e.1], acc.2 ++ [e.1])

/-- The loop body over the branches (demo_utils.py 380-402). -/
def verifyBranch (white enc prev : List N) (lid : Nat) (acc : List N × List N) (branch : List N) :
    Option (List N × List N) :=
  if branch.length < 2 then none
  else branch.zipIdx.foldlM (verifyNode white enc prev lid) acc

/-- The loop body over the levels (demo_utils.py 368-409). `s` holds `leaf_nodes_encountered` and
`prev_level_leaf_nodes`. -/
def verifyLevel (white : List N) (s : List N × List N) (e : List (List N) × Nat) :
    Option (List N × List N) :=
  if e.1.length = 0 then none
  else if e.2 = 0 ∧ 1 < e.1.length then none
  else (e.1.foldlM (verifyBranch white s.1 s.2 e.2) ([], [])).bind fun a =>
    if isUniqueList a.1 then some (s.1 ++ a.2, a.2) else none

/-- `verify_topology` (demo_utils.py 348-411). -/
def verifyTopology (levels : List (List (List N))) (white : List N) : Bool :=
  if levels.length = 0 then false
  else (levels.zipIdx.foldlM (verifyLevel white) ([], [])).isSome

/-- `get_unique_node_list` (demo_utils.py 411-426). -/
def uniqueNodeList (levels : List (List (List N))) : List N :=
  levels.foldl (fun s L => L.foldl (fun s B => B.foldl (fun s n => if n ∉ s then s ++ [n] else s) s) s) []

/-- `get_async_node_delays` (demo_utils.py 428-451). -/
def asyncNodeDelays (levels : List (List (List N))) (perLevel : Nat) : List Nat :=
  let nodes := uniqueNodeList levels
  (levels.zipIdx.foldl (fun d (e : List (List N) × Nat) =>
    e.1.foldl (fun d B => B.tail.foldl (fun d n => d.set (nodes.idxOf n) (e.2 * perLevel)) d) d)
    (List.replicate nodes.length 0)).tail

/-- What `CL_DXCPPhaT.process` returns (sro_estimation.py 75): residual SRO, SRO, synchronised frame. -/
structure EstOut (F : Type) where
  dsro : ℚ
  sro : ℚ
  blk : F

/-- An SRO estimator: its state after construction with a start delay, and `process` for a reference frame, a
frame and an ACS value. All frames of a run have the same length, so that it does not raise. -/
structure Estimator (E F A : Type) where
  init : Nat → E
  step : E → F → F → A → E × EstOut F

/-- Results of a simulation: `synced[frame, :, node]`, `SRO_est[frame, n]`, `dSRO_est[frame, n]`. The arrays
are functions; entries outside of the arrays are not accessed. -/
structure SimOut (F : Type) where
  synced : Nat → Nat → F
  sro : Nat → Nat → ℚ
  dsro : Nat → Nat → ℚ

/-- Assignment to one entry of a two-dimensional array. -/
def setAt {T : Type} (a : Nat → Nat → T) (i j : Nat) (v : T) : Nat → Nat → T :=
  fun i' j' => if i' = i ∧ j' = j then v else a i' j'

/-- Assignment to a column. -/
def setCol {T : Type} (a : Nat → Nat → T) (j : Nat) (v : Nat → T) : Nat → Nat → T :=
  fun i' j' => if j' = j then v i' else a i' j'

/-- State of `run_simulation_online`: estimators, input buffers, results. -/
structure OnSt (E F : Type) where
  est : List E
  buf : List (DelayBuf F)
  out : SimOut F

variable {E F A : Type}

/-- One node in one frame (demo_utils.py 233-242); `lev` is `synced_blocks_level`. -/
def onNode (e : Estimator E F A) (sig : Nat → Nat → F) (acs : Nat → A) (nodes : List N) (delays : List Nat)
    (frame : Nat) (ref : F) (s : OnSt E F × (N → Option F)) (node : N) :
    Except PyErr (OnSt E F × (N → Option F)) :=
  let n := nodes.idxOf node - 1
  match s.1.est[n]?, s.1.buf[n]?, delays[n]? with
  | some est, some buf, some d =>
    let buf := buf.write (sig frame (n + 1))
    match buf.deref buf.read with
    | none => .error .indexError
    | some x =>
      let r := e.step est ref x (acs frame)
      .ok (⟨s.1.est.set n r.1, s.1.buf.set n buf,
        ⟨if frame > d + 2 then setAt s.1.out.synced (frame - (d + 2)) (n + 1) r.2.blk else s.1.out.synced,
          setAt s.1.out.sro frame n (-r.2.sro), setAt s.1.out.dsro frame n (-r.2.dsro)⟩⟩,
        fun m => if m = node then some r.2.blk else s.2 m)
  | _, _, _ => .error .indexError

/-- One branch in one frame (demo_utils.py 229-242). -/
def onBranch (e : Estimator E F A) (sig : Nat → Nat → F) (acs : Nat → A) (nodes : List N) (delays : List Nat)
    (frame : Nat) (prev : N → Option F) (s : OnSt E F × (N → Option F)) (branch : List N) :
    Except PyErr (OnSt E F × (N → Option F)) :=
  match branch with
  | [] => .error .indexError
  | h :: t => match prev h with
    | none => .error .keyError
    | some ref => t.foldlM (onNode e sig acs nodes delays frame ref) s

/-- One level in one frame (demo_utils.py 227-243). -/
def onLevel (e : Estimator E F A) (sig : Nat → Nat → F) (acs : Nat → A) (nodes : List N) (delays : List Nat)
    (frame : Nat) (s : OnSt E F × (N → Option F)) (level : List (List N)) :
    Except PyErr (OnSt E F × (N → Option F)) :=
  level.foldlM (onBranch e sig acs nodes delays frame s.2) (s.1, fun _ => none)

/-- One frame (demo_utils.py 224-243). -/
def onFrame (e : Estimator E F A) (sig : Nat → Nat → F) (acs : Nat → A) (levels : List (List (List N)))
    (nodes : List N) (delays : List Nat) (s : OnSt E F) (frame : Nat) : Except PyErr (OnSt E F) :=
  match nodes.head? with
  | none => .error .indexError
  | some root => (levels.foldlM (onLevel e sig acs nodes delays frame)
      (s, fun m => if m = root then some (sig frame 0) else none)).map (·.1)

/-- `run_simulation_online` (demo_utils.py 207-245). `sig` are the signals (frame, node), `zero` is a frame
of zeros, `ctl` is `control_init_sro_est`. -/
def simOnline (e : Estimator E F A) (zero : F) (sig : Nat → Nat → F) (acs : Nat → A) (nFrames : Nat)
    (levels : List (List (List N))) (ctl : Bool) : Except PyErr (SimOut F) :=
  let nodes := uniqueNodeList levels
  let delays := asyncNodeDelays levels 2
  ((List.range nFrames).foldlM (onFrame e sig acs levels nodes delays)
    ⟨delays.map fun d => e.init (d * (if ctl then 100 else 0)), delays.map fun d => DelayBuf.init zero (d + 1),
      ⟨fun t j => if j = 0 then sig t 0 else zero, fun _ _ => 0, fun _ _ => 0⟩⟩).map (·.out)

/-- The estimator state before frame `t` of a node pair, and `process_node_pair` (demo_utils.py 250-277). -/
def pairState (e : Estimator E F A) (start : Nat) (ref x : Nat → F) (acs : Nat → A) : Nat → E
  | 0 => e.init start
  | t + 1 => (e.step (pairState e start ref x acs t) (ref t) (x t) (acs t)).1

/-- What the estimator of a node pair returns for frame `t`. -/
def pairOut (e : Estimator E F A) (start : Nat) (ref x : Nat → F) (acs : Nat → A) (t : Nat) : EstOut F :=
  (e.step (pairState e start ref x acs t) (ref t) (x t) (acs t)).2

/-- What the process of a node puts into the queue: `SRO_est`, `dSRO_est`, `signal_synced`. -/
structure PairRes (F : Type) where
  sro : Nat → ℚ
  dsro : Nat → ℚ
  synced : Nat → F

/-- The process started for a node (demo_utils.py 306-316 and 250-277). -/
def pairProc (e : Estimator E F A) (zero : F) (sig : Nat → Nat → F) (acs : Nat → A) (nodes : List N)
    (delays : List Nat) (ctl : Bool) (sid : Nat) (out : SimOut F) (head node : N) : PairRes F :=
  let id := nodes.idxOf node
  let x := fun t => if t < 2 * sid then zero else sig (t - 2 * sid) id
  let ref := fun t => out.synced t (nodes.idxOf head)
  let start := (if ctl then 100 else 0) * delays.getD (id - 1) 0
  ⟨fun t => -(pairOut e start ref x acs t).sro, fun t => -(pairOut e start ref x acs t).dsro,
    fun t => (pairOut e start ref x acs t).blk⟩

/-- The loop that collects the results of a level (demo_utils.py 318-335), `arrivals` in the order in which
they come out of the queue: `none` if `q.get()` blocks for ever. -/
def collect (nodes : List N) (res : N → Option (PairRes F)) :
    List N → List N → SimOut F → Option (SimOut F)
  | _, [], _ => none
  | pending, a :: r, o => match res a with
    | none => none
    | some p =>
      let j := nodes.idxOf a
      let o' : SimOut F := ⟨setCol o.synced j p.synced, setCol o.sro (j - 1) p.sro, setCol o.dsro (j - 1) p.dsro⟩
      let pending' := pending.filter (· ≠ a)
      if pending' = [] then some o' else collect nodes res pending' r o'

/-- One level (demo_utils.py 299-335): all processes are started on the results of the levels before, then
collected. Node names of a level are distinct. -/
def parLevel (e : Estimator E F A) (zero : F) (sig : Nat → Nat → F) (acs : Nat → A) (nodes : List N)
    (delays : List Nat) (ctl : Bool) (arrivals : Nat → List N) (out : SimOut F)
    (l : List (List N) × Nat) : Option (SimOut F) :=
  let pairs := l.1.flatMap fun B => B.tail.map fun n => (B.headD n, n)
  collect nodes (fun a => (pairs.find? (·.2 = a)).map fun p =>
      pairProc e zero sig acs nodes delays ctl l.2 out p.1 p.2)
    (pairs.map (·.2)) (arrivals l.2) out

/-- The final compensation of the delays of one column (demo_utils.py 341-344): `a[:-d] = a[d:]`,
`a[-d:-1] = 0`. -/
def shiftBack (zero : F) (nFrames d : Nat) (col : Nat → F) (t : Nat) : F :=
  if t + d < nFrames then col (t + d) else if t + 1 < nFrames then zero else col t

/-- `run_simulation_parallel` (demo_utils.py 248-346). `arrivals l` is the order in which the processes of
level `l` deliver their results. `none`: it never returns. -/
def simParallel (e : Estimator E F A) (zero : F) (sig : Nat → Nat → F) (acs : Nat → A) (nFrames : Nat)
    (levels : List (List (List N))) (ctl : Bool) (arrivals : Nat → List N) : Option (SimOut F) :=
  let nodes := uniqueNodeList levels
  let delays := asyncNodeDelays levels 2
  (levels.zipIdx.foldlM (parLevel e zero sig acs nodes delays ctl arrivals)
    ⟨fun t j => if j = 0 then sig t 0 else zero, fun _ _ => 0, fun _ _ => 0⟩).map fun o =>
      ⟨fun t j => if 0 < j ∧ j < nodes.length then
          shiftBack zero nFrames (delays.getD (j - 1) 0 + 2) (fun t => o.synced t j) t else o.synced t j,
        o.sro, o.dsro⟩

end Danse
