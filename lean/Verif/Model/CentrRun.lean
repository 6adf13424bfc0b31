import Verif.Model.GivenRun

/-!
# Model of the centralised and single-sensor-broadcast estimates of a DANSE run

`computeCentralised` and `computeSingleSensorBroadcast` make `danse` compute two reference estimates
next to its own: from all the sensors of the network, and from the own sensors with one sensor of
every other node. This models what these options add to the run of `GivenRun`
(`danse_toolbox/d_classes.py`): `pre_fill_buffers_centralised` (1162-1183), `fill_buffers_centr`
(1226-1250), `process_incoming_signals_buffers_centr` (1809-1890), `wipe_buffers_centr` (1368-1371),
`build_ycentr` (1542-1585), `build_yssbc` (1587-1625) and the corresponding parts of
`get_desired_signal` (2655-2675, 2693-2709).

A multichannel signal is a list of channels. As in `GivenRun`, the filters and the phase factors of
`compensate_sros` are given.
-/

namespace Danse
section
variable {K : Type} [Field K] [StarRing K] [DecidableEq K]

/-- What the run reads: parameters, network and filters of `GivenRun`, number of nodes, the options,
the rows `wCentr[k][:, i, :]` and `wSSBC[k][:, i, :]` and the phase factors of the centralised
observations. -/
structure CentrCfg (K : Type) where
  g : GivenCfg K
  n : Nat
  centr : Bool
  ssbc : Bool
  compensateSROs : Bool
  wC : Nat → Nat → List (List K)
  wS : Nat → Nat → List (List K)
  rotC : Nat → Nat → Nat → Nat → K

/-- Run state: `yBufferCentr[k][slot]`, `yc[k]`, `bufferFlagsCentr[k]`, the last observations
(`yCentr[k]`, `ySSBC[k]`) and the estimates. -/
structure CentrSt (K : Type) where
  base : GivenSt K
  buf : Nat → Nat → List (List K)
  yc : Nat → List (List K)
  flags : Nat → List (List Int)
  yCentr : Nat → List (List K)
  ySSBC : Nat → List (List K)
  dC : Nat → List K
  dS : Nat → List K

/-- Empty buffers, one channel per sensor of the other nodes (`M q` sensors at node `q`;
`[np.empty((0, nSensors[q])) for q in ... if q != k]`, d_classes.py 784, 1368-1371). -/
def emptyCentr (n : Nat) (M : Nat → Nat) (k slot : Nat) : List (List K) :=
  match (centrSlots n k)[slot]? with
  | some q => List.replicate (M q) []
  | none => []

/-- Initial state (d_classes.py 780-785, 796-831). -/
def CentrSt.init (n N refSensor T : Nat) (M : Nat → Nat) : CentrSt K :=
  { base := GivenSt.init N refSensor T M
    buf := emptyCentr n M
    yc := fun _ => []
    flags := fun _ => []
    yCentr := fun _ => []
    ySSBC := fun _ => []
    dC := fun _ => List.replicate T 0
    dS := fun _ => List.replicate T 0 }

/-- `pre_fill_buffers_centralised` (d_classes.py 1162-1183): the raw samples put aside for the other
nodes. `ykFrame[-currL:, :]` is the whole frame for `currL = 0`. -/
def CentrCfg.rawFrames (c : CentrCfg K) (y : Nat → List (List K)) (s : CentrSt K) (t : ℚ) (k : Nat) :
    Except PyErr (List (List K)) := do
  let fr ← (y k).mapM fun ch => chunkForBroadcast ch t (c.g.fs k) c.g.N
  match c.g.bc with
  | .whole => .ok (fr.map (·.1))
  | .few L true => do
    let l ← c.g.currL s.base L true t k
    .ok (fr.map fun x => if l = 0 then x.1 else lastN l x.1)
  | .few _ false => .error .notImplementedError

/-- The signed number of samples that `broadcast` passes to `fill_buffers` (d_classes.py 1077, 1123). -/
def CentrCfg.nSamplesToBC (c : CentrCfg K) (s : CentrSt K) (t : ℚ) (k : Nat) : Except PyErr Int :=
  match c.g.bc with
  | .whole => .ok c.g.Ns
  | .few L eff => do
    let l ← c.g.currL s.base L eff t k
    .ok (-(l : Int))

/-- `fill_buffers_centr` (d_classes.py 1226-1250). For `m = 0` the chunk is a one-dimensional empty
array, which cannot be concatenated with the two-dimensional buffer (`ValueError`). -/
def fillCentr (n : Nat) (buf : Nat → Nat → List (List K)) (k : Nat) (raw : List (List K)) (m : Int) :
    Except PyErr (Nat → Nat → List (List K)) :=
  (List.range n).foldlM (fun buf q =>
    if q = k then .ok buf
    else if m = 0 then .error .valueError
    else .ok (Function.update buf q (Function.update (buf q) (centrSlot k q)
      (List.zipWith (· ++ ·) (buf q (centrSlot k q)) (raw.map (chunkOf · m)))))) buf

/-- `broadcast` (d_classes.py 1043-1128) with these options. -/
def CentrCfg.broadcast (c : CentrCfg K) (y : Nat → List (List K)) (s : CentrSt K) (t : ℚ) (k : Nat) :
    Except PyErr (CentrSt K) :=
  if c.centr then do
    let raw ← c.rawFrames y s t k
    let base ← c.g.broadcast y s.base t k
    let m ← c.nSamplesToBC s t k
    let buf ← fillCentr c.n s.buf k raw m
    .ok { s with base := base, buf := buf }
  else do
    let base ← c.g.broadcast y s.base t k
    .ok { s with base := base }

/-- The frames of node `q` and their flag at node `k` (body of the loop of
`process_incoming_signals_buffers_centr`, d_classes.py 1816-1887): the length of the buffer is the one
of its first channel, all channels have the same length. -/
def frameCentr (N Ns : Nat) (M : List Nat) (first : Bool) (yc : List (List K)) (k q : Nat)
    (buf : List (List K)) : List (List K) × Int :=
  (buf.zipIdx.map fun (ch, m) => (frameOf N Ns first (yc.getD ((centrCols M k q).1 + m) []) ch).1,
    (frameOf N Ns first [] (buf.headD [])).2)

/-- `process_incoming_signals_buffers_centr` (d_classes.py 1809-1890): the new `yc[k]` and the row of
`bufferFlagsCentr[k]`. -/
def processCentr (n N Ns : Nat) (M : Nat → Nat) (s : CentrSt K) (k : Nat) :
    Except PyErr (List (List K) × List Int) :=
  let r := (centrSlots n k).map fun q =>
    frameCentr N Ns ((List.range n).map M) (s.base.net.it k = 0) (s.yc k) k q
      (s.buf k (centrReadSlot k q))
  if r.all (fun x => x.1.all fun ch => ch.length = N) then
    .ok (r.flatMap (·.1), (List.range n).map fun q =>
      if q = k then 0 else (frameCentr N Ns ((List.range n).map M) (s.base.net.it k = 0) (s.yc k) k q
        (s.buf k (centrReadSlot k q))).2)
  else .error .valueError

/-- `np.sum(nSensorsNeighborsCentr[k][:j])` (d_classes.py 486-489, 1561-1566). -/
def nbSensorsBefore (n : Nat) (M : Nat → Nat) (k j : Nat) : Nat := (((centrSlots n k).map M).take j).sum

/-- `build_ycentr` (d_classes.py 1553-1575): own frames in their place among the received ones. -/
def buildCentr (n : Nat) (M : Nat → Nat) (k : Nat) (loc yc : List (List K)) : List (List K) :=
  ((List.range n).foldl (fun (acc : List (List K) × Nat) q =>
    if q = k then (acc.1 ++ loc, acc.2)
    else (acc.1 ++ (yc.drop (nbSensorsBefore n M k acc.2)).take
      (nbSensorsBefore n M k (acc.2 + 1) - nbSensorsBefore n M k acc.2), acc.2 + 1)) ([], 0)).1

/-- `build_yssbc` (d_classes.py 1599-1615): own frames, then one received column per other node. -/
def buildSsbc (n : Nat) (M : Nat → Nat) (k : Nat) (loc yc : List (List K)) :
    Except PyErr (List (List K)) := do
  let r ← (List.range n).foldlM (fun (acc : List (List K) × Nat) q =>
    if q = k then .ok acc
    else do
      let col ← pyGet yc (nbSensorsBefore n M k acc.2)
      .ok (acc.1 ++ [col], acc.2 + 1)) (loc, 0)
  .ok r.1

/-- An optional part of the computation: `e` if the option is on, else nothing (the value stays `d`). -/
def whenOn {α : Type} (b : Bool) (e : Except PyErr α) (d : α) : Except PyErr α := if b then e else .ok d

/-- `update_and_estimate` with given filters (d_classes.py 1252-1330) with these options: the buffers
of both kinds are processed and wiped, the observations are built, `compensate_sros` rejects
single-sensor broadcasts with SRO compensation (2042-2044), then all desired signals are estimated. -/
def CentrCfg.update (c : CentrCfg K) (y : Nat → List (List K)) (s : CentrSt K) (t : ℚ) (k : Nat) :
    Except PyErr (CentrSt K) := do
  let M := fun q => (y q).length
  let _ ← netStep c.g.nb c.g.N c.g.Ns s.base.net (.up k)
  let p ← whenOn c.centr (processCentr c.n c.g.N c.g.Ns M s k) (s.yc k, [])
  let loc ← (y k).mapM fun ch => chunkForUpdate ch t (c.g.fs k) c.g.bc.name c.g.N c.g.Ns
  if loc.any (fun x => x.1.length ≠ c.g.N) then .error .valueError
  else do
    let i := s.base.net.it k
    let yL := loc.map (·.1)
    let yC := if c.centr then buildCentr c.n M k yL p.1 else []
    let yS ← whenOn c.ssbc (buildSsbc c.n M k yL p.1) []
    if c.ssbc && c.compensateSROs then .error .notImplementedError
    else do
      let base ← c.g.update y s.base t k
      let r := c.g.updRange t k
      let dC ← whenOn c.centr
          (c.g.desired (c.wC k (i + 1))
            ((yC.map (analysis c.g.ζ c.g.N c.g.c c.g.h)).zipIdx.map fun (ch, m) =>
              ch.zipIdx.map fun (v, κ) => v * c.rotC k i m κ)
            (yC.take (M k)) (s.dC k) r.1 r.2) (s.dC k)
      let dS ← whenOn c.ssbc
          (c.g.desired (c.wS k (i + 1)) (yS.map (analysis c.g.ζ c.g.N c.g.c c.g.h))
            (yS.take (M k)) (s.dS k) r.1 r.2) (s.dS k)
      .ok { base := base
            buf := if c.centr then Function.update s.buf k (emptyCentr c.n M k) else s.buf
            yc := Function.update s.yc k p.1
            flags := if c.centr then Function.update s.flags k (s.flags k ++ [p.2]) else s.flags
            yCentr := Function.update s.yCentr k yC
            ySSBC := Function.update s.ySSBC k yS
            dC := Function.update s.dC k dC
            dS := Function.update s.dS k dS }

/-- One event of the main loop of `danse` (d_core.py 75-92). -/
def CentrCfg.step (c : CentrCfg K) (y : Nat → List (List K)) (s : CentrSt K) (ev : ℚ × Nat × EvType) :
    Except PyErr (CentrSt K) :=
  match ev.2.2 with
  | .bc => c.broadcast y s ev.1 ev.2.1
  | .up => c.update y s ev.1 ev.2.1
  | _ => .error .valueError

/-- The main loop over all the events of a schedule (d_core.py 66-92). -/
def CentrCfg.run (c : CentrCfg K) (y : Nat → List (List K)) (s : CentrSt K)
    (evs : List (ℚ × Nat × EvType)) : Except PyErr (CentrSt K) :=
  evs.foldlM (c.step y) s

end
end Danse
