import Verif.Model.Danse
import Verif.Model.CentrRun

/-!
# Model of a whole online DANSE run with centralised and single-sensor-broadcast estimates

The main loop of `danse` (`danse_toolbox/d_core.py` 66-92) with `computeCentralised` and
`computeSingleSensorBroadcast`, in which these estimates compute their filters themselves: the frames, buffers
and synthesis are those of `CentrRun`, the DANSE and local filters those of `Danse`; what is added here are the
covariance matrices, the start of updating and the filters of the two other estimates
(`spatial_covariance_matrix_update`, d_classes.py 2163-2201, `check_covariance_matrices`, 1511-1536,
`perform_update`, 2317-2362, and the copies of bypassed updates, 1303-1307).

The buffer flags are never NaN (`Buffers`), so that `skipUpdateCentr` is false. Not modelled: saving of condition
numbers (`CondNum`), SRO estimation. As in `Danse`, `covMatInitType == 'batch_estimates'` is excluded.
-/

namespace Danse
section
variable {F n K : Type} [Fintype n] [Field K] [StarRing K]
variable {W T : Type} [LE T] [DecidableLE T]

/-- `nodeStep` with a separate VAD decision for the matrices (`vadUse`), while the counters follow the node's
own (`vadNode`): the centralised estimate (d_classes.py 2097-2100, 2163-2190, 1511-1523, 2317-2335, 1303-1305). -/
def nodeStep2 (c : NodeCfg F n K W T) (s : NodeSt F n K W) (y : Frame F n K) (vadNode vadUse : Bool) (t : T)
    (bypass : Bool) : NodeSt F n K W :=
  let scm := scmUpdate c.use1st c.beta s.scm y vadNode vadUse
  let started := checkCov c scm s.started t
  if bypass then
    { scm := scm, started := started, i := s.i + 1, nUps := s.nUps
      w := fun j => if j = s.i + 1 then s.w s.i else s.w j }
  else if c.bypassAll = false ∧ started = true then
    { scm := scm, started := started, i := s.i + 1, nUps := s.nUps + 1
      w := fun j => if j = s.i + 1 then c.upd scm.ryy scm.rnn else s.w j }
  else { scm := scm, started := started, i := s.i + 1, nUps := s.nUps, w := s.w }

end

section
variable {K : Type} [Field K] [StarRing K] [DecidableEq K]

/-- What the run reads: parameters and network of `Danse`, the options, `centrVADframes`, the initial filters
`wCentr[k]`, `wSSBC[k]` (`init_complex_filter`, d_classes.py 671-676, 712-721) and the phase factors of the centralised
observations from the times and centralised flags of the updates so far. -/
structure CDanseCfg (K : Type) where
  D : DanseCfg K
  n : Nat
  centr : Bool
  ssbc : Bool
  compensateSROs : Bool
  cvad : Nat → Bool
  wC0 : Nat → Nat → List (List K)
  wS0 : Nat → Nat → List (List K)
  rotC : Nat → List (ℚ × List Int) → Nat → Nat → K

/-- `nSensorsTotal`. -/
abbrev CDanseCfg.total (C : CDanseCfg K) : Nat := ((List.range C.n).map C.D.M).sum

/-- `np.sum(nSensorPerNode[:k]) + referenceSensor` (d_classes.py 2326-2328). -/
abbrev CDanseCfg.refIdx (C : CDanseCfg K) (k : Nat) : Nat := ((List.range k).map C.D.M).sum + C.D.g.refSensor

/-- `NodeCfg` of the centralised matrices (d_classes.py 2163-2178, 1511-1523, 2317-2331). -/
def CDanseCfg.kindC (C : CDanseCfg K) (k : Nat) :
    NodeCfg (Fin C.D.nb) (Fin C.total) K (Except PyErr (Frame (Fin C.D.nb) (Fin C.total) K)) ℚ :=
  { C.D.kind k C.total with
    upd := fun Ryy Rnn => seqBins fun κ => C.D.rule C.total (Ryy κ) (Rnn κ) (C.refIdx k) }

/-- What a node keeps for these estimates between its updates. -/
structure CNode (B mC mS : Nat) (K : Type) where
  centr : NodeSt (Fin B) (Fin mC) K (Except PyErr (Frame (Fin B) (Fin mC) K))
  ssbc : NodeSt (Fin B) (Fin mS) K (Except PyErr (Frame (Fin B) (Fin mS) K))
  times : List (ℚ × List Int)

/-- Before the first update (d_classes.py 605-643, 671-676, 712-721): the centralised matrices start from the whole
of `fullSlice`, the single-sensor ones from the same part as those of DANSE. -/
def CDanseCfg.cnode0 (C : CDanseCfg K) (k : Nat) : CNode C.D.nb C.total (C.D.dim k) K where
  centr := C.D.kind0 k C.total (C.wC0 k)
  ssbc := C.D.kind0 k (C.D.dim k) (C.wS0 k)
  times := []

/-- What a node observes for these estimates at one update: time, flags, frames. -/
structure CObs (K : Type) where
  t : ℚ
  flags : List Int
  yC : List (List K)
  yS : List (List K)

/-- The observations of `CentrCfg.update` (d_classes.py 1276-1286, 1542-1625). -/
def CentrCfg.observe (c : CentrCfg K) (y : Nat → List (List K)) (s : CentrSt K) (t : ℚ) (k : Nat) :
    Except PyErr (CObs K) := do
  let M := fun q => (y q).length
  let p ← whenOn c.centr (processCentr c.n c.g.N c.g.Ns M s k) (s.yc k, [])
  let loc ← (y k).mapM fun ch => chunkForUpdate ch t (c.g.fs k) c.g.bc.name c.g.N c.g.Ns
  let yS ← whenOn c.ssbc (buildSsbc c.n M k (loc.map (·.1)) p.1) []
  .ok ⟨t, p.2, if c.centr then buildCentr c.n M k (loc.map (·.1)) p.1 else [], yS⟩

/-- The computations of one update of node `k` for these estimates: covariance matrices, start of updating, filters
(d_classes.py 2163-2201, 1511-1536, 2317-2362, 1303-1307). The array `ySSBC[k]` has `dimYTilde[k]` channels (744-746):
another number of channels raises `ValueError` (1615). Returns the new state and the rows; an estimate that is
switched off keeps its initial row. -/
def CDanseCfg.nodeUpdate (C : CDanseCfg K) (k : Nat) (s : CNode C.D.nb C.total (C.D.dim k) K) (o : CObs K) :
    Except PyErr (CNode C.D.nb C.total (C.D.dim k) K × List (List K) × List (List K)) := do
  let times := s.times ++ [(o.t, o.flags)]
  let i := s.times.length
  let ph := C.rotC k times
  let yC : Frame (Fin C.D.nb) (Fin C.total) K := fun κ c => C.D.spectra C.total o.yC κ c * ph c κ
  let yS := C.D.spectra (C.D.dim k) o.yS
  let centr := if C.centr then
      nodeStep2 (C.kindC k) s.centr yC (C.D.vad k i) (C.cvad i) o.t (C.D.bypass k i) else s.centr
  let ssbc := if C.ssbc then
      nodeStep (C.D.kind k (C.D.dim k)) s.ssbc yS (C.D.vad k i) o.t (C.D.bypass k i) else s.ssbc
  if C.ssbc && o.yS.length != C.D.dim k then .error .valueError
  else do
    let wC ← centr.w (i + 1)
    let wS ← ssbc.w (i + 1)
    return (⟨centr, ssbc, times⟩, frameRow wC, frameRow wS)

/-- State of the run: the filters so far, buffers and outputs, observations of each node, and what the nodes keep. -/
structure CDanseSt (C : CDanseCfg K) where
  cfg : CentrCfg K
  st : CentrSt K
  hist : Nat → List (Obs K)
  chist : Nat → List (CObs K)
  node : (k : Nat) → DNode C.D.nb (C.D.dim k) (C.D.M k) K
  cnode : (k : Nat) → CNode C.D.nb C.total (C.D.dim k) K

/-- The rows written by an update and the phase factors of the centralised observation. -/
def CentrCfg.record (c : CentrCfg K) (g : GivenCfg K) (k i : Nat) (wC wS : List (List K)) (rot : Nat → Nat → K) :
    CentrCfg K :=
  { c with
    g := g
    wC := Function.update c.wC k (Function.update (c.wC k) (i + 1) wC)
    wS := Function.update c.wS k (Function.update (c.wS k) (i + 1) wS)
    rotC := Function.update c.rotC k (Function.update (c.rotC k) i rot) }

/-- One event of the main loop (d_core.py 75-92). -/
def cdanseStep (C : CDanseCfg K) (y : Nat → List (List K)) (a : CDanseSt C) (ev : ℚ × Nat × EvType) :
    Except PyErr (CDanseSt C) :=
  match ev.2.2 with
  | .up => do
    let o ← a.cfg.g.observe y a.st.base ev.1 ev.2.1
    let oc ← a.cfg.observe y a.st ev.1 ev.2.1
    let r ← C.D.nodeUpdate ev.2.1 (a.node ev.2.1) o
    let rc ← C.nodeUpdate ev.2.1 (a.cnode ev.2.1) oc
    let i := a.st.base.net.it ev.2.1
    let g := (a.cfg.g.record ev.2.1 (i + 1) r.2).setRot ev.2.1 i (C.D.rot ev.2.1 r.1.times)
    let cfg := a.cfg.record g ev.2.1 i rc.2.1 rc.2.2 (C.rotC ev.2.1 rc.1.times)
    let s ← cfg.step y a.st ev
    .ok ⟨cfg, s, Function.update a.hist ev.2.1 (a.hist ev.2.1 ++ [o]),
      Function.update a.chist ev.2.1 (a.chist ev.2.1 ++ [oc]),
      Function.update a.node ev.2.1 r.1, Function.update a.cnode ev.2.1 rc.1⟩
  | _ => do
    let s ← a.cfg.step y a.st ev
    .ok { a with st := s }

/-- The parameters as a `CentrCfg`, with the initial filters. -/
def CDanseCfg.base (C : CDanseCfg K) : CentrCfg K where
  g := C.D.g
  n := C.n
  centr := C.centr
  ssbc := C.ssbc
  compensateSROs := C.compensateSROs
  wC := C.wC0
  wS := C.wS0
  rotC := fun _ _ _ _ => 1

/-- Before the first event; `T` samples per signal. -/
def CDanseSt.init (C : CDanseCfg K) (T : Nat) : CDanseSt C :=
  ⟨C.base, .init C.n C.D.g.N C.D.g.refSensor T C.D.M, fun _ => [], fun _ => [], C.D.node0, C.cnode0⟩

/-- The main loop over a schedule (d_core.py 66-92). -/
def cdanseRun (C : CDanseCfg K) (y : Nat → List (List K)) (T : Nat) (evs : List (ℚ × Nat × EvType)) :
    Except PyErr (CDanseSt C) :=
  evs.foldlM (cdanseStep C y) (.init C T)

end
end Danse
