import Mathlib.Data.Rat.Floor
import Mathlib.Algebra.Order.Field.Rat
import Verif.Model.Py
import Verif.Model.Divisors

/-!
# Model of the parameter consistency steps

Models `DANSEparameters.__post_init__` (`danse_toolbox/d_base.py` 332-380),
`WASNparameters.__post_init__` (`siggen/classes.py` 215-353, the parts that other fields depend
on) and `TestParameters.__post_init__` (`danse_toolbox/d_classes.py` 214-287).

Not modelled: the window sample values and `normFactWOLA`, printed messages, random number seeds,
random WASN generation, loading of noise files from a folder, room-dimension checks, the derived
`testid`. User prompts are modelled by a list of typed answers.
-/

namespace Danse

/-- Contiguous occurrence of a list in another. -/
def isInfixB (needle : List Char) : List Char → Bool
  | [] => needle.isEmpty
  | c :: cs => needle.isPrefixOf (c :: cs) || isInfixB needle cs

/-- Python `needle in hay` for strings. -/
def strIn (needle hay : String) : Bool := isInfixB needle.toList hay.toList

/-- Python `int(x)`: truncation towards zero. -/
def pyInt (x : ℚ) : Int := if 0 ≤ x then ⌊x⌋ else ⌈x⌉

/-- The fields of `DANSEparameters` that `__post_init__` reads or writes
(d_base.py 193-331). -/
structure DanseParams where
  DFTsize : Nat
  WOLAovlp : ℚ
  Ns : Int := 0
  winAnalysis : String := "sqrthann"
  winSynthesis : String := "sqrthann"
  broadcastType : String := "wholeChunk"
  broadcastLength : Option Int := none
  estimateSROs : String := "Oracle"
  noExternalFilterRelaxation : Bool := false
  timeBtwExternalFiltUpdates : ℚ := 0
  simType : String := "online"
  compensationStrategy : String := "node-specific"
  compensateSROs : Bool := false
  nodeUpdating : String := "seq"
  computeSingleSensorBroadcast : Bool := false
  saveConditionNumber : Bool := false
  /-- `startComputeMetricsAt`, parsed: `some d` when of the form `after_<d>s` / `after_<..>ms`. -/
  startMetricsAfter : Option ℚ := none
  deriving DecidableEq, Repr

/-- Accepted window types (d_base.py 340-356). -/
def winTypes : List String := ["sqrthann", "rect", "rect_normNs"]

/-- Broadcast length part of `DANSEparameters.__post_init__` (d_base.py 360-371). A zero length
makes `self.Ns % self.broadcastLength` raise `ZeroDivisionError`; `broadcastType` values other
than the two known ones fall through all branches. -/
def checkBroadcast (ty : String) (len : Option Int) (Ns : Int) : Except PyErr (Option Int) :=
  if ty = "wholeChunk" then .ok (some Ns)
  else if ty = "fewSamples" then
    match len with
    | none => .ok (some 1)
    | some b =>
      if b > Ns then .error .valueError
      else if b = 0 then .error .zeroDivisionError
      else if Int.fmod Ns b ≠ 0 then .error .valueError
      else .ok (some b)
  else .ok len

/-- `DANSEparameters.__post_init__` (d_base.py 332-380). -/
def DanseParams.postInit (p : DanseParams) : Except PyErr DanseParams := do
  let Ns := pyInt ((p.DFTsize : ℚ) * (1 - p.WOLAovlp))
  if p.winAnalysis ∉ winTypes then .error .valueError
  else if p.winSynthesis ∉ winTypes then .error .valueError
  else
    let bl ← checkBroadcast p.broadcastType p.broadcastLength Ns
    if p.estimateSROs ∉ ["Oracle", "CohDrift", "DXCPPhaT"] then .error .valueError
    else if p.simType ∉ ["batch", "online"] then .error .valueError
    else if p.compensationStrategy.toLower ∉ ["network-wide", "node-specific"] then
      .error .valueError
    else .ok { p with
      Ns := Ns, broadcastLength := bl,
      timeBtwExternalFiltUpdates :=
        if p.noExternalFilterRelaxation then 0 else p.timeBtwExternalFiltUpdates,
      compensationStrategy := p.compensationStrategy.toLower }

/-- The fields of `WASNparameters` used here (siggen/classes.py 62-213). -/
structure WasnParams where
  nSensorPerNode : List Nat
  nNodes : Nat := 0
  SROperNode : List Int := [0]
  addedNoise : List Int := []
  topologyType : String := "fully-connected"
  trueRoom : Bool := true
  diffuseNoise : Bool := false
  signalType : String := "from_file"
  sigDur : ℚ := 5
  sensorToNodeIndices : List Nat := []
  deriving DecidableEq, Repr

/-- `_dim_check` (siggen/classes.py 241-260). -/
def dimCheck (var : List Int) (nNodes : Nat) : Except PyErr (List Int) :=
  if var.length ≠ nNodes then
    match var with
    | [] => .ok (List.replicate nNodes 0)
    | v :: r => if (v :: r).all (fun x => x = v) then .ok (List.replicate nNodes v)
                else .error .valueError
  else .ok var

/-- `sensorToNodeIndices` (siggen/classes.py 326-330):
`chain(*[[ii] * nSensorPerNode[ii] for ii in range(len(nSensorPerNode))])`. -/
def sensorToNode (counts : List Nat) : List Nat :=
  counts.zipIdx.flatMap fun (c, ii) => List.replicate c ii

/-- `WASNparameters.__post_init__` (siggen/classes.py 215-353), without the random WASN. -/
def WasnParams.postInit (w : WasnParams) : Except PyErr WasnParams := do
  let n := w.nSensorPerNode.length
  let an ← dimCheck w.addedNoise n
  let sro ← dimCheck w.SROperNode n
  .ok { w with
    nNodes := n, addedNoise := an, SROperNode := sro,
    sensorToNodeIndices := sensorToNode w.nSensorPerNode,
    diffuseNoise := if w.trueRoom then w.diffuseNoise else false }

/-- The export flags touched by `TestParameters.__post_init__` (d_classes.py 134-152). -/
structure ExportFlags where
  conditionNumberPlot : Bool := true
  filters : Bool := false
  filterNormsPlot : Bool := true
  acousticScenarioPlot : Bool := true
  waveformsAndSpectrograms : Bool := true
  metricsPlot : Bool := true
  wavFiles : Bool := true
  deriving DecidableEq, Repr

/-- `TestParameters` (d_classes.py 199-213). -/
structure TestParams where
  wasn : WasnParams
  danse : DanseParams
  exp : ExportFlags := {}
  deriving DecidableEq, Repr

/-- `input(...)` repeated until the answer is `y` or `n` (d_classes.py 235-237, 246-248). Returns
the answer and the unread answers; no more input is `EOFError`. -/
def askYN : List String → Except PyErr (Bool × List String)
  | [] => .error .eofError
  | a :: r => if a = "y" then .ok (true, r) else if a = "n" then .ok (false, r) else askYN r

/-- `TestParameters.__post_init__` (d_classes.py 214-287), given the user's answers; returns the
new parameters and the unread answers. The branch for `simType == 'batch_wola_estimation'`
(232-241) is unreachable, because `DANSEparameters.__post_init__` has already rejected that
value. -/
def TestParams.postInit (t : TestParams) (answers : List String) :
    Except PyErr (TestParams × List String) := do
  let w ← t.wasn.postInit
  let d ← t.danse.postInit
  if d.nodeUpdating = "sim" ∧ w.SROperNode.any (fun s => s ≠ 0) then .error .valueError
  else
    let fc := decide (w.topologyType = "fully-connected")
    let d := { d with saveConditionNumber := t.exp.conditionNumberPlot }
    let (d, answers) ←
      (if fc = true ∧ d.compensateSROs = true ∧ d.compensationStrategy = "network-wide" then
        match askYN answers with
        | .error e => .error e
        | .ok (true, r) => .ok ({ d with compensationStrategy := "node-specific" }, r)
        | .ok (false, _) => .error .valueError
      else .ok (d, answers) : Except PyErr (DanseParams × List String))
    let e := t.exp
    let e := if d.simType = "batch" then { e with filters := false, filterNormsPlot := false }
      else if strIn "online" d.simType then { e with filterNormsPlot := true } else e
    let e := if w.trueRoom then e else { e with acousticScenarioPlot := false }
    let e := if w.signalType = "from_file" then e else
      { e with waveformsAndSpectrograms := false, metricsPlot := false, wavFiles := false }
    let d := if fc then d else
      { d with
        nodeUpdating := if strIn "topo-indep" d.nodeUpdating then d.nodeUpdating
          else "topo-indep_" ++ d.nodeUpdating
        computeSingleSensorBroadcast := false }
    match d.startMetricsAfter with
    | some dur => if dur > w.sigDur then .error .valueError else .ok (⟨w, d, e⟩, answers)
    | none => .ok (⟨w, d, e⟩, answers)

end Danse
