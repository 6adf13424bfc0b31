import Verif.Model.Metrics
import Verif.Model.Params

/-!
# Sound files of a run (`export_sounds`, d_post.py 1192-1287)

A written file is its name (kind of signal and node number), the rate in its header and its samples. The
folders are not modelled (`mkdir` of `wav`, `wav/fused`, `wav/fused_ti`): `fused` files go to the sub-folders.
An exception stops the export; the files written so far stay.
-/

namespace Danse

/-- The name patterns of `export_sounds`: `noisy_N{k+1}_Sref{r+1}`, `desired_N{k+1}_Sref{r+1}`,
`enhanced_N{k+1}`, `fused/z_N{k+1}`, `fused_ti/etaMk_N{k+1}`, `enhancedCentr_N{k+1}`, `enhancedLocal_N{k+1}`,
`enhancedSSBC_N{k+1}` (d_post.py 1230-1285). -/
inductive WavKind where
  | noisy (sref : Nat) | desired (sref : Nat) | enhanced | fused | fusedTI | centr | loc | ssbc
  deriving DecidableEq, Repr

/-- A written file: name, `int(fs)`, 16-bit samples (`none`: the values of a NaN conversion). -/
structure WavFile where
  kind : WavKind
  node : Nat
  fs : Int
  data : Option (List Int)
  deriving DecidableEq, Repr

/-- What `export_sounds` reads of a node: sampling frequency, sensor signals (sensor by sensor) and the clean
speech of every sensor. -/
structure WavNode where
  fs : ℚ
  data : List (List ℚ)
  clean : List (List ℚ)

/-- What `export_sounds` reads of the `DANSEoutputs`: the estimates of a node are a column; `none` is the value
`None` of an array that was not computed (d_post.py 47-64), and for `fusedTI` a missing attribute
(d_post.py 93-94). -/
structure WavOut where
  refSensor : Nat
  wholeChunk : Bool
  batch : Bool
  computeCentralised : Bool
  computeLocal : Bool
  computeSSBC : Bool
  est : Nat → List ℚ
  estC : Option (Nat → List ℚ)
  estL : Option (Nat → List ℚ)
  estS : Option (Nat → List ℚ)
  fused : Nat → List ℚ
  fusedTI : Option (Nat → List ℚ)

/-- `_export_to_wav(name, data, fs)` (d_post.py 1219-1225): the names all end in `.wav`. A NaN conversion is not
an exception. `x` lists the samples of all channels: `np.amax` is over the whole array. -/
def exportWav (kind : WavKind) (node : Nat) (fs : ℚ) (x : List ℚ) : Except PyErr WavFile :=
  match normalizeToInt16 x with
  | .ok d => .ok ⟨kind, node, pyInt fs, some d⟩
  | .error .nan => .ok ⟨kind, node, pyInt fs, none⟩
  | .error e => .error e

/-- The files of node `k` that `export_sounds` is asked for, in order (d_post.py 1227-1285): kind and samples, or
the exception raised when the samples are looked up. -/
def wavPlan (o : WavOut) (fullyConnected : Bool) (nd : WavNode) (k : Nat) :
    List (WavKind × Except PyErr (List ℚ)) :=
  [(.noisy (o.refSensor + 1), .ok nd.data.flatten),
   (.desired (o.refSensor + 1), (nd.clean[o.refSensor]?).elim (.error .indexError) .ok)] ++
  (if (o.est k).length > 0 then
    [(.enhanced, .ok (o.est k))] ++
    (if o.wholeChunk && fullyConnected && !o.batch then [(.fused, .ok (o.fused k))]
     else if !o.wholeChunk then []
     else if !fullyConnected then [(.fusedTI, o.fusedTI.elim (.error .attributeError) fun f => .ok (f k))]
     else [])
   else []) ++
  optWav .centr o.computeCentralised (o.estC.map (· k)) ++
  optWav .loc o.computeLocal (o.estL.map (· k)) ++
  optWav .ssbc o.computeSSBC (o.estS.map (· k))
where
  /-- `if out.computeX: if len(out.TDdesiredSignals_est_x[:, k]) > 0: …` (d_post.py 1265-1285);
  subscripting `None` is a `TypeError`. -/
  optWav (kind : WavKind) (on : Bool) (x : Option (List ℚ)) : List (WavKind × Except PyErr (List ℚ)) :=
    if on then
      match x with
      | some x => if x.length > 0 then [(kind, .ok x)] else []
      | none => [(kind, .error .typeError)]
    else []

/-- Write the files one after the other until an exception: files written, exception. -/
def writeWavs (fs : ℚ) (node : Nat) : List (WavKind × Except PyErr (List ℚ)) → List WavFile × Option PyErr
  | [] => ([], none)
  | (kind, x) :: rest =>
    match x.bind (exportWav kind node fs) with
    | .error e => ([], some e)
    | .ok f => let r := writeWavs fs node rest; (f :: r.1, r.2)

/-- The loop over the nodes (d_post.py 1227-1286). -/
def exportNodes (o : WavOut) (fullyConnected : Bool) : List (WavNode × Nat) → List WavFile × Option PyErr
  | [] => ([], none)
  | (nd, k) :: rest =>
    match writeWavs nd.fs (k + 1) (wavPlan o fullyConnected nd k) with
    | (fs, some e) => (fs, some e)
    | (fs, none) => let r := exportNodes o fullyConnected rest; (fs ++ r.1, r.2)

/-- `export_sounds` (d_post.py 1192-1287): files written and the exception that ended it, if any. -/
def exportSounds (o : WavOut) (wasn : List WavNode) (fullyConnected : Bool) : List WavFile × Option PyErr :=
  exportNodes o fullyConnected wasn.zipIdx

end Danse
