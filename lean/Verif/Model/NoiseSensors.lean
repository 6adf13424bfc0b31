import Verif.Model.Topo

/-!
# Sensors made useless

End of `build_wasn` (siggen/utils.py 1360-1409): sensors replaced by random noise, and random-noise sensors
added. A signal is an element of `σ`; the arrays of a node are lists of signals, one per sensor.
-/

namespace Danse

/-- The fields of a node (siggen/classes.py 379-428) that are changed here. -/
structure NodeSigs (σ : Type) where
  nSensors : Nat
  data : List σ
  speech : List σ
  noise : List σ
  speechRef : σ
  noiseRef : σ

variable {σ : Type}

/-- Replacement of one sensor (siggen/utils.py 1366-1389) with the three signals drawn; `ref` is
`refSensorIdx`. Assignments to a column that does not exist raise `IndexError`. -/
def replaceSensor (s2n : List Nat) (ref : Nat) (nodes : List (NodeSigs σ)) (m : Int) (x : σ × σ × σ) :
    Except PyErr (List (NodeSigs σ)) := do
  let k ← pyGet s2n m
  let j ← ((npWhereEq s2n k).findIdx? (fun (i : Nat) => (i : Int) == m)).elim (.error .valueError) .ok
  let nd ← pyGet nodes k
  if j < nd.data.length then
    let speech := nd.speech.set j x.2.1
    let noise := nd.noise.set j x.2.2
    let sr ← pyGet speech ref
    let nr ← pyGet noise ref
    return nodes.set k { nd with
      data := nd.data.set j x.1, speech := speech, noise := noise, speechRef := sr, noiseRef := nr }
  else throw .indexError

/-- The loop over `setThoseSensorsToNoise` (siggen/utils.py 1363-1389); `draw p` are the signals drawn for the
`p`-th entry. `any(...)` is false for a list of zeros. -/
def replaceSensors (s2n : List Nat) (ref : Nat) (ms : List Int) (draw : Nat → σ × σ × σ)
    (nodes : List (NodeSigs σ)) : Except PyErr (List (NodeSigs σ)) :=
  if ms.any (· != 0) then
    ms.zipIdx.foldlM (fun nodes m => replaceSensor s2n ref nodes m.1 (draw m.2)) nodes
  else .ok nodes

/-- Added sensors of one node (siggen/utils.py 1393-1409): `n` signals drawn. -/
def addSensors (nodes : List (NodeSigs σ)) (ii : Nat) (sig : List σ) : Except PyErr (List (NodeSigs σ)) := do
  let nd ← pyGet nodes ii
  return nodes.set ii { nd with
    nSensors := nd.nSensors + sig.length, data := nd.data ++ sig, speech := nd.speech ++ sig,
    noise := nd.noise ++ sig }

/-- The loop over `addedNoiseSignalsPerNode` (siggen/utils.py 1392-1409); `draw ii` are the signals drawn for
node `ii`, as many as asked; a negative number raises `ValueError`. -/
def addAll (added : List Int) (draw : Nat → Nat → σ) (nodes : List (NodeSigs σ)) :
    Except PyErr (List (NodeSigs σ)) :=
  added.zipIdx.foldlM (fun nodes a =>
    if a.1 < 0 then .error .valueError
    else addSensors nodes a.2 ((List.range a.1.toNat).map (draw a.2))) nodes

end Danse
