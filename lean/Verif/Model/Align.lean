import Verif.Model.Params

/-!
# Random noise files and predefined layouts

`_select_random_files_from_folder` and the parts of `WASNparameters.__post_init__` that choose noise files, and
`align_with_loaded_yaml_layout` (siggen/classes.py 215-376). Files are elements of a type `F`; `alt f` is the
path `f` with its last four characters replaced by `_{fs}Hz.wav`. The random WASN (222-236) is not modelled.
-/

namespace Danse

variable {F : Type} [DecidableEq F]

/-- `for file in files: if alt(file) in files: files.remove(file)` (siggen/classes.py 276-280). Python iterates
by index over the list that is changed. -/
def pruneLoop (alt : F → F) (i : Nat) (files : List F) : List F :=
  if h : i < files.length then
    if alt files[i] ∈ files then pruneLoop alt (i + 1) (files.erase files[i])
    else pruneLoop alt (i + 1) files
  else files
termination_by files.length - i
decreasing_by
  · have : (files.erase files[i]).length ≤ files.length := List.length_erase_le
    omega
  · omega

/-- A folder: its files in the order of `glob`, and the draw of `np.random.choice(np.arange(len), size,
replace=False)`. -/
structure Folder (F : Type) where
  files : List F
  choice : Nat → Nat → List Nat

/-- What `np.random.choice` without replacement guarantees: as many different indices as asked. -/
def Folder.Fair (d : Folder F) : Prop :=
  ∀ len size, size ≤ len →
    (d.choice len size).length = size ∧ (d.choice len size).Nodup ∧ ∀ i ∈ d.choice len size, i < len

/-- `_select_random_files_from_folder` (siggen/classes.py 262-289), with `fs` given; `babble f` tells whether
`f` is the file of diffuse babble noise (never if that name is empty). Asking for more files than there are
raises `ValueError`. -/
def selectFiles (alt : F → F) (babble : F → Bool) (d : Folder F) (nFiles : Nat) : Except PyErr (List F) :=
  let files := pruneLoop alt 0 (d.files.filter fun f => !babble f)
  if nFiles ≤ files.length then (d.choice files.length nFiles).mapM fun (i : Nat) => pyGet files i
  else .error .valueError

/-- `noiseSignalFile` (siggen/classes.py 126-130): names of files, or 'loadfrom <folder>'. -/
inductive NoiseFiles (F : Type)
  | files (l : List F)
  | loadFrom (d : Folder F)

/-- Parameters of the acoustic scenario (siggen/classes.py 65-213) used here. `folder` is
`noiseSignalFilesLoadedFromFolder`. -/
structure SceneParams (F : Type) where
  wasn : WasnParams
  rd : List ℚ
  minDistToWalls : ℚ
  nDesired : Nat
  nNoise : Nat
  desiredFiles : List F
  noiseFiles : NoiseFiles F
  folder : Option (Folder F) := none

/-- Choice of the noise files (siggen/classes.py 291-312). -/
def SceneParams.pickNoise (alt : F → F) (babble : F → Bool) (p : SceneParams F) :
    Except PyErr (SceneParams F) :=
  match p.noiseFiles with
  | .loadFrom d =>
    (selectFiles alt babble d p.nNoise).map fun l => { p with noiseFiles := .files l, folder := some d }
  | .files _ =>
    match p.folder with
    | some d => (selectFiles alt babble d p.nNoise).map fun l => { p with noiseFiles := .files l }
    | none => .ok p

/-- `np.amin`. -/
def npMin : List ℚ → Except PyErr ℚ
  | [] => .error .valueError
  | x :: l => .ok (l.foldl min x)

/-- `minDistToWalls >= np.amin(rd) / 3` raises `ValueError` (siggen/classes.py 238-239). -/
def SceneParams.checkWalls (p : SceneParams F) : Except PyErr Unit := do
  let m ← npMin p.rd
  if p.minDistToWalls ≥ m / 3 then throw PyErr.valueError else pure ()

/-- `WASNparameters.__post_init__` (siggen/classes.py 215-353). -/
def SceneParams.postInit (alt : F → F) (babble : F → Bool) (p : SceneParams F) :
    Except PyErr (SceneParams F) := do
  p.checkWalls
  let p ← p.pickNoise alt babble
  let w ← p.wasn.postInit
  return { p with wasn := w }

/-- A layout file: dimensions of the room, sensors per node, numbers of targets and interferers. -/
structure LayoutFile where
  rd : List ℚ
  Mk : List Nat
  nTargets : Nat
  nInterferers : Nat

/-- `len(self.noiseSignalFile)`; the length of a name is not needed, as `__post_init__` has replaced it. -/
def NoiseFiles.count : NoiseFiles F → Nat
  | .files l => l.length
  | .loadFrom _ => 0

/-- The checks at the end of `align_with_loaded_yaml_layout` (siggen/classes.py 372-376). -/
def SceneParams.checkFiles (p : SceneParams F) : Except PyErr (SceneParams F) :=
  if p.nDesired > p.desiredFiles.length then .error .valueError
  else if p.nNoise > p.noiseFiles.count then .error .valueError
  else .ok p

/-- `align_with_loaded_yaml_layout` (siggen/classes.py 355-376). -/
def SceneParams.align (alt : F → F) (babble : F → Bool) (p : SceneParams F) (l : LayoutFile) :
    Except PyErr (SceneParams F) := do
  let q ← ({ p with
    rd := l.rd, wasn := { p.wasn with nSensorPerNode := l.Mk, nNodes := l.Mk.length },
    nDesired := l.nTargets, nNoise := l.nInterferers } : SceneParams F).postInit alt babble
  q.checkFiles

end Danse
