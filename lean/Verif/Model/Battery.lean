import Mathlib.Logic.Function.Basic
import Mathlib.Data.List.Basic

/-!
# Test batteries that are interrupted and started again

`main` and `launch` of `tests/battery20230919_perf_asfctofL.py` (30-114),
`tests/battery20231009_filtnorms_asfctofSROs.py` and `tests/battery20231013_perf_asfctofSelfNoise.py`, with
`check_export_folder` (danse_toolbox/d_classes.py 165-196), `wipe_folder` (d_utils.py 3-21), `postprocess`
(tests/sandbox.py 162-200) and `export_danse_outputs` (d_post.py 2451-2580) as far as files are concerned. A file
that has been opened for writing exists; it is complete only when it has been written. A crash can happen
between any two actions on the files. `bypassAllExports` is false; deleting a file does not fail.
-/

namespace Danse

/-- A folder: file names and contents; `none`: not completely written, `some t`: what test `t` gave. -/
abbrev Dir (T : Type) := List (String × Option T)

/-- Actions on the files of a folder. -/
inductive FsAct
  | mkdir
  | remove (f : String)
  | create (f : String)
  | finish (f : String)

/-- Write the entry `f`. -/
def Dir.put {T : Type} (d : Dir T) (f : String) (c : Option T) : Dir T :=
  (f, c) :: d.filter (fun e => e.1 ≠ f)

/-- Effect of an action of test `t`; `none` is a folder that is not there. -/
def FsAct.apply {T : Type} (t : T) (d : Option (Dir T)) : FsAct → Option (Dir T)
  | .mkdir => some []
  | .remove f => d.map fun d => d.filter (fun e => e.1 ≠ f)
  | .create f => d.map fun d => d.put f none
  | .finish f => d.map fun d => d.put f (some t)

/-- Settings. `skip`: `SKIP_ALREADY_RUN_TESTS`; `overwrite`: `writeOverPrevious`; `metricsPlot`, `metricsFile` as
in `ExportParameters`; `before`, `after`: the files that are written before and after `metrics.pkl`. -/
structure BatteryCfg where
  skip : Bool
  overwrite : Bool
  metricsPlot : Bool
  metricsFile : Bool
  before : List String
  after : List String

/-- `open(..., 'wb')` and the end of the `with` block. -/
def writeFile (f : String) : List FsAct := [.create f, .finish f]

/-- The exports (sandbox.py 188-194; d_post.py 2477-2578), and whether they end with an exception: without
`metricsPlot` there is no attribute `metrics` to be saved (d_post.py 2550-2560), but the file is opened first
(d_post.py 201-205). -/
def BatteryCfg.exports (c : BatteryCfg) : List FsAct × Bool :=
  let b := c.before.flatMap writeFile
  let a := c.after.flatMap writeFile
  if c.metricsFile then
    if c.metricsPlot then (b ++ writeFile "metrics.pkl" ++ a, false)
    else (b ++ [.create "metrics.pkl"], true)
  else (b ++ a, false)

/-- A launch (`sandbox.main`, sandbox.py 50-100), given the folder and the answer to the question whether to
overwrite (d_classes.py 173-194). -/
def BatteryCfg.launch {T : Type} (c : BatteryCfg) (d : Option (Dir T)) (yes : Bool) : List FsAct × Bool :=
  match d with
  | none => (.mkdir :: c.exports.1, c.exports.2)
  | some es =>
    if c.overwrite || es.isEmpty then c.exports
    else if yes then (es.map (fun e => .remove e.1) ++ c.exports.1, c.exports.2)
    else ([], false)

/-- `os.path.exists`. -/
def Dir.has {T : Type} (d : Option (Dir T)) (f : String) : Bool := (d.getD []).any (fun e => e.1 == f)

section
variable {T ρ : Type} [DecidableEq ρ] (c : BatteryCfg) (ref : T → ρ) (yes : T → Bool)

/-- One run of `main` over the tests (battery20230919 41-60), which crashes after `p` actions on the files
if it gets that far. Returns the folders, the tests launched, and whether the run came to its end. -/
def batteryRun : List T → Nat → (ρ → Option (Dir T)) → (ρ → Option (Dir T)) × List T × Bool
  | [], _, fs => (fs, [], true)
  | t :: r, p, fs =>
    if c.skip && Dir.has (fs (ref t)) "metrics.pkl" then batteryRun r p fs
    else
      let l := c.launch (fs (ref t)) (yes t)
      let fs' := Function.update fs (ref t) ((l.1.take p).foldl (FsAct.apply t) (fs (ref t)))
      if p < l.1.length ∨ l.2 = true then (fs', [t], false)
      else
        let q := batteryRun r (p - l.1.length) fs'
        (q.1, t :: q.2.1, q.2.2)

end

/-- Several runs, one after the other: where each crashes, and the answers in it. Returns the folders and the
tests launched. -/
def batteryRuns {T ρ : Type} [DecidableEq ρ] (c : BatteryCfg) (ref : T → ρ) (tests : List T) :
    List (Nat × (T → Bool)) → (ρ → Option (Dir T)) → (ρ → Option (Dir T)) × List T
  | [], fs => (fs, [])
  | r :: h, fs =>
    let a := batteryRun c ref r.2 tests r.1 fs
    let b := batteryRuns c ref tests h a.1
    (b.1, a.2.1 ++ b.2)

end Danse
