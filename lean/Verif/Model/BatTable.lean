import Verif.Model.Py
import Mathlib.Data.List.Sort
import Mathlib.Data.List.Infix

/-!
# Tables of the scores of a test battery

`prepare_test_battery` of `tests/battery20230915_sros_asfctofL.py` (48-77) and `load_data`, `get_data` of
`tests/battery20230915_pp.py` (113-194): the results of every test are looked up by the name of its folder. One metric and one
entry of `TO_PLOT`; strings are lists of characters; SROs are integers (`dtype=int`).
-/

namespace Danse

/-- `f'{n}'` of a natural number. -/
def decimal (n : Nat) : List Char :=
  if n < 10 then [Char.ofNat (48 + n)] else decimal (n / 10) ++ [Char.ofNat (48 + n % 10)]
decreasing_by omega

/-- `f'{z}'` of an integer. -/
def intStr (z : Int) : List Char := if z < 0 then '-' :: decimal z.natAbs else decimal z.natAbs

/-- The value of a string of digits. -/
def natOf (s : List Char) : Option Nat :=
  if s = [] then none
  else s.foldl (fun acc c => acc.bind fun a => if c.isDigit then some (10 * a + (c.toNat - 48)) else none) (some 0)

/-- `int(s)`. Strings with blanks or a plus sign are not modelled (they count as `ValueError`). -/
def intOf (s : List Char) : Except PyErr Int :=
  if s.head? = some '-' then (natOf (s.drop 1)).elim (.error .valueError) fun n => .ok (-(n : Int))
  else (natOf s).elim (.error .valueError) fun n => .ok (n : Int)

/-- A test of the battery (battery20230915_sros_asfctofL.py 56-75); `few`: `mode` is 'fewSamples', otherwise 'wholeChunk'. -/
structure BatTest where
  L : Option Nat
  sro : Int
  few : Bool
  ref : List Char
  deriving DecidableEq

/-- `prepare_test_battery` (battery20230915_sros_asfctofL.py 48-77). -/
def prepareBattery (sros : List Int) (Ls : List Nat) : List BatTest :=
  sros.flatMap fun sro =>
    (if sro > 0 then
      Ls.map fun l => ⟨some l, sro, true, 'L' :: (decimal l ++ ('_' :: 'S' :: 'R' :: 'O' :: intStr sro))⟩
    else [⟨some 1, sro, true, 'L' :: '1' :: '_' :: 'S' :: 'R' :: 'O' :: intStr sro⟩]) ++
    [⟨none, sro, false, ['w', 'h', 'o', 'l', 'e', 'C', 'h', 'u', 'n', 'k'] ++ ('_' :: 'S' :: 'R' :: 'O' :: intStr sro)⟩]

/-- A folder with the results of a test. `pkl`: the scores of the nodes in `metrics.pkl`, if there is such a file (or the exception that
reading it raises); `outputs`: what `DANSEoutputs().load(subfolder).metrics` gives. -/
structure ResFolder (α : Type) where
  name : List Char
  pkl : Option (Except PyErr (List α))
  outputs : Except PyErr (List α)

/-- An entry of `out` (battery20230915_pp.py 157-190). -/
structure ResData (α : Type) where
  L : Int
  sro : Int
  metrics : List α

/-- `L` from the name of the folder (battery20230915_pp.py 167-170). -/
def parseL (Ns : Int) (name : List Char) : Except PyErr Int :=
  if ['w', 'h', 'o', 'l', 'e', 'C', 'h', 'u', 'n', 'k'] <:+: name then .ok Ns
  else intOf ((name.takeWhile (· != '_')).drop 1)

/-- `SRO` from the name of the folder (battery20230915_pp.py 171). -/
def parseSro (name : List Char) : Except PyErr Int :=
  if '_' ∈ name then intOf ((((name.dropWhile (· != '_')).drop 1).takeWhile (· != '_')).drop 3)
  else .error .indexError

/-- Both (battery20230915_pp.py 167-171). -/
def parseName (Ns : Int) (name : List Char) : Except PyErr (Int × Int) := do
  let l ← parseL Ns name
  let s ← parseSro name
  return (l, s)

/-- One folder (battery20230915_pp.py 165-190): its data, and the folder afterwards. -/
def loadFolder {α : Type} (Ns : Int) (f : ResFolder α) : Except PyErr (ResData α) × ResFolder α :=
  match parseName Ns f.name with
  | .error e => (.error e, f)
  | .ok (l, s) =>
    match f.pkl with
    | some (.ok m) => (.ok ⟨l, s, m⟩, f)
    | some (.error e) => (.error e, f)
    | none =>
      match f.outputs with
      | .ok m => (.ok ⟨l, s, m⟩, { f with pkl := some (.ok m) })
      | .error e => (.error e, f)

/-- The loop over the folders from position `ii` (battery20230915_pp.py 161-190): the folders afterwards, the data and
`params['nNodes']` if it was set. -/
def loadLoop {α : Type} (Ns : Int) : Nat → List (ResFolder α) →
    List (ResFolder α) × Except PyErr (List (ResData α) × Option Nat)
  | _, [] => ([], .ok ([], none))
  | ii, f :: fs =>
    if f.name.head? = some '_' then (f :: (loadLoop Ns (ii + 1) fs).1, (loadLoop Ns (ii + 1) fs).2)
    else
      match loadFolder Ns f with
      | (.error e, f') => (f' :: fs, .error e)
      | (.ok d, f') => (f' :: (loadLoop Ns (ii + 1) fs).1,
          (loadLoop Ns (ii + 1) fs).2.map fun r => (d :: r.1, if ii = 0 then some d.metrics.length else r.2))

/-- `if x not in l: l.append(x)`, then `sort()` (battery20230915_pp.py 173-177, 191-192). -/
def sortedParams (l : List Int) : List Int :=
  (l.foldl (fun acc x => if x ∈ acc then acc else acc ++ [x]) []).insertionSort (· ≤ ·)

/-- A data frame: index, columns, entries (`none` is NaN). -/
structure ResTable (α : Type) where
  rows : List Int
  cols : List Int
  cell : Int → Int → Option α

/-- One entry (battery20230915_pp.py 135-140). -/
def fillStep {α : Type} (k : Nat) (cell : Int → Int → Option α) (d : ResData α) : Except PyErr (Int → Int → Option α) :=
  match d.metrics[k]? with
  | none => .error .keyError
  | some v => .ok fun s l => if s = d.sro ∧ l = d.L then some v else cell s l

/-- The entries of the table of node `k` (battery20230915_pp.py 134-140). -/
def fillTable {α : Type} (k : Nat) (ds : List (ResData α)) : Except PyErr (Int → Int → Option α) :=
  ds.foldlM (fillStep k) (fun _ _ => none)

/-- `get_data` (battery20230915_pp.py 113-148): the folders afterwards, one table per node. -/
def getTables {α : Type} (Ns : Int) (fs : List (ResFolder α)) : List (ResFolder α) × Except PyErr (List (ResTable α)) :=
  ((loadLoop Ns 0 fs).1, do
    let r ← (loadLoop Ns 0 fs).2
    match r.2 with
    | none => .error .keyError
    | some n =>
      (List.range n).mapM fun k => do
        let cell ← fillTable k r.1
        return ⟨sortedParams (r.1.map (·.sro)), sortedParams (r.1.map (·.L)), cell⟩)

end Danse
