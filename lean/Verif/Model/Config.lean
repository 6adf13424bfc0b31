import Mathlib.Data.Rat.Defs
import Mathlib.Algebra.Order.Group.Unbundled.Abs
import Mathlib.Algebra.Order.Field.Rat
import Verif.Model.Py

/-!
# Model of configuration and result files

Models `ExportParameters.check_export_folder` (`danse_toolbox/d_classes.py` 165-196),
`wipe_folder` (`danse_toolbox/d_utils.py` 3-21) and `danse_toolbox/dataclass_methods.py`:
`save` (13-42), `load` (45-94), `load_from_yaml` (258-329), `dataclasses_equal` (332-347).

Simplifications: YAML keys are strings; a YAML/Python list is a regular array of numbers (shape
and data); other scalars (numbers, booleans, `None`) are opaque; attributes are the instance
attributes (methods and class attributes are not looked up); printed messages and the `.txt`
rendering are opaque.
-/

namespace Danse

/-! ## `check_export_folder` -/

/-- What a path designates: nothing, a file, or a directory with named entries. -/
inductive PathState where
  | absent
  | file
  | dir (entries : List (String × String))
  deriving DecidableEq, Repr

/-- `wipe_folder` (d_utils.py 3-21): every entry is deleted; an entry whose deletion raises is
kept and the exception is swallowed. `canDelete` tells which entries can be deleted. -/
def wipeFolder (canDelete : String → Bool) (entries : List (String × String)) :
    List (String × String) :=
  entries.filter fun e => !canDelete e.1

/-- The `input` loop (d_classes.py 181-183): asks until the answer is one of `y Y n N`; `true`
stands for `y`/`Y`. Returns the unread answers. -/
def askOverwrite : List String → Except PyErr (Bool × List String)
  | [] => .error .eofError
  | a :: r =>
    if a ∈ ["y", "Y", "n", "N"] then .ok (decide (a ∈ ["y", "Y"]), r) else askOverwrite r

/-- `ExportParameters.check_export_folder` (d_classes.py 165-196). Returns `runit`, the state of
the folder afterwards and the unread answers. `Path.mkdir` on a path that is a file raises
`FileExistsError`. -/
def checkExportFolder (bypassAll writeOver : Bool) (canDelete : String → Bool)
    (st : PathState) (answers : List String) :
    Except PyErr (Bool × PathState × List String) :=
  if bypassAll then .ok (true, st, answers)
  else
    match st with
    | .absent => .ok (true, .dir [], answers)
    | .file => .error .fileExistsError
    | .dir es =>
      if writeOver then .ok (true, .dir es, answers)
      else if es.isEmpty then .ok (true, .dir es, answers)
      else
        match askOverwrite answers with
        | .error e => .error e
        | .ok (true, r) => .ok (true, .dir (wipeFolder canDelete es), r)
        | .ok (false, r) => .ok (false, .dir es, r)

/-! ## `load_from_yaml` -/

/-- A regular array of numbers. -/
structure NumArr where
  shape : List Nat
  data : List ℚ
  deriving DecidableEq, Repr

/-- A value that is neither a dict nor a dataclass. -/
inductive Leaf where
  | scalar (s : String)
  | str (s : String)
  | list (a : NumArr)
  | arr (a : NumArr)
  deriving DecidableEq, Repr

/-- A YAML mapping, as an ordered list of entries. -/
inductive YDict where
  | nil
  | leaf (k : String) (v : Leaf) (rest : YDict)
  | node (k : String) (sub : YDict) (rest : YDict)
  deriving DecidableEq, Repr

/-- Declared fields of a dataclass; the flag says that the declared type is `np.ndarray`. -/
abbrev Decl := List (String × Bool)

/-- The instance attributes of a dataclass instance; a `node` is an attribute holding a
dataclass instance (with that instance's declared fields and attributes). -/
inductive Attrs where
  | nil
  | leaf (k : String) (v : Leaf) (rest : Attrs)
  | node (k : String) (decl : Decl) (sub : Attrs) (rest : Attrs)
  deriving DecidableEq, Repr

/-- Value of an attribute. -/
inductive AVal where
  | leaf (v : Leaf)
  | node (decl : Decl) (sub : Attrs)
  deriving DecidableEq, Repr

/-- `getattr(obj, key)`. -/
def Attrs.find : Attrs → String → Option AVal
  | .nil, _ => none
  | .leaf k v r, key => if k = key then some (.leaf v) else r.find key
  | .node k d s r, key => if k = key then some (.node d s) else r.find key

/-- `setattr(obj, key, value)`: replaces, or adds at the end. -/
def Attrs.set : Attrs → String → AVal → Attrs
  | .nil, key, .leaf v => .leaf key v .nil
  | .nil, key, .node d s => .node key d s .nil
  | .leaf k v r, key, x =>
    if k = key then (match x with | .leaf v' => .leaf k v' r | .node d s => .node k d s r)
    else .leaf k v (r.set key x)
  | .node k d s r, key, x =>
    if k = key then (match x with | .leaf v' => .leaf k v' r | .node d' s' => .node k d' s' r)
    else .node k d s (r.set key x)

/-- The test of `_interpret_lists` (dataclass_methods.py 281-282). -/
def looksLikeList (s : String) : Bool :=
  decide (s.length ≥ 2) && s.toList.head? == some '[' && s.toList.getLast? == some ']'

/-- One leaf in `_interpret_lists` (280-284). -/
def interpretLeaf (ev : String → Except PyErr Leaf) : Leaf → Except PyErr Leaf
  | .str s => if looksLikeList s then ev s else .ok (.str s)
  | v => .ok v

/-- `_interpret_lists` (dataclass_methods.py 277-287); `ev` is `ast.literal_eval`. -/
def interpretLists (ev : String → Except PyErr Leaf) : YDict → Except PyErr YDict
  | .nil => .ok .nil
  | .leaf k v r => do
    let v' ← interpretLeaf ev v
    let r' ← interpretLists ev r
    .ok (.leaf k v' r')
  | .node k s r => do
    let s' ← interpretLists ev s
    let r' ← interpretLists ev r
    .ok (.node k s' r')

/-- One leaf in `_deal_with_arrays` (295-298): a list under a key that is not a declared field is
a `KeyError`. -/
def dealLeaf (decl : Decl) (k : String) : Leaf → Except PyErr Leaf
  | .list a =>
    match decl.lookup k with
    | none => .error .keyError
    | some true => .ok (.arr a)
    | some false => .ok (.list a)
  | v => .ok v

/-- `_deal_with_arrays(d, ref)` (292-301) when `ref` is not a dataclass: the first list is a
`TypeError` (`fields` of a non-dataclass), the first nested dict an `AttributeError`. -/
def dealNonDataclass : YDict → Except PyErr YDict
  | .nil => .ok .nil
  | .leaf k v r =>
    match v with
    | .list _ => .error .typeError
    | v => do let r' ← dealNonDataclass r; .ok (.leaf k v r')
  | .node _ _ _ => .error .attributeError

/-- `_deal_with_arrays` (dataclass_methods.py 292-301). -/
def dealWithArrays : Decl → Attrs → YDict → Except PyErr YDict
  | _, _, .nil => .ok .nil
  | decl, at', .leaf k v r => do
    let v' ← dealLeaf decl k v
    let r' ← dealWithArrays decl at' r
    .ok (.leaf k v' r')
  | decl, at', .node k s r =>
    match at'.find k with
    | none => .error .attributeError
    | some (.leaf _) => do
      let s' ← dealNonDataclass s
      let r' ← dealWithArrays decl at' r
      .ok (.node k s' r')
    | some (.node d sub) => do
      let s' ← dealWithArrays d sub s
      let r' ← dealWithArrays decl at' r
      .ok (.node k s' r')

/-- `_load_into_dataclass` (dataclass_methods.py 306-317). `setattr` on a number, string, list or
array is an `AttributeError`; an empty mapping sets the attribute to itself. -/
def loadInto : Attrs → YDict → Except PyErr Attrs
  | a, .nil => .ok a
  | a, .leaf k v r => loadInto (a.set k (.leaf v)) r
  | a, .node k s r =>
    match a.find k with
    | none => .error .attributeError
    | some (.leaf _) => if s = .nil then loadInto a r else .error .attributeError
    | some (.node d sub) => do
      let sub' ← loadInto sub s
      loadInto (a.set k (.node d sub')) r

/-- `load_from_yaml` up to the re-initialisation (dataclass_methods.py 273-320). `none` is an
empty file (`yaml.load` returns `None`, iterating over it is a `TypeError`). -/
def loadFromYaml (ev : String → Except PyErr Leaf) (decl : Decl) (a : Attrs) :
    Option YDict → Except PyErr Attrs
  | none => .error .typeError
  | some y => do
    let y1 ← interpretLists ev y
    let y2 ← dealWithArrays decl a y1
    loadInto a y2

/-! ## Several parameter objects in one process

`TestParameters` (d_classes.py 199-206) declares its sub-dataclasses with one default *instance*
(`wasnParams: WASNparameters = WASNparameters()`): under Python 3.9 (the version the repository is
pinned to) every `TestParameters()` refers to the same sub-objects. -/

/-- The parameter objects of a process: the attributes of each object that are not dataclasses,
and the sub-dataclasses, which are the same Python objects for all of them. -/
structure ParamWorld where
  shared : Attrs
  own : List Attrs

/-- Top-level non-mapping entries of a YAML mapping. -/
def YDict.leaves : YDict → YDict
  | .nil => .nil
  | .leaf k v r => .leaf k v r.leaves
  | .node _ _ r => r.leaves

/-- Top-level mapping entries of a YAML mapping. -/
def YDict.nodes : YDict → YDict
  | .nil => .nil
  | .leaf _ _ r => r.nodes
  | .node k s r => .node k s r.nodes

/-- One step of a process. -/
inductive ParamStep where
  /-- `TestParameters()` -/
  | new
  /-- `objs[i].load_from_yaml(y)` (after `_interpret_lists` and `_deal_with_arrays`) -/
  | load (i : Nat) (y : YDict)

/-- Effect of one step; `dflt` are the default own attributes. The mapping entries are written
through the references to the sub-dataclasses (309-315). -/
def ParamWorld.step (dflt : Attrs) (w : ParamWorld) : ParamStep → Except PyErr ParamWorld
  | .new => .ok { w with own := w.own ++ [dflt] }
  | .load i y =>
    match w.own[i]? with
    | none => .error .indexError
    | some o => do
      let o' ← loadInto o y.leaves
      let s' ← loadInto w.shared y.nodes
      .ok { shared := s', own := w.own.set i o' }

/-- A run of the process. -/
def ParamWorld.run (dflt : Attrs) : ParamWorld → List ParamStep → Except PyErr ParamWorld
  | w, [] => .ok w
  | w, s :: r => do
    let w' ← w.step dflt s
    w'.run dflt r

/-! ## `dataclasses_equal` -/

/-- `np.isclose(a, b)` with the default tolerances: `|a-b| ≤ 1e-8 + 1e-5 |b|`. -/
def isclose (a b : ℚ) : Bool := decide (|a - b| ≤ 1 / 10 ^ 8 + 1 / 10 ^ 5 * |b|)

/-- Comparison of two non-dataclass attribute values (dataclass_methods.py 341-346): `v` is the
value in `d1`, `w` the one in `d2`. When only `v` is an array, the outcome of `if w != v` depends
on the sizes and on the NumPy version (ambiguous truth value, element comparison, ...): it is the
parameter `mixed`. -/
def leafEqual (mixed : Leaf → NumArr → Except PyErr Bool) (v w : Leaf) : Except PyErr Bool :=
  match w, v with
  | .arr w, .arr v =>
    if w.shape ≠ v.shape then .ok false
    else .ok ((List.zipWith isclose w.data v.data).all id)
  | .arr _, _ => .error .attributeError
  | w, .arr v => mixed w v
  | w, v => .ok (w == v)

/-- `dataclasses_equal` (dataclass_methods.py 332-347), iterating over the attributes of the
first object. -/
def dcEqual (mixed : Leaf → NumArr → Except PyErr Bool) : Attrs → Attrs → Except PyErr Bool
  | .nil, _ => .ok true
  | .leaf k v r, b =>
    match b.find k with
    | none => .error .keyError
    | some (.node _ _) => .ok false
    | some (.leaf w) =>
      match leafEqual mixed v w with
      | .error e => .error e
      | .ok false => .ok false
      | .ok true => dcEqual mixed r b
  | .node k _ s r, b =>
    match b.find k with
    | none => .error .attributeError
    | some (.leaf _) => .error .attributeError
    | some (.node _ s') =>
      match dcEqual mixed s s' with
      | .error e => .error e
      | .ok false => .ok false
      | .ok true => dcEqual mixed r b

/-! ## `save` / `load` -/

/-- Contents of a file: a pickled object, or some text. -/
inductive FileContent (O : Type) where
  | pickle (o : O)
  | text (s : String)

/-- File system: `none` is a folder that does not exist. -/
abbrev FS (O : Type) := String → Option (String → Option (FileContent O))

/-- Write one file in an existing folder. -/
def FS.write {O : Type} (fs : FS O) (folder name : String) (c : FileContent O) : FS O :=
  fun f => if f = folder then some (fun n => if n = name then some c else
    match fs folder with
    | none => none
    | some d => d n)
  else fs f

/-- `Path(folder).mkdir(parents=True)` if it is not a directory (29-31). -/
def FS.ensure {O : Type} (fs : FS O) (folder : String) : FS O :=
  fun f => if f = folder then (match fs folder with | none => some (fun _ => none) | some d => some d)
  else fs f

/-- `save` (dataclass_methods.py 13-42). Returns the file system after the call and the
exception, if any: `save_to_json` (120-123) always raises, after the folder has been made. -/
def saveDc {O : Type} (cls : O → String) (txt : O → String) (fs : FS O) (o : O)
    (folder exportType : String) : FS O × Option PyErr :=
  let fs := fs.ensure folder
  if exportType = "json" then (fs, some .valueError)
  else
    let fs := if exportType = "pkl" then fs.write folder (cls o ++ ".pkl.gz") (.pickle o) else fs
    (fs.write folder (cls o ++ "_text.txt") (.text (txt o)), none)

/-- `load` (dataclass_methods.py 45-94). `post` is `__post_init__` of the loaded object (identity
if it has none). An unknown `dataType` leaves `baseExtension` unbound; `load_from_json` always
fails (`copy.copy` on the function `copy`); reading a `.pkl.gz` that is not a pickle fails. -/
def loadDc {O : Type} (post : O → Except PyErr O) (cls : String) (fs : FS O)
    (folder dataType : String) : Except PyErr O :=
  match fs folder with
  | none => .error .valueError
  | some d =>
    if dataType ≠ "pkl" ∧ dataType ≠ "json" then .error .unboundLocalError
    else
      let base := if dataType = "pkl" then ".pkl.gz" else ".json"
      let alt := if dataType = "pkl" then ".json" else ".pkl.gz"
      let ext := if (d (cls ++ base)).isSome then some base
        else if (d (cls ++ alt)).isSome then some alt else none
      match ext with
      | none => .error .valueError
      | some ext =>
        if ext = ".json" then .error .attributeError
        else
          match d (cls ++ ".pkl.gz") with
          | some (.pickle o) => post o
          | _ => .error .valueError

end Danse
