import Verif.Model.Py

/-!
# Model of `AudioReader` (dxcpphat/audio_reader.py 5-50)

Dictionaries are lists of keys and values, in order of insertion. An iterable is a collection, which can be iterated again and
again, or an iterator, which yields its items once. `load` stands for `load_audio` and `segment_axis` with the arguments that are
given there (44-48; the path begins with `data_root`), which may raise an exception.
-/

namespace Danse

/-- An iterable. -/
inductive PyIter (K : Type) where
  | coll (l : List K)
  | once (l : List K)

/-- What a `for` loop over it sees. -/
def PyIter.items {K : Type} : PyIter K → List K
  | .coll l => l
  | .once l => l

/-- The iterable when a loop has left `rest` of its items. -/
def PyIter.left {K : Type} (rest : List K) : PyIter K → PyIter K
  | .coll l => .coll l
  | .once _ => .once rest

/-- `d[k] = v`. -/
def dictSet {K V : Type} [DecidableEq K] (d : List (K × V)) (k : K) (v : V) : List (K × V) :=
  match d with
  | [] => [(k, v)]
  | e :: d => if e.1 = k then (k, v) :: d else e :: dictSet d k v

/-- `d[k]`. -/
def dictGet {K V : Type} [DecidableEq K] (d : List (K × V)) (k : K) : Except PyErr V :=
  match d with
  | [] => .error .keyError
  | e :: d => if e.1 = k then .ok e.2 else dictGet d k

/-- `mic_ids`: `None`, a dictionary, a string, or another iterable. A value of any other type fails the assertion (28-30, not
modelled). -/
inductive MicSel (N M : Type) where
  | all
  | dict (d : List (N × PyIter M))
  | str (m : M)
  | iter (s : PyIter M)

/-- `node_ids` and `mic_ids`; the other attributes are in `load`. -/
structure AudioReader (N M : Type) where
  nodes : Option (PyIter N)
  mics : MicSel N M

variable {N M P A : Type} [DecidableEq N] [DecidableEq M]

/-- The loop over the microphones of a node (39-48): the items that are left, the signals. -/
def readMics (load : P → Except PyErr A) (paths : Except PyErr (List (M × P))) : List M → List (M × A) →
    List M × Except PyErr (List (M × A))
  | [], acc => ([], .ok acc)
  | m :: ms, acc =>
    match paths >>= fun p => dictGet p m >>= load with
    | .error e => (ms, .error e)
    | .ok a => readMics load paths ms (dictSet acc m a)

/-- One node (25-48): the selection afterwards, the signals. -/
def readNode (load : P → Except PyErr A) (paths : List (N × List (M × P))) (sel : MicSel N M) (n : N) :
    MicSel N M × Except PyErr (List (M × A)) :=
  match sel with
  | .all =>
    match dictGet paths n with
    | .error e => (sel, .error e)
    | .ok p => (sel, (readMics load (dictGet paths n) (p.map (·.1)) []).2)
  | .dict d =>
    match dictGet d n with
    | .error e => (sel, .error e)
    | .ok s =>
      let r := readMics load (dictGet paths n) s.items []
      (.dict (dictSet d n (s.left r.1)), r.2)
  | .str m => (sel, (readMics load (dictGet paths n) [m] []).2)
  | .iter s =>
    let r := readMics load (dictGet paths n) s.items []
    (.iter (s.left r.1), r.2)

/-- The loop over the nodes (25-48): the nodes that are left, the selection afterwards, the signals. -/
def readNodes (load : P → Except PyErr A) (paths : List (N × List (M × P))) : MicSel N M → List N → List (N × List (M × A)) →
    List N × MicSel N M × Except PyErr (List (N × List (M × A)))
  | sel, [], acc => ([], sel, .ok acc)
  | sel, n :: ns, acc =>
    match readNode load paths sel n with
    | (sel', .error e) => (ns, sel', .error e)
    | (sel', .ok sigs) => readNodes load paths sel' ns (dictSet acc n sigs)

/-- `__call__` (20-50): the reader afterwards, and `example['audio']`. After an exception `example` is as before. -/
def AudioReader.call (load : P → Except PyErr A) (r : AudioReader N M) (paths : List (N × List (M × P))) :
    AudioReader N M × Except PyErr (List (N × List (M × A))) :=
  match r.nodes with
  | none =>
    let o := readNodes load paths r.mics (paths.map (·.1)) []
    (⟨none, o.2.1⟩, o.2.2)
  | some s =>
    let o := readNodes load paths r.mics s.items []
    (⟨some (s.left o.1), o.2.1⟩, o.2.2)

end Danse
