import Verif.Model.Vad
import Verif.Model.Evaluate

/-!
# Model of the evaluation window

`WASN.get_metrics_key_time` (`siggen/classes.py` 489-544) with the strings that `get_key_time` (766-845) accepts, its two
calls (`build_wasn`, siggen/utils.py 1350-1359; `OutputsForPostProcessing.ensure_consistency`, d_classes.py 344-359), the
check of `TestParameters.__post_init__` (d_classes.py 278-287) and the sample indices of `compute_metrics` (d_post.py
777-778).

Strings are lists of characters; `float(…)` is a parameter. A time `none` is NaN (`None` assigned to an entry of a float array).
Exact arithmetic.
-/

namespace Danse

/-- `float` of a string: the number, or an exception. -/
abbrev PyFloat := List Char → Except PyErr ℚ

/-- `ref.split('_')[-1]`. -/
def lastPart (s : List Char) : List Char := (s.reverse.takeWhile (· != '_')).reverse

/-- `ref[a:-b]` of a string that is long enough or not, `b > 0`. -/
def cutStr (a b : Nat) (s : List Char) : List Char := (s.take (s.length - b)).drop a

/-- The duration in 'after_<x>ms' and 'after_<x>s' (siggen/classes.py 835-845): seconds. -/
def afterSec (fl : PyFloat) (ref : List Char) : Except PyErr ℚ :=
  if "ms".toList <:+: ref then do
    let x ← fl (cutStr 6 2 ref)
    return x * (1 / 1000)
  else if "s".toList <:+: ref then fl (cutStr 6 1 ref)
  else .error .valueError

/-- `get_key_time` (siggen/classes.py 766-845) with the string `ref`; `none`: it returns `None`. -/
def keyTimeOf (fl : PyFloat) (ref : List Char) (vad : List Bool) (fs minDur : ℚ) : Except PyErr (Option ℚ) :=
  if ref = "end_1st_utterance".toList then do
    let t ← getKeyTime .end1st vad fs minDur
    return some t
  else if ref = "beginning_1st_utterance".toList then do
    let t ← getKeyTime .beg1st vad fs minDur
    return some t
  else if "beginning_2nd_utterance".toList <:+: ref then do
    let t ← getKeyTime (.beg2nd none) vad fs minDur
    if "after".toList <:+: ref then do
      let ms ← fl (lastPart ref)
      return some (t + ms / 1000)
    else return some t
  else do
    let _ ← getKeyTime (.after 0) vad fs minDur
    if "after".toList <+: ref then do
      let t ← afterSec fl ref
      return some t
    else return none

/-- What `get_metrics_key_time` reads and writes of a node. -/
structure KeyNode where
  vad : List Bool
  /-- `data.shape[0]` -/
  len : Nat
  fs : ℚ
  start : Option ℚ
  stop : Option ℚ

/-- `timeType`. -/
inductive TimeType where
  | start
  | stop
  deriving DecidableEq

/-- The time of one node (siggen/classes.py 529-540). -/
def nodeKeyTime (fl : PyFloat) (ref : Option (List Char)) (minDur : ℚ) (ty : TimeType) (nd : KeyNode) :
    Except PyErr (Option ℚ) :=
  match ref with
  | none => .ok (some (match ty with | .start => 0 | .stop => nd.len / nd.fs))
  | some r => keyTimeOf fl r nd.vad nd.fs minDur

/-- Lines 541-544. -/
def KeyNode.put (nd : KeyNode) (ty : TimeType) (t : Option ℚ) : KeyNode :=
  match ty with
  | .start => { nd with start := t }
  | .stop => { nd with stop := t }

/-- The loop over the nodes (siggen/classes.py 527-544). The nodes after the call, and the exception that ended it. -/
def keyTimeLoop (fl : PyFloat) (ref : Option (List Char)) (minDur : ℚ) (ty : TimeType) :
    List KeyNode → List KeyNode × Option PyErr
  | [] => ([], none)
  | nd :: rest =>
    match nodeKeyTime fl ref minDur ty nd with
    | .error e => (nd :: rest, some e)
    | .ok t => (nd.put ty t :: (keyTimeLoop fl ref minDur ty rest).1, (keyTimeLoop fl ref minDur ty rest).2)

/-- `get_metrics_key_time` (siggen/classes.py 489-544); `nSrc` is the number of columns of the VADs (the same for all nodes,
siggen/utils.py 1336). -/
def metricsKeyTime (fl : PyFloat) (nSrc : Nat) (ref : Option (List Char)) (minDur : ℚ) (ty : TimeType)
    (nodes : List KeyNode) : List KeyNode × Option PyErr :=
  if nodes = [] then (nodes, some .indexError)
  else if nSrc > 1 then (nodes, some .valueError)
  else keyTimeLoop fl ref minDur ty nodes

/-- The two calls (siggen/utils.py 1350-1359, d_classes.py 350-359). -/
def setKeyTimes (fl : PyFloat) (nSrc : Nat) (startRef stopRef : Option (List Char)) (minDur : ℚ) (nodes : List KeyNode) :
    List KeyNode × Option PyErr :=
  match metricsKeyTime fl nSrc startRef minDur .start nodes with
  | (n1, some e) => (n1, some e)
  | (n1, none) => metricsKeyTime fl nSrc stopRef minDur .stop n1

/-- First and last sample of the evaluation (d_post.py 777-778): `int(np.floor(nan))` raises `ValueError`. -/
def KeyNode.window (nd : KeyNode) : Except PyErr (Int × Int) :=
  match nd.start, nd.stop with
  | some s, some e => .ok (⌊s * nd.fs⌋, ⌊e * nd.fs⌋)
  | _, _ => .error .valueError

/-- The check of `TestParameters.__post_init__` (d_classes.py 280-287): `'after' in None` raises `TypeError`; without a
unit `dur` is not assigned. -/
def checkStartRef (fl : PyFloat) (sigDur : ℚ) (ref : Option (List Char)) : Except PyErr Unit :=
  match ref with
  | none => .error .typeError
  | some r =>
    if "after".toList <:+: r ∧ ¬ "beginning".toList <:+: r then
      if "ms".toList <:+: r ∨ "s".toList <:+: r then do
        let d ← afterSec fl r
        if d > sigDur then .error .valueError else .ok ()
      else .error .unboundLocalError
    else .ok ()

end Danse
