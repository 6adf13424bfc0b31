import Verif.Model.Py
import Mathlib.Data.Rat.Floor
import Mathlib.Algebra.Order.Field.Rat
import Mathlib.Algebra.Order.Round

/-!
# Voice activity detection and metric start times (`siggen`)

Samples, thresholds and times are exact rationals.
-/

namespace Danse

/-- Loop of `get_vad_per_frame` (siggen/classes.py 689-701): `rem` frames are left, `ii` is the current
one, `arr` is `vadPerFrame`. -/
def vadFrameLoop (vad : List ℚ) (N Ns : Nat) (p : ℚ) : (rem ii : Nat) → List Bool → List Bool
  | 0, _, arr => arr
  | rem + 1, ii, arr =>
    if vad.length < ii * Ns + N then arr.take (ii + 1)
    else
      let chunk := pySlice vad (ii * Ns : Nat) (ii * Ns + N : Nat)
      vadFrameLoop vad N Ns p rem (ii + 1) (arr.set ii (decide (chunk.length * p ≤ chunk.sum)))

/-- `get_vad_per_frame` for one node with one source (siggen/classes.py 684-702): `ValueError`
without a VAD, `ZeroDivisionError` for a zero frame shift. With several sources `float()` of the
column sums raises `TypeError`; not modelled. -/
def vadPerFrame (vad : List ℚ) (N Ns : Nat) (p : ℚ) : Except PyErr (List Bool) :=
  if vad.length = 0 then .error .valueError
  else if Ns = 0 then .error .zeroDivisionError
  else .ok (vadFrameLoop vad N Ns p (vad.length / Ns) 0 (List.replicate (vad.length / Ns) false))

/-- `compute_VAD` (siggen/utils.py 1137-1152). The mean of an empty chunk is NaN, which is not greater
than the threshold. -/
def computeVAD (chunk : List ℚ) (thrs : ℚ) : Bool :=
  if chunk = [] then false
  else decide (thrs < (chunk.map fun x => |x| ^ 2).sum / chunk.length)

/-- VAD window length (siggen/utils.py 1114-1117), for a non-negative sampling frequency. -/
def vadWinLen (tw Fs : ℚ) : Nat := if 0 < tw then ⌊tw * Fs⌋.toNat else 1

/-- `oracleVAD` for a 1-D signal (siggen/utils.py 1079-1133), without the time vector. -/
def oracleVAD (x : List ℚ) (tw thrs Fs : ℚ) : List Bool :=
  (List.range x.length).map fun (ii : Nat) =>
    let idxBeg := max ((ii : Int) - (vadWinLen tw Fs / 2 : Nat)) 0
    let idxEnd := min ((ii : Int) + (vadWinLen tw Fs / 2 : Nat)) x.length
    computeVAD (pySlice x idxBeg idxEnd) thrs

/-- `np.round(x, 3)`: half to even. -/
def npRound3 (x : ℚ) : ℚ :=
  let f := ⌊x * 1000⌋
  let r := x * 1000 - f
  let n := if r < 1 / 2 then f else if 1 / 2 < r then f + 1 else if f % 2 = 0 then f else f + 1
  n / 1000

/-- The file name of a VAD (siggen/utils.py 921): the hash of the signal, and the rounded threshold,
window length and sampling frequency. The folder is fixed and the printing of numbers is taken to be
injective. -/
structure VadKey (H : Type) where
  id : H
  thrs : ℚ
  Nw : ℚ
  fs : ℚ
  deriving DecidableEq

/-- Arguments of `get_or_load_vad`. -/
structure VadCall where
  x : List ℚ
  eFact : ℚ
  Nw : ℚ
  fs : ℚ
  load : Bool

/-- `np.amax(x ** 2)` (siggen/utils.py 919); `ValueError` on an empty signal. -/
def maxSq : List ℚ → Except PyErr ℚ
  | [] => .error .valueError
  | x :: r => .ok ((r.map (· ^ 2)).foldl max (x ^ 2))

/-- `get_or_load_vad` (siggen/utils.py 896-939); the folder is a partial map from file names to
stored VADs. `eFact = 0` divides by zero (`inf`/NaN thresholds, not modelled). -/
def getOrLoadVad {H : Type} [DecidableEq H] (hash : List ℚ → H) (c : VadCall)
    (folder : VadKey H → Option (List Bool)) :
    Except PyErr (List Bool × (VadKey H → Option (List Bool))) := do
  let m ← maxSq c.x
  let thrs := m / c.eFact
  let key : VadKey H := ⟨hash c.x, npRound3 thrs, npRound3 c.Nw, c.fs⟩
  let fresh := oracleVAD c.x c.Nw thrs c.fs
  if c.load then
    match folder key with
    | some v => return (v, folder)
    | none => return (fresh, fun k => if k = key then some fresh else folder k)
  else return (fresh, fun k => if k = key then some fresh else folder k)

/-- Valid values of `startComputeMetricsAt` / `endComputeMetricsAt`, parsed (siggen/classes.py
798-845): 'end_1st_utterance', 'beginning_1st_utterance', 'beginning_2nd_utterance' with an optional
`_after_<ms>`, 'after_<x>s'/'after_<x>ms' in seconds. -/
inductive KeyRef where
  | end1st
  | beg1st
  | beg2nd (afterMs : Option ℚ)
  | after (sec : ℚ)

/-- `vadChangesIndices` (siggen/classes.py 786-788). -/
def vadChanges (vad : List Bool) : List Nat :=
  (List.range' 1 (vad.length - 1)).filter fun i => vad[i]? != vad[i - 1]?

/-- `_jump_over_short_changes` (siggen/classes.py 772-783); `D` is
`minNoSpeechDurEndUtterance * fs`. -/
def jumpShort (ch : List Nat) (D : ℚ) (idx : Nat) : Except PyErr Nat :=
  if h : idx + 1 < ch.length then
    if (ch[idx + 1] : ℚ) - ch[idx] < D then jumpShort ch D (idx + 2) else .ok idx
  else .error .indexError
termination_by ch.length - idx

/-- `get_key_time` for a single-source 0/1 VAD (siggen/classes.py 766-845). One sample: `np.squeeze`
leaves a scalar, which `np.diff` refuses; none: `vad[0]` raises `IndexError`. -/
def getKeyTime (ref : KeyRef) (vad : List Bool) (fs minDur : ℚ) : Except PyErr ℚ :=
  match vad with
  | [] => .error .indexError
  | [_] => .error .valueError
  | v0 :: _ =>
    let ch := vadChanges vad
    let idx := if v0 then 0 else 1
    match ref with
    | .end1st => do
      let idx' ← jumpShort ch (minDur * fs) idx
      let i ← pyGet ch idx'
      return (i : ℚ) / fs
    | .beg1st =>
      if (idx : Int) - 1 < 0 then .ok 0
      else do
        let i ← pyGet ch (idx - 1 : Nat)
        return (i : ℚ) / fs
    | .beg2nd af => do
      let idx' ← jumpShort ch (minDur * fs) idx
      let i ← pyGet ch (idx' + 1 : Nat)
      return (i : ℚ) / fs + af.getD 0 / 1000
    | .after sec => .ok sec

end Danse
