import Verif.Spec.Vad
import Verif.Model.KeyWindow

/-!
# Specification: the documented evaluation windows (d_base.py 298-314)
-/

namespace Danse

/-- Characters of a number without sign or exponent. -/
def Plain (x : List Char) : Prop := ∀ c ∈ x, c.isDigit = true ∨ c = '.'

/-- The documented values of `startComputeMetricsAt` and `endComputeMetricsAt`. -/
inductive DocRef where
  | end1st
  | beg1st
  | beg2nd
  | afterBeg2nd (x : List Char)
  | afterS (x : List Char)
  | afterMs (x : List Char)

/-- As they are written. -/
def DocRef.name : DocRef → List Char
  | .end1st => "end_1st_utterance".toList
  | .beg1st => "beginning_1st_utterance".toList
  | .beg2nd => "beginning_2nd_utterance".toList
  | .afterBeg2nd x => "after_beginning_2nd_utterance_".toList ++ x
  | .afterS x => "after_".toList ++ (x ++ "s".toList)
  | .afterMs x => "after_".toList ++ (x ++ "ms".toList)

/-- Numbers are written plainly. -/
def DocRef.Ok : DocRef → Prop
  | .afterBeg2nd x => Plain x
  | .afterS x => Plain x
  | .afterMs x => Plain x
  | _ => True

/-- What they mean, in samples (`d` seconds is the minimum duration of a pause between utterances, `fs` samples per second): a
position on the time axis of the recording. -/
def DocRef.At (fl : PyFloat) (vad : List Bool) (fs d : ℚ) : DocRef → ℚ → Prop
  | .end1st, p => ∃ i j, FirstLongPause vad (d * fs) i j ∧ p = i
  | .beg1st, p => ∃ i : Nat, vad[i]? = some true ∧ (∀ m < i, vad[m]? = some false) ∧ p = i
  | .beg2nd, p => ∃ i j, FirstLongPause vad (d * fs) i j ∧ p = j
  | .afterBeg2nd x, p => ∃ i j v, FirstLongPause vad (d * fs) i j ∧ fl x = .ok v ∧ p = j + v / 1000 * fs
  | .afterS x, p => ∃ v, fl x = .ok v ∧ p = v * fs
  | .afterMs x, p => ∃ v, fl x = .ok v ∧ p = v / 1000 * fs

/-- The nodes are the same but for the times that were computed before. -/
def SameRec (a b : List KeyNode) : Prop :=
  a.map (fun nd => (nd.vad, nd.len, nd.fs)) = b.map (fun nd => (nd.vad, nd.len, nd.fs))

end Danse
