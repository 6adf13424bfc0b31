import Mathlib.Data.Rat.Floor
import Mathlib.Algebra.Order.Field.Rat
import Verif.Model.Py

/-!
# Model of the extraction of local signal frames

Models `local_chunk_for_broadcast` (`danse_toolbox/d_base.py` 1391-1426) and
`local_chunk_for_update` (1429-1479). A signal is the list of its time samples; a sample (a row of
the `[Ntot x Mk]` array) is an element of an arbitrary type with a zero (the zero row). The product
`t * fs` is an exact rational number (floating-point rounding is not modelled).
-/

namespace Danse
section
variable {α : Type} [Zero α]

/-- The part common to both functions (d_base.py 1414-1424, 1467-1477): slice
`y[idxBeg:idxEnd]`, padded with zeros in front when `idxEnd - idxBeg < N`. `np.zeros` with a
negative size raises `ValueError`. -/
def localChunk (y : List α) (N : Nat) (idxEnd : Int) : Except PyErr (List α × Int × Int) :=
  let idxBeg := max (idxEnd - N) 0
  let chunk := pySlice y idxBeg idxEnd
  if idxEnd - idxBeg < N then
    if (N : Int) - chunk.length < 0 then .error .valueError
    else .ok (List.replicate (N - chunk.length) 0 ++ chunk, idxBeg, idxEnd)
  else .ok (chunk, idxBeg, idxEnd)

/-- `local_chunk_for_broadcast` (d_base.py 1391-1426). -/
def chunkForBroadcast (y : List α) (t fs : ℚ) (N : Nat) : Except PyErr (List α × Int × Int) :=
  localChunk y N ⌊t * fs⌋

/-- `local_chunk_for_update` (d_base.py 1429-1479). An unknown broadcast type leaves `idxEnd`
unbound. -/
def chunkForUpdate (y : List α) (t fs : ℚ) (bd : String) (N Ns : Nat) :
    Except PyErr (List α × Int × Int) :=
  if bd = "fewSamples" then localChunk y N ⌊t * fs⌋
  else if bd = "wholeChunk" then localChunk y N (⌊t * fs⌋ - ((N : Int) - Ns))
  else .error .unboundLocalError

end
end Danse
