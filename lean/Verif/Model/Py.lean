/-!
# Python-level primitives used by the model

Exceptions are values; Python list indexing and slicing are reproduced including the
meaning of negative indices.
-/

namespace Danse

/-- The Python exceptions that the modelled code can raise. -/
inductive PyErr where
  | valueError
  | indexError
  | typeError
  | keyError
  | attributeError
  | zeroDivisionError
  | unboundLocalError
  | eofError
  | fileNotFoundError
  | notImplementedError
  | linAlgError
  | fileExistsError
  | nan  -- not an exception: the computation goes on with NaN values
  deriving DecidableEq, Repr

/-- Python `l[i]` for a list/array and an integer index: negative indices count from the
end, anything outside `[-len, len)` raises `IndexError`. -/
def pyGet {α : Type _} (l : List α) (i : Int) : Except PyErr α :=
  let j := if i < 0 then i + l.length else i
  if j < 0 then .error .indexError
  else match l[j.toNat]? with
    | some x => .ok x
    | none => .error .indexError

/-- Python normalisation of one slice bound (`step = 1`): negative bounds count from the end
and are clipped at 0, bounds past the end are clipped at the length. -/
def pySliceBound (len : Nat) (i : Int) : Nat :=
  if i < 0 then (i + len).toNat else min i.toNat len

/-- Python `l[a:b]`. -/
def pySlice {α : Type _} (l : List α) (a b : Int) : List α :=
  let s := pySliceBound l.length a
  let e := pySliceBound l.length b
  (l.drop s).take (e - s)

end Danse
