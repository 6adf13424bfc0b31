import Verif.Model.AudioRead

/-!
# Specification: which signals are read
-/

namespace Danse

variable {N M P A : Type} [DecidableEq N] [DecidableEq M]

/-- Node `n` is asked for. -/
def AudioReader.Node (r : AudioReader N M) (paths : List (N × List (M × P))) (n : N) : Prop :=
  match r.nodes with
  | none => n ∈ paths.map (·.1)
  | some s => n ∈ s.items

/-- Microphone `m` of node `n` is asked for. -/
def AudioReader.Mic (r : AudioReader N M) (paths : List (N × List (M × P))) (n : N) (m : M) : Prop :=
  match r.mics with
  | .all => ∃ p, dictGet paths n = .ok p ∧ m ∈ p.map (·.1)
  | .dict d => ∃ s, dictGet d n = .ok s ∧ m ∈ s.items
  | .str m' => m = m'
  | .iter s => m ∈ s.items

/-- Nothing in the reader is an iterator. -/
def AudioReader.Reusable (r : AudioReader N M) : Prop :=
  (∀ l, r.nodes ≠ some (.once l)) ∧
    match r.mics with
    | .dict d => ∀ e ∈ d, ∀ l, e.2 ≠ .once l
    | .iter s => ∀ l, s ≠ .once l
    | _ => True

/-- The signal of microphone `m` of node `n`, or the exception that getting it raises. -/
def micSignal (load : P → Except PyErr A) (paths : List (N × List (M × P))) (n : N) (m : M) : Except PyErr A := do
  let p ← dictGet paths n
  let f ← dictGet p m
  load f

end Danse
