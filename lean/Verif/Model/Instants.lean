import Mathlib.Order.Defs.LinearOrder
import Mathlib.Data.Rat.Floor
import Mathlib.Algebra.Order.Field.Rat
import Verif.Model.Py
import Verif.Model.Events

/-!
# Model of the generation of event instants

Models, from `danse_toolbox/d_base.py`: `generate_aligned_instants` (892-920), the efficient
few-sample broadcast instants of `prep_evmat_build` (733-766, 822-855),
`get_sequential_update_instants` (923-959) and the tree-formation part of `prep_evmat_build`
(682-698, 780-803).

Times that are only compared live in an arbitrary linear order. Times that are computed
(`j*sep/fs`) are exact rationals instead of IEEE doubles.
-/

set_option linter.unusedSectionVars false

namespace Danse

section
variable {τ : Type} [LinearOrder τ]

/-- `np.amax` of a 1-D array: `ValueError` if empty. -/
def npAmax : List τ → Except PyErr τ
  | [] => .error .valueError
  | x :: r => .ok (r.foldl max x)

/-- One iteration of the alignment loop of `generate_aligned_instants` (d_base.py 906-918):
keep `t` if it is a time stamp, else take the first time stamp after it, else the last one
(`instants[-1]`: `IndexError` when there is no time stamp at all). -/
def alignInstant (stamps : List τ) (t : τ) : Except PyErr τ :=
  if t ∈ stamps then .ok t
  else
    let possible := stamps.filter (fun s => decide (t < s))
    if 0 < possible.length then pyGet possible 0 else pyGet stamps (-1)

/-- Alignment of the list of events of one node (d_base.py 906-918). -/
def alignInstants (stamps : List τ) (ev : List τ) : Except PyErr (List τ) :=
  ev.mapM (alignInstant stamps)

/-- `instants[L::L]` (d_base.py 751, 840). A zero step raises `ValueError`. -/
def possibleBc (stamps : List τ) (L : Nat) : Except PyErr (List τ) :=
  if L = 0 then .error .valueError
  else .ok (stamps.zipIdx.filterMap fun (x, i) =>
    if L ≤ i ∧ (i - L) % L = 0 then some x else none)

/-- Union of the neighbours' update instants (d_base.py 738-747, 827-836): each value is
appended if not already in the list, then `np.sort`. -/
def combinedUp (upInstants : List (List τ)) (neighbors : List Nat) : Except PyErr (List τ) := do
  let all ← neighbors.mapM fun (q : Nat) => pyGet upInstants (q : Int)
  .ok ((all.flatten.foldl (fun acc t => if t ∈ acc then acc else acc ++ [t]) []).mergeSort
    (fun a b => decide (a ≤ b)))

/-- One iteration of the alignment of efficient broadcast instants (d_base.py 752-762,
841-851): keep `t` if it is possible, else the last possible instant before it, else the first
possible one (`IndexError` if none). -/
def alignBc (possible : List τ) (t : τ) : Except PyErr τ :=
  if t ∈ possible then .ok t
  else
    let past := possible.filter (fun s => decide (s < t))
    if 0 < past.length then pyGet past (-1) else pyGet possible 0

/-- Efficient few-sample broadcast instants of one node (d_base.py 733-762, 822-851). -/
def efficientBc (stamps : List τ) (L : Nat) (upInstants : List (List τ)) (neighbors : List Nat) :
    Except PyErr (List τ) := do
  let comb ← combinedUp upInstants neighbors
  let possible ← possibleBc stamps L
  comb.mapM (alignBc possible)

/-- First element of `upInstantsUpdatingNode[upInstantsUpdatingNode > currInstant]`
(d_base.py 945-947). -/
def nextInstant (u : List τ) (curr : τ) : Except PyErr τ :=
  pyGet (u.filter (fun t => decide (curr < t))) 0

theorem pyGet_zero_mem {l : List τ} {x : τ} (h : pyGet l 0 = .ok x) : x ∈ l := by
  unfold pyGet at h
  cases l with
  | nil => simp at h
  | cons a r => simp at h; simp [h]

theorem nextInstant_mem {u : List τ} {curr t : τ} (h : nextInstant u curr = .ok t) :
    t ∈ u ∧ curr < t := by
  have := pyGet_zero_mem h
  simpa using this

/-- The `while` loop of `get_sequential_update_instants` (d_base.py 943-954). `cur` is
`currInstant`, `node` is `updatingNodeIdx`; returns the instants and the node indices appended by
the remaining iterations. -/
def seqUpLoop (ups : List (List τ)) (curr : τ) (node : Nat) : Except PyErr (List τ × List Nat) :=
  if hlt : node < ups.length then
    match npAmax ups[node] with
    | .error e => .error e
    | .ok m =>
      if curr < m then
        match hn : nextInstant ups[node] curr with
        | .error e => .error e
        | .ok t =>
          if t < m then
            let node' := (node + 1) % ups.length
            match seqUpLoop ups t node' with
            | .error e => .error e
            | .ok (ts, ns) => .ok (t :: ts, node' :: ns)
          else
            match seqUpLoop ups t node with
            | .error e => .error e
            | .ok (ts, ns) => .ok (t :: ts, ns)
      else .ok ([], [])
  else .error .indexError
termination_by (ups.flatten.filter fun x => decide (curr < x)).length
decreasing_by
  all_goals
    obtain ⟨hmem, hgt⟩ := nextInstant_mem hn
    have hm : t ∈ ups.flatten := List.mem_flatten.mpr ⟨_, List.getElem_mem hlt, hmem⟩
    have hsub : (ups.flatten.filter fun x => decide (t < x)) =
        ((ups.flatten.filter fun x => decide (curr < x)).filter fun x => decide (t < x)) := by
      rw [List.filter_filter]
      apply List.filter_congr
      intro x _
      by_cases h : t < x
      · simp [h, hgt.trans h]
      · simp [h]
    rw [hsub]
    apply List.length_filter_lt_length_iff_exists.mpr
    exact ⟨t, List.mem_filter.mpr ⟨hm, by simpa using hgt⟩, by simp⟩

/-- `get_sequential_update_instants` (d_base.py 923-959). `zero` is the initial
`currInstant = 0`. -/
def getSeqUp (ups : List (List τ)) (zero : τ) (start : Nat) : Except PyErr (List τ × List Nat) :=
  match seqUpLoop ups zero start with
  | .error e => .error e
  | .ok (ts, ns) => .ok (ts, start :: ns)

/-- NumPy boolean-mask indexing `x[idx == k]`: `IndexError` unless the mask has the length of
the array. -/
def maskEq (x : List τ) (idx : List Nat) (k : Nat) : Except PyErr (List τ) :=
  if x.length = idx.length then
    .ok ((x.zip idx).filterMap fun (t, j) => if j = k then some t else none)
  else .error .indexError

/-- Tree formation instants, arranged per node, and leaf-to-root orderings for sequential
TI-DANSE with re-rooting (d_base.py 680-698 and 780-803). `ordOf r` is the leaf-to-root ordering
of the tree rooted at `r` (`prune_wasn_to_tree(wasnObj, forcedRoot=r).leafToRootOrdering`).
`trInstants[0] = 0` raises `IndexError` when there is no sequential update instant. The cycled
list of orderings is `ordOf ((start + j) mod n)` at position `j`. -/
def prepTree (ups : List (List τ)) (zero : τ) (start : Nat) (ordOf : Nat → List Level) :
    Except PyErr (List (List τ) × List (List Level)) := do
  let (ts, ns) ← getSeqUp ups zero start
  match ts with
  | [] => .error .indexError
  | _ :: rest =>
    let tr := zero :: rest
    let arranged ← (List.range ups.length).mapM (maskEq tr ns)
    .ok (arranged, (List.range tr.length).map fun j => ordOf ((start + j) % ups.length))

end

/-- Nominal instants `np.arange(startIdx, int(nEventTotal)) * eventSep / fs` of
`generate_aligned_instants` (d_base.py 901-904), in exact arithmetic. `startIdx` may be
fractional (`DFTsize/broadcastLength`). -/
def nominalInstants (startIdx : ℚ) (nTotal : Int) (eventSep : Nat) (fs : ℚ) : List ℚ :=
  (List.range (⌈(nTotal : ℚ) - startIdx⌉).toNat).map fun (j : Nat) =>
    (startIdx + j) * eventSep / fs

/-- `generate_aligned_instants` for one node (d_base.py 892-920). -/
def generateAligned (startIdx : ℚ) (nTotal : Int) (eventSep : Nat) (fs : ℚ) (stamps : List ℚ) :
    Except PyErr (List ℚ) :=
  alignInstants stamps (nominalInstants startIdx nTotal eventSep fs)

/-- Update and broadcast instants of one node of a fully connected network with whole-chunk
broadcasts (`prep_evmat_build`, d_base.py 678-681, 805-826). `ttot` is the node's signal
duration. -/
def fcWholeChunkInstants (Ndft Ns : Nat) (fs ttot : ℚ) (stamps : List ℚ) :
    Except PyErr (List ℚ × List ℚ) := do
  let bc ← generateAligned ((Ndft : ℚ) / Ns) ⌊ttot * fs / Ns⌋ Ns fs stamps
  let up ← generateAligned (⌈(Ndft : ℚ) / Ns⌉ : ℚ) ⌊ttot * fs / Ns⌋ Ns fs stamps
  .ok (up, bc)

/-- The same with (non-efficient) few-sample broadcasts of length `L` (d_base.py 678-681,
831-838, 864-872). -/
def fcFewSamplesInstants (Ndft Ns L : Nat) (fs ttot : ℚ) (stamps : List ℚ) :
    Except PyErr (List ℚ × List ℚ) := do
  let up ← generateAligned (⌈(Ndft : ℚ) / Ns⌉ : ℚ) ⌊ttot * fs / Ns⌋ Ns fs stamps
  let bc ← generateAligned 1 ⌊ttot * fs / L⌋ L fs stamps
  .ok (up, bc)

end Danse
