import Verif.Model.Sro

/-!
# The coherence-drift estimator of one neighbour over a run

`update_sro_estimates` with `estimateSROs == 'CohDrift'` (d_classes.py 2364-2467) and the rows of `yyH`,
`yyHuncomp` and `bufferFlags` that it reads (d_classes.py 593, 762-775, 1801, 1977-1981, 2111). NaN is
`none`. Of the matrices `y y^H` only the entries of the first channel and of the neighbour's channel
matter; the factor `1 / nChannels` of `yyH` (d_classes.py 2086) cancels in the coherence. All numbers
are exact.
-/

namespace Danse

/-- What the estimator reads from the parameters. -/
structure CohCfg where
  /-- number of bins, `nPosFreqs` -/
  P : Nat
  Ns : Nat
  /-- `cohDrift.segLength` -/
  ld : Nat
  startAfterNups : Nat
  estEvery : Nat
  nIter : Nat
  broadcastLength : Nat
  alpha : ℝ
  /-- `cohDrift.loop == 'closed'` (otherwise 'open') -/
  closed : Bool
  /-- `preGivenFilters.active`: the covariance update, and with it the row of `yyH`, is left out
  (d_classes.py 1292-1297) -/
  given : Bool
  /-- `estimationMethod`: 'ls', or 'gs' with the third-party search -/
  search : Option (List (Option ℂ) → ℝ)

/-- One update: spectra of the first own channel and of the neighbour's channel, before and after
compensation, and the buffer flag of the neighbour. -/
structure CohIn where
  ref : Nat → ℂ
  unc : Nat → ℂ
  cmp : Nat → ℂ
  flag : Int

/-- Iteration index, rows of the two kinds of correlation matrices, flags, averaged product. -/
structure CohSt where
  i : Nat
  rowsC : List (Nat → ℂ × ℂ)
  rowsU : List (Nat → ℂ × ℂ)
  flags : List Int
  avg : List (Option ℂ)

/-- Arrays of zeros (d_classes.py 584-587, 593, 762-775). -/
def CohSt.init (c : CohCfg) : CohSt :=
  ⟨0, List.replicate c.nIter fun _ => (0, 0), List.replicate c.nIter fun _ => (0, 0),
    List.replicate c.nIter 0, List.replicate (2 * (c.P - 1)) (some 0)⟩

/-- Coherence of one bin (d_classes.py 2427-2450): 0/0 if one of the spectra is zero. -/
noncomputable def cohCell (p : ℂ × ℂ) : Option ℂ :=
  open Classical in if p.1 = 0 ∨ p.2 = 0 then none else some (coherence p.1 p.2)

/-- All bins of one row. -/
noncomputable def cohRow (P : Nat) (row : Nat → ℂ × ℂ) : List (Option ℂ) :=
  (List.range P).map fun κ => cohCell (row κ)

/-- `res_prod` (d_sros.py 66-72) with NaN; see `resProd`. -/
noncomputable def resProdN (wPos wPri : List (Option ℂ)) : List (Option ℂ) :=
  let r := List.zipWith (fun a b => a.bind fun a => b.map fun b => a * star b) wPos wPri
  r.dropLast ++ (r.map (Option.map star)).reverse.dropLast

/-- Rotation by the buffer flags (d_sros.py 73-75) with NaN; see `flagRotate`. -/
noncomputable def flagRotateN (d : ℝ) (r : List (Option ℂ)) : List (Option ℂ) :=
  r.zipIdx.map fun (v, n) =>
    v.map fun v => v * Complex.exp (Complex.I * 2 * Real.pi / r.length * n * d)

/-- Exponential average (d_sros.py 77-82) with NaN; see `cohAverage`. -/
noncomputable def cohAverageN (alpha : ℝ) (first : Bool) (avg r : List (Option ℂ)) : List (Option ℂ) :=
  if first then r
  else List.zipWith (fun a v => a.bind fun a => v.map fun v =>
    (alpha : ℂ) * a + ((1 - alpha : ℝ) : ℂ) * v) avg r

/-- `sro_est` (d_sros.py 84-93) with NaN: the least-squares estimate is NaN if one of the last `P` bins is. -/
noncomputable def cohEstimate (c : CohCfg) (avg : List (Option ℂ)) : Option ℝ :=
  match c.search with
  | some search => some (-(search avg) / (c.ld * c.Ns))
  | none =>
    if (pySlice avg (-(c.P : Int)) avg.length).all Option.isSome then
      (lsEstimate c.ld c.Ns c.P (avg.map fun v => v.getD 0)).toOption
    else none

/-- `self.i[k] in cohDriftSROupdateIndices` (d_classes.py 2398-2402, 2411). -/
def CohCfg.scheduled (c : CohCfg) (i : Nat) : Bool :=
  decide (c.startAfterNups + c.estEvery ≤ i ∧ i < c.nIter ∧
    (i - (c.startAfterNups + c.estEvery)) % c.estEvery = 0)

/-- `bufferFlagPos - bufferFlagPri` (d_classes.py 2376-2383, 2437-2438). -/
def CohCfg.flagDiff (c : CohCfg) (i : Nat) (flags : List Int) : Int :=
  if c.closed then 0
  else c.broadcastLength * (pySlice flags 0 ((i : Int) + 1)).sum -
    c.broadcastLength * (pySlice flags 0 ((i : Int) - c.ld + 1)).sum

/-- The product averaged at a scheduled update (d_classes.py 2421-2465, d_sros.py 66-82). The row
`i - segLength` is addressed without a check. -/
noncomputable def CohCfg.product (c : CohCfg) (i : Nat) (rowsC rowsU : List (Nat → ℂ × ℂ)) (flags : List Int) :
    Except PyErr (List (Option ℂ)) := do
  let pos ← pyGet (if c.closed then rowsC else rowsU) i
  let pri ← pyGet (if c.closed then rowsC else rowsU) ((i : Int) - c.ld)
  .ok (flagRotateN (c.flagDiff i flags) (resProdN (cohRow c.P pos) (cohRow c.P pri)))

/-- One update: the new state and the estimate (`none`: no estimate at this update; `some none`: NaN). -/
noncomputable def CohSt.step (c : CohCfg) (s : CohSt) (x : CohIn) :
    Except PyErr (CohSt × Option (Option ℝ)) :=
  if s.i ≥ c.nIter then .error .indexError
  else
    let rowsC := if c.given then s.rowsC else s.rowsC.set s.i fun κ => (x.ref κ, x.cmp κ)
    let rowsU := s.rowsU.set s.i fun κ => (x.ref κ, x.unc κ)
    let flags := s.flags.set s.i x.flag
    if c.scheduled s.i then do
      let r ← c.product s.i rowsC rowsU flags
      let avg := cohAverageN c.alpha (s.i == c.startAfterNups + c.estEvery) s.avg r
      .ok (⟨s.i + 1, rowsC, rowsU, flags, avg⟩, some (cohEstimate c avg))
    else .ok (⟨s.i + 1, rowsC, rowsU, flags, s.avg⟩, none)

/-- A sequence of updates: final state and the estimates. -/
noncomputable def CohSt.run (c : CohCfg) (s : CohSt) : List CohIn →
    Except PyErr (CohSt × List (Option (Option ℝ)))
  | [] => .ok (s, [])
  | x :: r => do
    let (s1, o) ← s.step c x
    let (s2, os) ← s1.run c r
    .ok (s2, o :: os)

end Danse
