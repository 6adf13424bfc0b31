import Mathlib.Analysis.SpecialFunctions.Complex.Circle
import Mathlib.Analysis.SpecialFunctions.Complex.Arg
import Verif.Model.Py
import Verif.Model.Dft

/-!
# Model of the sampling-rate-offset pipeline of one DANSE node

Models `compensate_sros`, `update_sro_estimates`, `build_phase_shifts_for_srocomp`
(d_classes.py 1936-2046, 2364-2621) as they are called, in this order, by `update_and_estimate`
(d_classes.py 1252-1325), and `cohdrift_sro_estimation` (d_sros.py 19-95). Shifts are exact rationals
(in samples), spectra complex.
-/

namespace Danse

/-- SRO estimation methods (`estimateSROs`, and `cohDrift.loop` with `cohDrift.alphaEps`). -/
inductive SroMethod where
  | oracle
  | dxcp
  | closed (alphaEps : ℚ)
  | open
  deriving DecidableEq, Repr

/-- What the pipeline reads from the parameters and from the network. `k` is the node. -/
structure SroCfg where
  k : Nat
  Ns : Nat
  neighbors : List Nat
  nSensors : List Nat
  ppm : List ℚ
  nIter : Nat
  method : SroMethod
  startAfterNups : Nat
  estEvery : Nat
  compensate : Bool
  includeFSD : Bool
  centralised : Bool
  ssbc : Bool
  networkWide : Bool
  deriving Repr

/-- Number of sensors of the node itself. -/
def SroCfg.nLocal (c : SroCfg) : Nat := c.nSensors.getD c.k 0

/-- State (d_classes.py 594-601, 811): iteration index, accumulated phase shift factors, SRO
estimates (arrays of zeros with one row per iteration), iterations with a flag. -/
structure SroSt where
  i : Nat
  psf : List ℚ
  psfC : List ℚ
  est : Nat → Nat → ℚ
  estC : Nat → Nat → ℚ
  flagIts : List Nat

/-- Initial state (d_classes.py 596-601, 811): zeros. -/
def SroSt.init (c : SroCfg) : SroSt :=
  ⟨0, List.replicate (c.nLocal + c.neighbors.length) 0, List.replicate c.nSensors.sum 0,
    fun _ _ => 0, fun _ _ => 0, []⟩

/-- What happens at one update: the buffer flags (NaN is `none`), one per neighbour, and one per
node for the centralised estimate; the outputs of the coherence-drift estimator for each neighbour
and, in the centralised case, each node (used at scheduled iterations only). -/
structure SroIn where
  flags : List (Option ℚ)
  flagsC : List (Option ℚ)
  coh : Nat → ℚ
  cohC : Nat → ℚ

/-- What one update makes of the spectra: the shift (in samples) compensated in each channel, for
the DANSE and for the centralised observation; `none` when no compensation takes place. -/
structure SroOut where
  applied : Option (List ℚ)
  appliedC : Option (List ℚ)
  skip : Bool
  skipC : Option Bool
  deriving DecidableEq, Repr

/-- Slice assignment `l[a:b] = f(l[a:b])` with `0 ≤ a`, `0 ≤ b`. -/
def mapRange (l : List ℚ) (a b : Nat) (f : ℚ → ℚ) : List ℚ :=
  l.zipIdx.map fun (v, j) => if a ≤ j ∧ j < b then f v else v

/-- The loop over the neighbours (d_classes.py 1959-1974): extra shifts and skip flag. -/
def extraShifts (nLocal : Nat) (dim : Nat) (flags : List (Option ℚ)) : List ℚ × Bool :=
  flags.zipIdx.foldl (fun (acc : List ℚ × Bool) (f : Option ℚ × Nat) =>
    match f.1 with
    | some v => (acc.1.set (nLocal + f.2) v, acc.2)
    | none => (acc.1, true)) (List.replicate dim 0, false)

/-- The channels that the flag of node `q` is applied to (d_classes.py 2007-2013):
`nSensorsNeighborsCentr[k]` lists the sensor counts of the nodes other than `k`
(d_classes.py 486-489) but is indexed with `q`. -/
def flagRange (nSensors : List Nat) (k q : Nat) : Nat × Nat :=
  let nb := nSensors.eraseIdx k
  let a := (nb.take q).sum
  let b := (nb.take (q + 1)).sum
  (a, if b = a then b + 1 else b)

/-- The loop over all other nodes in the centralised case (d_classes.py 2001-2017). -/
def extraShiftsC (nSensors : List Nat) (k : Nat) (flagsC : List (Option ℚ)) : List ℚ × Bool :=
  flagsC.zipIdx.foldl (fun (acc : List ℚ × Bool) (f : Option ℚ × Nat) =>
    if f.2 = k then acc
    else match f.1 with
    | some v =>
      (mapRange acc.1 (flagRange nSensors k f.2).1 (flagRange nSensors k f.2).2 (fun _ => v), acc.2)
    | none => (acc.1, true)) (List.replicate nSensors.sum 0, false)

/-- The channels of node `q` in `build_phase_shifts_for_srocomp` (d_classes.py 2617-2618). -/
def nodeRange (nSensors : List Nat) (q : Nat) : Nat × Nat :=
  ((nSensors.take q).sum, (nSensors.take (q + 1)).sum)

/-- `compensate_sros` (d_classes.py 1936-2046), before any change to the spectra. -/
def SroSt.compensate (c : SroCfg) (s : SroSt) (x : SroIn) : Except PyErr (SroSt × SroOut) :=
  let e := extraShifts c.nLocal (c.nLocal + c.neighbors.length) x.flags
  let its := x.flags.filterMap fun f => if f.isSome ∧ f ≠ some 0 then some s.i else none
  let s1 := { s with flagIts := s.flagIts ++ its }
  let psf := if c.includeFSD then List.zipWith (· + ·) s1.psf e.1 else s1.psf
  let ec := extraShiftsC c.nSensors c.k x.flagsC
  let psfC := if c.includeFSD then List.zipWith (· + ·) s1.psfC ec.1 else s1.psfC
  if c.compensate ∧ c.k = 0 ∧ c.neighbors = [] then .error .unboundLocalError
  else if c.ssbc ∧ c.compensate then .error .notImplementedError
  else .ok (
    { s1 with psf := if c.compensate then psf else s1.psf,
              psfC := if c.compensate ∧ c.centralised then psfC else s1.psfC },
    ⟨if c.compensate then some psf else none,
      if c.compensate ∧ c.centralised then some psfC else none,
      e.2, if c.centralised then some ec.2 else none⟩)

/-- `self.i[k] in cohDriftSROupdateIndices` (d_classes.py 2398-2402, 2411), for `estEvery ≥ 1`
(`np.arange` rejects a step of 0). -/
def SroCfg.scheduled (c : SroCfg) (i : Nat) : Bool :=
  decide (c.startAfterNups + c.estEvery ≤ i ∧ i < c.nIter ∧
    (i - (c.startAfterNups + c.estEvery)) % c.estEvery = 0)

/-- Oracle SRO of node `q` relative to the own one (d_classes.py 2483, 2589-2590). -/
def SroCfg.oracleSro (c : SroCfg) (q : Nat) : ℚ := (c.ppm.getD q 0 - c.ppm.getD c.k 0) * (1 / 1000000)

/-- The residual of neighbour number `q` stored by `update_sro_estimates` (d_classes.py 2404-2486);
with `DXCPPhaT` it raises. -/
def SroCfg.residual (c : SroCfg) (i : Nat) (x : SroIn) (q : Nat) : ℚ :=
  match c.method with
  | .oracle => c.oracleSro (c.neighbors.getD q 0)
  | .dxcp => 0
  | _ => if c.scheduled i then x.coh q else 0

/-- The residual of node `q` in the centralised case (d_classes.py 2489-2560). -/
def SroCfg.residualC (c : SroCfg) (i : Nat) (x : SroIn) (q : Nat) : ℚ :=
  match c.method with
  | .oracle => c.oracleSro q
  | .dxcp => 0
  | _ => if c.scheduled i ∧ q ≠ c.k then x.cohC q else 0

/-- The new SRO estimate from the value `old` of the array entry and the residual
(d_classes.py 2573-2590, 2597-2613); `oracle` is the oracle value. -/
def newEstimate (m : SroMethod) (old res oracle : ℚ) : ℚ :=
  match m with
  | .oracle => oracle
  | .dxcp => old
  | .closed a => old + res / (1 + res) * a
  | .open => res / (1 + res)

/-- `update_sro_estimates` and `build_phase_shifts_for_srocomp` (d_classes.py 2364-2621). The second
is only called when compensating (d_classes.py 1320-1321). With a network-wide strategy the residual
array has one column (d_classes.py 581-583), which makes the assignment of one value per neighbour
raise unless there is exactly one neighbour. -/
def SroSt.estimate (c : SroCfg) (s : SroSt) (x : SroIn) : Except PyErr SroSt :=
  if c.method = .dxcp then .error .notImplementedError
  else if c.networkWide ∧ c.neighbors.length ≠ 1 then .error .valueError
  else if ¬ c.compensate then .ok s
  else
    let s1 := (List.range c.neighbors.length).foldl (fun (s : SroSt) q =>
      let e := newEstimate c.method (s.est s.i q) (c.residual s.i x q)
        (c.oracleSro (c.neighbors.getD q 0))
      { s with est := Function.update s.est s.i (Function.update (s.est s.i) q e),
               psf := mapRange s.psf (c.nLocal + q) (c.nLocal + q + 1) (fun v => v - e * c.Ns) }) s
    if ¬ c.centralised then .ok s1
    else .ok <| (List.range c.nSensors.length).foldl (fun (s : SroSt) q =>
      let e := newEstimate c.method (s.estC s.i q) (c.residualC s.i x q) (c.oracleSro q)
      { s with estC := Function.update s.estC s.i (Function.update (s.estC s.i) q e),
               psfC := mapRange s.psfC (nodeRange c.nSensors q).1 (nodeRange c.nSensors q).2
                 (fun v => v - e * c.Ns) }) s1

/-- The SRO part of one call of `update_and_estimate` (d_classes.py 1289, 1318-1325). An iteration
past the expected number raises (d_classes.py 598, row index). -/
def SroSt.step (c : SroCfg) (s : SroSt) (x : SroIn) : Except PyErr (SroSt × SroOut) := do
  if s.i ≥ c.nIter then .error .indexError
  else
    let (s1, o) ← s.compensate c x
    let s2 ← s1.estimate c x
    .ok ({ s2 with i := s2.i + 1 }, o)

/-- A sequence of updates of the node: final state and what was applied at each update. -/
def SroSt.run (c : SroCfg) (s : SroSt) : List SroIn → Except PyErr (SroSt × List SroOut)
  | [] => .ok (s, [])
  | x :: r => do
    let (s1, o) ← s.step c x
    let (s2, os) ← s1.run c r
    .ok (s2, o :: os)

/-- The phase shift factor of one bin (d_classes.py 1992-1995, 2034-2037). -/
noncomputable def phaseFactor (N κ : Nat) (shift : ℝ) : ℂ :=
  Complex.exp (-1 * Complex.I * 2 * Real.pi / N * (κ * shift))

/-- Application to one channel, `yTildeHat[:, i, c] *= psf[:, c]` (d_classes.py 1996, 2038). -/
noncomputable def applyShift (N : Nat) (shift : ℝ) (Y : List ℂ) : List ℂ :=
  Y.zipIdx.map fun (v, κ) => v * phaseFactor N κ shift

/-! ## Coherence drift (d_sros.py 19-95) -/

/-- Coherence of one bin of the instantaneous matrix `y y^H` (d_classes.py 2421-2430, 2437-2447). -/
noncomputable def coherence (y0 yq : ℂ) : ℂ :=
  y0 * star yq / ((Real.sqrt (‖y0‖ ^ 2 * ‖yq‖ ^ 2) : ℝ) : ℂ)

/-- The product of the coherences and its extension to negative frequencies (d_sros.py 66-72). -/
noncomputable def resProd (wPos wPri : List ℂ) : List ℂ :=
  let r := List.zipWith (fun a b => a * star b) wPos wPri
  r.dropLast ++ (r.map star).reverse.dropLast

/-- Rotation that accounts for the buffer flags (d_sros.py 73-75). -/
noncomputable def flagRotate (d : ℝ) (r : List ℂ) : List ℂ :=
  r.zipIdx.map fun (v, n) =>
    v * Complex.exp (Complex.I * 2 * Real.pi / r.length * n * d)

/-- Exponential average (d_sros.py 77-82). -/
noncomputable def cohAverage (alpha : ℝ) (first : Bool) (avg r : List ℂ) : List ℂ :=
  if first then r
  else List.zipWith (fun a v => (alpha : ℂ) * a + ((1 - alpha : ℝ) : ℂ) * v) avg r

/-- Least-squares estimate over frequency bins (d_sros.py 88-93); `P = len(wPri)`. Division by zero
(a single bin, or `ld * Ns = 0`) gives NaN. -/
noncomputable def lsEstimate (ld Ns P : Nat) (avg : List ℂ) : Except PyErr ℝ :=
  let b := fun (κ : Nat) => Real.pi * κ * (ld * Ns) / (P * 2)
  let ang := (pySlice avg (-(P : Int)) avg.length).map Complex.arg
  let den := (∑ κ ∈ Finset.range P, b κ * b κ)
  if den = 0 then .error .nan
  else .ok (-(∑ κ ∈ Finset.range P, b κ * ang.getD κ 0) / den)

/-- Golden-section estimate (d_sros.py 84-86); `search` is the third-party `max_time_lag_search`. -/
noncomputable def gsEstimate (search : List ℂ → ℝ) (ld Ns : Nat) (avg : List ℂ) : ℝ :=
  -(search avg) / (ld * Ns)

end Danse
