import Verif.Model.Py
import Mathlib.Data.Matrix.Mul
import Mathlib.LinearAlgebra.Matrix.ConjTranspose
import Mathlib.Algebra.Star.Basic
import Mathlib.Algebra.Field.Basic
import Mathlib.Data.Fintype.Card

/-!
# Spatial covariance matrices and the start of filter updating at one node

`F` indexes the frequency bins, `n` the channels of the observation vector, `W` is the type of a
filter (all bins). One node is modelled; nodes do not share this state.
-/

namespace Danse
section
variable {F n K : Type} [Fintype n] [Field K] [StarRing K]

/-- One frame of an observation vector (nFreqs x nChannels). -/
abbrev Frame (F n K : Type) := F → n → K

/-- Covariance matrices, all bins. -/
abbrev Cov (F n K : Type) := F → Matrix n n K

/-- `1 / y.shape[1] * np.einsum('ij,ik->ijk', y, y.conj())` (d_classes.py 2086). -/
def outerMean (y : Frame F n K) : Cov F n K := fun f =>
  (1 / (Fintype.card n : K)) • Matrix.of fun j k => y f j * star (y f k)

/-- `_update_covmats_online` (d_classes.py 2058-2091): returns (Ryy, Rnn, yyH). -/
def updateCovOnline (beta : K) (Ryy Rnn : Cov F n K) (y : Frame F n K) (vad : Bool) :
    Cov F n K × Cov F n K × Cov F n K :=
  let yyH := outerMean y
  if vad then (fun f => beta • Ryy f + (1 - beta) • yyH f, Rnn, yyH)
  else (Ryy, fun f => beta • Rnn f + (1 - beta) • yyH f, yyH)

/-- Covariance matrices of one kind ('danse', 'local', 'centr' or 'ssbc') and the node's counters
`numUpdatesRyy`, `numUpdatesRnn`. -/
structure Scm (F n K : Type) where
  ryy : Cov F n K
  rnn : Cov F n K
  numRyy : Nat
  numRnn : Nat

/-- `conditional_scm_updating` (d_classes.py 2203-2267) for one kind of matrices. -/
def conditionalScm (use1st : Bool) (vad : Bool) (curr : Cov F n K × Cov F n K × Cov F n K)
    (s : Scm F n K) : Scm F n K :=
  if use1st then
    { s with
      ryy := if s.numRyy = 1 ∧ vad = true then curr.2.2
        else if s.numRyy > 1 then curr.1 else s.ryy
      rnn := if s.numRnn = 1 ∧ vad = false then curr.2.2
        else if s.numRnn > 1 then curr.2.1 else s.rnn }
  else { s with ryy := curr.1, rnn := curr.2.1 }

/-- `spatial_covariance_matrix_update` (d_classes.py 2093-2201), online mode, for one kind of
matrices. The counters follow the node's own VAD decision `vadNode` (2097-2100) for every kind;
the matrices follow `vadUse`, which is the same flag except for the centralised estimate
(`centrVADframes`, 2166-2175). -/
def scmUpdate (use1st : Bool) (beta : K) (s : Scm F n K) (y : Frame F n K) (vadNode vadUse : Bool) :
    Scm F n K :=
  let s1 := if vadNode then { s with numRyy := s.numRyy + 1 } else { s with numRnn := s.numRnn + 1 }
  conditionalScm use1st vadUse (updateCovOnline beta s1.ryy s1.rnn y vadUse) s1

/-- A sequence of updates of one kind of matrices: frame, node's VAD flag, flag used. For the kinds
'danse', 'local' and 'ssbc' the two flags are the same, for 'centr' the second one is the
centralised VAD. -/
def scmRun (use1st : Bool) (beta : K) (s : Scm F n K) (l : List (Frame F n K × Bool × Bool)) :
    Scm F n K :=
  l.foldl (fun s e => scmUpdate use1st beta s e.1 e.2.1 e.2.2) s

/-- Everything `check_covariance_matrices` and `perform_update` need to know about a node. -/
structure NodeCfg (F n K W T : Type) where
  use1st : Bool
  beta : K
  /-- `covMatInitType == 'batch_estimates'` -/
  batchInit : Bool
  /-- `startUpdatesAfterAtLeast` -/
  startAfter : T
  /-- `_check_validity_gevd` / `_check_validity_nogevd` (numerical rank / definiteness tests) -/
  valid : Cov F n K → Cov F n K → Bool
  /-- `bypassUpdates` -/
  bypassAll : Bool
  /-- `update_w` / `update_w_gevd` -/
  upd : Cov F n K → Cov F n K → W

/-- The part of the node state concerned: covariance matrices, `startUpdates[k]`, the preallocated
filter array `wTilde[k]`, the iteration index `i[k]` and `nInternalFilterUps[k]`. -/
structure NodeSt (F n K W : Type) where
  scm : Scm F n K
  started : Bool
  w : Nat → W
  i : Nat
  nUps : Nat

variable {W T : Type} [LE T] [DecidableLE T]

/-- `check_covariance_matrices` (d_classes.py 1481-1498): the new `startUpdates[k]`. -/
def checkCov (c : NodeCfg F n K W T) (s : Scm F n K) (started : Bool) (t : T) : Bool :=
  if c.batchInit then true
  else if started = false ∧ c.startAfter ≤ t then
    if s.numRyy > Fintype.card n ∧ s.numRnn > Fintype.card n then
      if c.valid s.rnn s.ryy then true else started
    else started
  else started

/-- Part of `update_and_estimate` (d_classes.py 1292-1312 and 1327): covariance update, check,
`perform_update` (2290-2320) or copy of the filter, iteration count. -/
def nodeStep (c : NodeCfg F n K W T) (s : NodeSt F n K W) (y : Frame F n K) (vad : Bool) (t : T)
    (bypass : Bool) : NodeSt F n K W :=
  let scm := scmUpdate c.use1st c.beta s.scm y vad vad
  let started := checkCov c scm s.started t
  if bypass then
    { scm := scm, started := started, i := s.i + 1, nUps := s.nUps
      w := fun j => if j = s.i + 1 then s.w s.i else s.w j }
  else if c.bypassAll = false ∧ started = true then
    { scm := scm, started := started, i := s.i + 1, nUps := s.nUps + 1
      w := fun j => if j = s.i + 1 then c.upd scm.ryy scm.rnn else s.w j }
  else { scm := scm, started := started, i := s.i + 1, nUps := s.nUps, w := s.w }

/-- One update event of the node. -/
structure UpEv (F n K T : Type) where
  y : Frame F n K
  vad : Bool
  t : T
  bypass : Bool

/-- A run of update events. -/
def nodeRun (c : NodeCfg F n K W T) (s : NodeSt F n K W) (l : List (UpEv F n K T)) :
    NodeSt F n K W :=
  l.foldl (fun s e => nodeStep c s e.y e.vad e.t e.bypass) s

/-- `update_covmats_batch` (d_classes.py 3272-3304): frame lists instead of arrays; the VAD is cut
to the number of frames. A boolean mask shorter than the frame axis is an `IndexError`; the mean of
an empty selection is NaN in the code and 0 here (division by zero), see the hypotheses of C32. -/
def covBatch (frames : List (Frame F n K)) (vad : List Bool) :
    Except PyErr (Cov F n K × Cov F n K) :=
  let vad := if vad.length > frames.length then vad.take frames.length else vad
  if vad.length ≠ frames.length then .error .indexError
  else
    let outer : Frame F n K → Cov F n K := fun y f => Matrix.of fun j k => y f j * star (y f k)
    let mean (l : List (Frame F n K)) : Cov F n K := fun f =>
      (1 / (l.length : K)) • (l.map fun y => outer y f).sum
    .ok (mean (((frames.zip vad).filter fun p => p.2).map (·.1)),
         mean (((frames.zip vad).filter fun p => !p.2).map (·.1)))

/-! ### Initial values -/

/-- `init_covmats` (d_base.py 2417-2470) for one frequency bin; `rand` is the random array of the bin
(values in the complex square [-1,1] + i[-1,1]), an input of the model. Unknown type:
`UnboundLocalError`. -/
def initCov [DecidableEq n] (typ : String) (rand : Matrix n n K) (randScale eyeScale : K) :
    Except PyErr (Matrix n n K) :=
  if typ = "fully_random" then .ok (randScale • rand)
  else if typ = "eye_and_random" then .ok (eyeScale • (1 : Matrix n n K) + randScale • rand)
  else if typ = "eye" then .ok (eyeScale • (1 : Matrix n n K))
  else .error .unboundLocalError

/-- `init_complex_filter` (d_base.py 2367-2414), three-dimensional case: filter array over
iterations; `rand` is the random array (one value per bin, iteration and channel). -/
def initFilter [DecidableEq n] (typ : String) (refIdx : n) (fixed : K) (rand : Nat → Frame F n K) :
    Except PyErr (Nat → Frame F n K) :=
  if typ = "selectFirstSensor" then .ok fun _ _ c => if c = refIdx then 1 else 0
  else if typ = "random" then .ok rand
  else if typ = "fixedValue" then .ok fun _ _ _ => fixed
  else if typ = "selectFirstSensor_andFixedValue" then
    .ok fun _ _ c => if c = refIdx then 1 else fixed
  else .error .unboundLocalError

end
end Danse
