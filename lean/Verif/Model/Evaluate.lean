import Verif.Model.Params

/-!
# Evaluation of a run

`get_metrics` (danse_toolbox/d_eval.py 70-375), `compute_metrics` (danse_toolbox/d_post.py 734-866) and
what the driver hands over to them (tests/sandbox.py 103-160, d_core.py 105-127, d_post.py 41-185).

The scores themselves are parameters (`EvalFns`): functions of the signals that are passed to them. See
`Model/Metrics.lean` (SNR, segmental SNR, dynamic metrics) and `Model/Stoi.lean`. Samples are of any type
`A`, scores of any type `V`. Printing is dropped.
-/

namespace Danse

/-- The score functions. `get_snr` is always called with `bypassVADuse = True` (d_eval.py 202), so it only
sees the two signals. -/
structure EvalFns (A V : Type) where
  /-- `get_snr(s, n, vad, True)` -/
  snr : List A → List A → Except PyErr V
  /-- `get_sisnr(s, n, vad, fs, True)` -/
  sisnr : ℚ → List A → List A → Except PyErr V
  /-- `np.mean(get_fwsnrseg(clean, test, fs, fLen, gamma))` -/
  fw : ℚ → ℚ → ℚ → List A → List A → Except PyErr V
  /-- `stoi_any_fs(clean, test, fs, extended=True)` -/
  stoi : ℚ → List A → List A → Except PyErr V
  /-- `pesq(fs, ref, deg, mode)`, wide-band or not -/
  pesq : ℚ → List A → List A → Bool → Except PyErr V

/-- `Metric` (d_eval.py 20-39). -/
structure MetricVal (V D : Type) where
  best : Option V := none
  before : V
  after : V
  diff : V
  afterLocal : V
  diffLocal : V
  afterCentr : V
  diffCentr : V
  afterSSBC : V
  diffSSBC : V
  dynamic : Option D := none
  deriving DecidableEq

/-- A new `Metric()`. -/
def MetricVal.new {V D : Type} [Zero V] : MetricVal V D :=
  { before := 0, after := 0, diff := 0, afterLocal := 0, diffLocal := 0, afterCentr := 0,
    diffCentr := 0, afterSSBC := 0, diffSSBC := 0 }

/-- The columns of one node in `bestPerfData` (d_post.py 163-183). -/
structure BestCol (A : Type) where
  dCentr : List A
  speech : List A
  noise : List A
  clean : List A
  fs : ℚ

/-- Functions for which a dynamic version exists (d_eval.py 336-345), in the order of the list. -/
inductive DynKind | snr | fw | stoi | pesq
  deriving DecidableEq

/-- The arguments of `get_metrics`. -/
structure EvalArgs (A : Type) where
  clean : List A
  noiseOnly : List A
  noisy : List A
  filtSpeech : List A
  filtNoise : List A
  filtSpeechC : Option (List A) := none
  filtNoiseC : Option (List A) := none
  filtSpeechL : Option (List A) := none
  filtNoiseL : Option (List A) := none
  filtSpeechS : Option (List A) := none
  filtNoiseS : Option (List A) := none
  enhan : Option (List A) := none
  enhanC : Option (List A) := none
  enhanL : Option (List A) := none
  enhanS : Option (List A) := none
  fs : ℚ := 16000
  vad : Option (List Bool) := none
  /-- the flags of `dynamic`; `none` if it is `None` -/
  dynamic : Option (DynKind → Bool) := none
  startIdx : Int := 0
  endIdx : Option Int := none
  gamma : ℚ := 1 / 5
  fLen : ℚ := 3 / 100
  wanted : List String := ["snr", "stoi"]
  best : Option (BestCol A) := none

/-- The metrics that are bound so far; at the end, the returned dictionary. -/
structure MetricsDict (V D : Type) where
  snr : Option (MetricVal V D) := none
  sisnr : Option (MetricVal V D) := none
  fw : Option (MetricVal V D) := none
  stoi : Option (MetricVal V D) := none
  pesq : Option (MetricVal V D) := none

variable {A V D : Type}

/-- Sum of two arrays; NumPy repeats an array of one sample, and rejects other differing lengths. -/
def addArrays [Add A] (x y : List A) : Except PyErr (List A) :=
  if x.length = y.length then .ok (List.zipWith (· + ·) x y)
  else match x, y with
    | [a], _ => .ok (y.map (a + ·))
    | _, [b] => .ok (x.map (· + b))
    | _, _ => .error .valueError

/-- Cutting a pair of filtered signals (d_eval.py 190-199): `None` for the noise cannot be cut. -/
def cutPair (cut : List A → List A) (s n : Option (List A)) :
    Except PyErr (Option (List A) × Option (List A)) :=
  match s with
  | none => .ok (none, n)
  | some x => match n with
    | none => .error .typeError
    | some y => .ok (some (cut x), some (cut y))

/-- A score of two signals of which either may be `None`, with the exception this raises. -/
def onBoth (e : PyErr) (f : List A → List A → Except PyErr V) (s n : Option (List A)) : Except PyErr V :=
  match s, n with
  | some x, some y => f x y
  | _, _ => .error e

/-- An optional score. -/
def sequenceOpt (x : Option (Except PyErr V)) : Except PyErr (Option V) :=
  match x with
  | none => .ok none
  | some x => x.map some

/-- One of the blocks of d_eval.py 203-265: score before, after, their difference, best. -/
def baseMetric [Zero V] [Sub V] (before after : Except PyErr V) (best : Option (Except PyErr V)) :
    Except PyErr (MetricVal V D) := do
  let b ← before
  let a ← after
  let r ← sequenceOpt best
  .ok { MetricVal.new with before := b, after := a, diff := a - b, best := r }

/-- Run an action if a metric is wanted. -/
def whenWanted {T : Type} (w : Bool) (m : Except PyErr T) : Except PyErr (Option T) :=
  if w then m.map some else .ok none

/-- Store one more score (d_eval.py 293-328) in a metric that is wanted. -/
def addScore (on : Bool) (score : Except PyErr V) (set : MetricVal V D → V → MetricVal V D)
    (m : Option (MetricVal V D)) : Except PyErr (Option (MetricVal V D)) :=
  match m with
  | some x => if on then score.map fun v => some (set x v) else .ok (some x)
  | none => .ok none

/-- Attach the dynamic metric (d_eval.py 350-359); the name is unbound if the metric is not wanted. -/
def attachDyn (on : Bool) (v : D) (m : Option (MetricVal V D)) :
    Except PyErr (Option (MetricVal V D)) :=
  if on then match m with
    | some x => .ok (some { x with dynamic := some v })
    | none => .error .unboundLocalError
  else .ok m

/-- PESQ (d_eval.py 266-291), for sampling frequencies of 8 and 16 kHz only. -/
def pesqMetric [Zero V] [Sub V] (F : EvalFns A V) (fs : ℚ) (clean noisy enhan : List A)
    (enhanC enhanL enhanS filtSpeechS : Option (List A)) (best : Option (ℚ × List A)) :
    Except PyErr (MetricVal V D) :=
  if fs = 8000 ∨ fs = 16000 then do
    let wb := decide (fs = 16000)
    let b ← F.pesq fs clean noisy wb
    let a ← F.pesq fs clean enhan wb
    let c ← (enhanC.map fun x => F.pesq fs clean x wb).getD (.ok 0)
    let l ← (enhanL.map fun x => F.pesq fs clean x wb).getD (.ok 0)
    let s ← (enhanS.map fun x =>
      onBoth .typeError (fun r d => F.pesq fs r d wb) filtSpeechS (some x)).getD (.ok 0)
    let r ← sequenceOpt (best.map fun p => F.pesq p.1 clean p.2 wb)
    .ok { MetricVal.new with
      before := b, after := a, diff := a - b, afterCentr := c, afterLocal := l, afterSSBC := s, best := r }
  else .ok MetricVal.new

/-- One of the blocks d_eval.py 293-305, 306-318, 319-328: the scores of one more estimate. -/
def extraScores (F : EvalFns A V) (a : EvalArgs A) (clean : List A) (enhan s n : Option (List A))
    (set : MetricVal V D → V → MetricVal V D) (m : MetricsDict V D) : Except PyErr (MetricsDict V D) :=
  match enhan with
  | none => .ok m
  | some x => do
    let snr ← addScore true (onBoth .attributeError F.snr s n) set m.snr
    let sisnr ← addScore true (onBoth .valueError (F.sisnr a.fs) s n) set m.sisnr
    let fw ← addScore true (F.fw a.fs a.fLen a.gamma clean x) set m.fw
    let stoi ← addScore true (F.stoi a.fs clean x) set m.stoi
    .ok { m with snr := snr, sisnr := sisnr, fw := fw, stoi := stoi }

/-- The evaluated estimate (d_eval.py 176-189), and the use of the VAD, which must not be `None`. -/
def enhanOf [Add A] (a : EvalArgs A) (cut : List A → List A) : Except PyErr (List A) :=
  if (a.enhanC.isSome || a.enhanL.isSome || a.enhanS.isSome) && a.vad.isNone then .error .typeError
  else match a.enhan with
    | some x => if a.vad.isNone then .error .typeError else .ok (cut x)
    | none => do
      let x ← addArrays (cut a.filtSpeech) (cut a.filtNoise)
      if a.vad.isNone then .error .typeError else .ok x

/-- The dynamic metrics (d_eval.py 332-359). -/
def addDynamic (dyn : List DynKind → Except PyErr (DynKind → D)) (on : DynKind → Bool)
    (m : MetricsDict V D) : Except PyErr (MetricsDict V D) := do
  let r ← dyn ([DynKind.snr, .fw, .stoi, .pesq].filter on)
  let snr ← attachDyn (on .snr) (r .snr) m.snr
  let fw ← attachDyn (on .fw) (r .fw) m.fw
  let stoi ← attachDyn (on .stoi) (r .stoi) m.stoi
  let pesq ← attachDyn (on .pesq) (r .pesq) m.pesq
  .ok { m with snr := snr, fw := fw, stoi := stoi, pesq := pesq }

/-- `get_metrics` after the computation of the bounds (d_eval.py 168-375): `cut` is `[startIdx:endIdx]`,
`cutBest` is `[startIdx + bestPerfShift:endIdx - bestPerfShift]`. -/
def metricsOn [Add A] [Zero V] [Sub V] (F : EvalFns A V)
    (dyn : List DynKind → Except PyErr (DynKind → D)) (a : EvalArgs A) (cut cutBest : List A → List A) :
    Except PyErr (MetricsDict V D) := do
  let enhan ← enhanOf a cut
  let pC ← cutPair cut a.filtSpeechC a.filtNoiseC
  let pL ← cutPair cut a.filtSpeechL a.filtNoiseL
  let pS ← cutPair cut a.filtSpeechS a.filtNoiseS
  let clean := cut a.clean
  let noisy := cut a.noisy
  let eC := a.enhanC.map cut
  let eL := a.enhanL.map cut
  let eS := a.enhanS.map cut
  let snr ← whenWanted (a.wanted.contains "snr") (baseMetric (F.snr clean (cut a.noiseOnly))
    (F.snr (cut a.filtSpeech) (cut a.filtNoise))
    (a.best.map fun p => F.snr (cutBest p.speech) (cutBest p.noise)))
  let sisnr ← whenWanted (a.wanted.contains "sisnr") (baseMetric (F.sisnr a.fs clean (cut a.noiseOnly))
    (F.sisnr a.fs (cut a.filtSpeech) (cut a.filtNoise))
    (a.best.map fun p => F.sisnr p.fs (cutBest p.speech) (cutBest p.noise)))
  let fw ← whenWanted (a.wanted.contains "fwSNRseg") (baseMetric (F.fw a.fs a.fLen a.gamma clean noisy)
    (F.fw a.fs a.fLen a.gamma clean enhan)
    (a.best.map fun p => F.fw p.fs a.fLen a.gamma (cutBest p.clean) (cutBest p.dCentr)))
  let stoi ← whenWanted (a.wanted.contains "stoi" || a.wanted.contains "estoi")
    (baseMetric (F.stoi a.fs clean noisy) (F.stoi a.fs clean enhan)
      (a.best.map fun p => F.stoi p.fs (cutBest p.clean) (cutBest p.dCentr)))
  let pesq ← whenWanted (a.wanted.contains "pesq") (pesqMetric F a.fs clean noisy enhan eC eL eS pS.1
    (a.best.map fun p => (p.fs, cutBest p.dCentr)))
  let m : MetricsDict V D := { snr := snr, sisnr := sisnr, fw := fw, stoi := stoi, pesq := pesq }
  let m ← extraScores F a clean eC pC.1 pC.2 (fun x v => { x with afterCentr := v }) m
  let m ← extraScores F a clean eL pL.1 pL.2 (fun x v => { x with afterLocal := v }) m
  let m ← extraScores F a clean eS pS.1 pS.2 (fun x v => { x with afterSSBC := v }) m
  match a.dynamic with
  | none => .ok m
  | some on => addDynamic dyn on m

/-- `get_metrics` (d_eval.py 70-375). `dyn` computes the dynamic metrics of the listed functions
(`get_dynamic_metric`, see `Model/Metrics.lean`). -/
def getMetrics [Add A] [Zero V] [Sub V] (F : EvalFns A V)
    (dyn : List DynKind → Except PyErr (DynKind → D)) (a : EvalArgs A) : Except PyErr (MetricsDict V D) :=
  let e : Int := a.endIdx.getD a.clean.length
  let shift := pyInt (1 / 5 * a.fs)
  metricsOn F dyn a (fun x => pySlice x a.startIdx e)
    (fun x => pySlice x (a.startIdx + shift) (e - shift))

/-! ## All nodes -/

/-- What `compute_metrics` reads from a node. -/
structure EvalNode (A : Type) where
  metricStartTime : ℚ
  metricEndTime : ℚ
  fs : ℚ
  /-- `cleanspeechRefSensor`, `cleannoiseRefSensor` (the same number of samples) -/
  clean : List A
  noise : List A
  /-- `data[:, referenceSensor]` -/
  noisy : List A
  vad : List Bool

/-- Signals of all nodes of one kind of processing: the estimates, and the two filtered components. -/
structure EstSigs (K : Nat) (A : Type) where
  est : Fin K → List A
  /-- filtered speech and noise; `none` if the attributes are `None` (or missing, for DANSE itself) -/
  filt : Option ((Fin K → List A) × (Fin K → List A))

/-- What `compute_metrics` reads from the outputs of a run. The estimates of a kind of processing that was
not asked for are `none`. -/
structure EvalOut (K : Nat) (A : Type) where
  batch : Bool
  dftSize : Nat
  danse : EstSigs K A
  centr : Option (EstSigs K A)
  loc : Option (EstSigs K A)
  ssbc : Option (EstSigs K A)
  /-- attribute `bestPerfData`; `none` if it was never set -/
  best : Option (Fin K → BestCol A)
  dynamic : Option (DynKind → Bool)
  gamma : ℚ
  fLen : ℚ

/-- Columns of one kind of processing (d_post.py 786-800): indexing `None` raises `TypeError`. -/
def columns {K : Nat} (k : Fin K) (s : Option (EstSigs K A)) :
    Except PyErr (Option (List A × List A × List A)) :=
  match s with
  | none => .ok none
  | some s => match s.filt with
    | none => .error .typeError
    | some f => .ok (some (s.est k, f.1 k, f.2 k))

/-- First and last sample (d_post.py 777-778, 803-808). -/
def evalRange (batch : Bool) (dftSize : Nat) (nd : EvalNode A) : Int × Int :=
  let s := ⌊nd.metricStartTime * nd.fs⌋
  let e := ⌊nd.metricEndTime * nd.fs⌋
  (s, if batch && decide ((nd.clean.length : Int) - dftSize < e) then nd.clean.length - dftSize else e)

/-- The metrics of node `k` (d_post.py 775-841). -/
def nodeMetrics {K : Nat} [Add A] [Zero V] [Sub V] (F : EvalFns A V)
    (dyn : Fin K → List DynKind → Except PyErr (DynKind → D)) (out : EvalOut K A)
    (wasn : Fin K → EvalNode A) (wanted : List String) (k : Fin K) : Except PyErr (MetricsDict V D) := do
  let nd := wasn k
  let c ← columns k out.centr
  let l ← columns k out.loc
  let s ← columns k out.ssbc
  let r := evalRange out.batch out.dftSize nd
  match out.danse.filt with
  | none => .error .attributeError
  | some f => match out.best with
    | none => .error .attributeError
    | some b => getMetrics F (dyn k) {
        clean := nd.clean
        noiseOnly := nd.noise
        noisy := nd.noisy
        filtSpeech := f.1 k
        filtNoise := f.2 k
        filtSpeechC := c.map (·.2.1)
        filtNoiseC := c.map (·.2.2)
        filtSpeechL := l.map (·.2.1)
        filtNoiseL := l.map (·.2.2)
        filtSpeechS := s.map (·.2.1)
        filtNoiseS := s.map (·.2.2)
        enhan := some (out.danse.est k)
        enhanC := c.map (·.1)
        enhanL := l.map (·.1)
        enhanS := s.map (·.1)
        fs := nd.fs
        vad := some nd.vad
        dynamic := out.dynamic
        startIdx := r.1
        endIdx := some r.2
        gamma := out.gamma
        fLen := out.fLen
        wanted := wanted
        best := some (b k) }

/-- `compute_metrics` (d_post.py 734-866): node after node. -/
def computeMetrics {K : Nat} [Add A] [Zero V] [Sub V] (F : EvalFns A V)
    (dyn : Fin K → List DynKind → Except PyErr (DynKind → D)) (out : EvalOut K A)
    (wasn : Fin K → EvalNode A) (wanted : List String) : Except PyErr (List (MetricsDict V D)) :=
  (List.finRange K).mapM (nodeMetrics F dyn out wasn wanted)

/-- The estimates of a run (`d`, `dCentr`, `dLocal`, `dSSBC`; the last three are only looked at if they
were asked for). -/
structure RunSigs (K : Nat) (A : Type) where
  d : Fin K → List A
  dCentr : Fin K → List A
  dLocal : Fin K → List A
  dSSBC : Fin K → List A

/-- Settings that the driver looks at. -/
structure EvalSettings where
  batch : Bool
  dftSize : Nat
  computeCentralised : Bool
  computeLocal : Bool
  computeSSBC : Bool
  bestPerfReference : Bool
  dynamic : Option (DynKind → Bool)
  gamma : ℚ
  fLen : ℚ

/-- The outputs as the driver builds them (tests/sandbox.py 130-158): online, the run on the recordings,
the runs on the speech and the noise components with the same filters, and, if asked for, the best
performance are put together (d_core.py 105-127, d_post.py 41-183); in batch mode the outputs of the run
are used as they are. -/
def driverOut {K : Nat} (p : EvalSettings) (run speech noise : RunSigs K A) (best : Fin K → BestCol A) :
    EvalOut K A where
  batch := p.batch
  dftSize := p.dftSize
  danse := ⟨run.d, if p.batch then none else some (speech.d, noise.d)⟩
  centr := if p.computeCentralised then
    some ⟨run.dCentr, if p.batch then none else some (speech.dCentr, noise.dCentr)⟩ else none
  loc := if p.computeLocal then
    some ⟨run.dLocal, if p.batch then none else some (speech.dLocal, noise.dLocal)⟩ else none
  ssbc := if p.computeSSBC then
    some ⟨run.dSSBC, if p.batch then none else some (speech.dSSBC, noise.dSSBC)⟩ else none
  best := if !p.batch && p.bestPerfReference then some best else none
  dynamic := p.dynamic
  gamma := p.gamma
  fLen := p.fLen

end Danse
