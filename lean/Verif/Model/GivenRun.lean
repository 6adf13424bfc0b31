import Mathlib.Algebra.Order.Ring.Rat
import Verif.Model.Buffers
import Verif.Model.Compress
import Verif.Model.Frames

/-!
# Model of a DANSE run with given filters

`generate_signals_for_snr_computation` (`danse_toolbox/d_core.py` 550-599) runs `danse` again on the
noise-only and on the speech-only sensor signals (d_classes.py 890-897), with the filters of the
previous run (`update_using_pregiven_filters`, d_classes.py 1338-1354). This is the model of that
run: the main loop of `danse` (d_core.py 66-92), `broadcast` (d_classes.py 1043-1128) and
`update_and_estimate` (1252-1330) with the compression, buffer and synthesis functions modelled in
`Compress`, `Buffers` and `Frames`.

Signals are lists of channels. `rot` stands for the factors that `compensate_sros` multiplies the
spectra with; they are the same in every run when they come from the buffer flags and oracle SROs
(C54, C55). The centralised and single-sensor estimates, computed next to the others, are in
`CentrRun`. Not modelled: running past the allocated number of iterations.
-/

namespace Danse

/-- `broadcastType`, with `broadcastLength` and `efficientSpSBC` for `fewSamples`. -/
inductive BcType where
  | whole
  | few (L : Nat) (efficient : Bool)
  deriving DecidableEq, Repr

section
variable {K : Type} [Field K] [StarRing K] [DecidableEq K]

/-- What the run reads from the parameters, the network and the given filters. `wInt k i`,
`wExt k i`, `wLoc k i` are the rows `wTilde[k][:, i, :]`, `wTildeExt[k][:, i, :]` and
`wLocal[k][:, i, :]`, one list of bins per channel (row 0 comes from `init_complex_filter`, which is
deterministic, d_base.py 2367-2414). -/
structure GivenCfg (K : Type) where
  N : Nat
  Ns : Nat
  ζ : K
  c : K
  h : List K
  f : List K
  nb : Nat → List Nat
  fs : Nat → ℚ
  stamps : Nat → List ℚ
  bc : BcType
  upTDEvery : ℚ
  noFusion : Bool
  conv : Bool
  refSensor : Nat
  wInt : Nat → Nat → List (List K)
  wExt : Nat → Nat → List (List K)
  wLoc : Nat → Nat → List (List K)
  rot : Nat → Nat → Nat → Nat → K

/-- `broadcastType` as it is passed to `local_chunk_for_update` (d_classes.py 1908-1913). -/
def BcType.name : BcType → String
  | .whole => "wholeChunk"
  | .few _ _ => "fewSamples"

/-- Run state: buffers and frames, last compressed chunk, time-domain broadcast filters with the
instant of their last update, last broadcast instant, desired signal estimates. -/
structure GivenSt (K : Type) where
  net : NetSt K
  zLocal : Nat → List K
  wIR : Nat → List (List K)
  lastUp : Nat → ℚ
  lastBc : Nat → ℚ
  d : Nat → List K
  dLoc : Nat → List K

/-- Initial state (d_classes.py 659-663, 780-785, 796-801, 829-831): `M k` sensors at node `k`,
`T` samples of output. -/
def GivenSt.init (N refSensor T : Nat) (M : Nat → Nat) : GivenSt K :=
  { net := NetSt.init
    zLocal := fun _ => []
    wIR := fun k => (List.range (M k)).map fun m =>
      if m = refSensor then (List.range (2 * N - 1)).map fun p => if p = N then 1 else 0
      else List.replicate (2 * N - 1) 0
    lastUp := fun _ => 0
    lastBc := fun _ => 0
    d := fun _ => List.replicate T 0
    dLoc := fun _ => List.replicate T 0 }

/-- Number of samples broadcast in `fewSamples` mode (d_classes.py 1103-1108). -/
def GivenCfg.currL (g : GivenCfg K) (s : GivenSt K) (L : Nat) (eff : Bool) (t : ℚ) (k : Nat) :
    Except PyErr Nat :=
  if eff then bufferSizeEff (g.stamps k) (s.lastBc k) t L else .ok L

/-- The time-domain broadcast filter used (d_classes.py 1094-1101, d_base.py 1910-1918); `M` is the
number of sensors of the node. -/
def GivenCfg.bcFilter (g : GivenCfg K) (s : GivenSt K) (M : Nat) (t : ℚ) (k : Nat) :
    Except PyErr (List (List K)) :=
  if |t - s.lastUp k| ≥ g.upTDEvery ∧ ¬ (g.noFusion ∧ M = 1) then
    distFct g.ζ g.N (g.wExt k (s.net.it k)) g.h g.f (g.Ns : K)
  else .ok (s.wIR k)

/-- `broadcast` (d_classes.py 1043-1128). A frame that is too short (its end is past the end of the
signals) leaves `nSamplesToBC` unbound. -/
def GivenCfg.broadcast (g : GivenCfg K) (y : Nat → List (List K)) (s : GivenSt K) (t : ℚ) (k : Nat) :
    Except PyErr (GivenSt K) := do
  let fr ← (y k).mapM fun ch => chunkForBroadcast ch t (g.fs k) g.N
  if fr.any (fun x => x.1.length < g.N) then .error .unboundLocalError
  else match g.bc with
  | .whole => do
    let z ← wholeChunk g.ζ g.N g.Ns g.c g.h g.f (fr.map (·.1)) (g.wExt k (s.net.it k)) (s.zLocal k)
    let net ← netStep g.nb g.N g.Ns s.net (.bc k (chunkOf z g.Ns))
    .ok { s with net := net, zLocal := Function.update s.zLocal k z }
  | .few L eff => do
    let l ← g.currL s L eff t k
    let wIR ← g.bcFilter s (y k).length t k
    let z ← fewSamples l (2 * g.N - 1) wIR (fr.map (·.1))
    let net ← netStep g.nb g.N g.Ns s.net (.bc k (chunkOf z (-(l : Int))))
    .ok { s with
      net := net
      zLocal := Function.update s.zLocal k z
      wIR := Function.update s.wIR k wIR
      lastUp := if |t - s.lastUp k| ≥ g.upTDEvery then Function.update s.lastUp k t else s.lastUp
      lastBc := if eff then Function.update s.lastBc k t else s.lastBc }

/-- `d[idxEnd - Ns:idxEnd] = chunk` (d_classes.py 2652): raises `ValueError` unless the slice holds
exactly `len(chunk)` samples (a slice that starts before the first sample is empty). -/
def setSlice (d : List K) (b e : Int) (chunk : List K) : Except PyErr (List K) :=
  if 0 ≤ b ∧ e ≤ d.length ∧ e - b = chunk.length then
    .ok (d.zipIdx.map fun (x, j) => if b ≤ j ∧ (j : Int) < e then at0 chunk (j - b.toNat) else x)
  else .error .valueError

/-- `get_desired_sig_chunk` and its use (d_base.py 2027-2100, d_classes.py 2623-2655) for one
output signal: `yHat` are the spectra, `yTD` the time-domain channels (only the local ones are
passed); `idxBeg`, `idxEnd` delimit the chunk of the output. -/
def GivenCfg.desired (g : GivenCfg K) (w yHat yTD : List (List K)) (d : List K) (idxBeg idxEnd : Int) :
    Except PyErr (List K) :=
  if g.conv then do
    let wIR ← distFct g.ζ g.N w g.f g.f (g.Ns : K)
    let ch ← desiredConv g.Ns (2 * g.N - 1) wIR yTD
    setSlice d (idxEnd - g.Ns) idxEnd ch
  else do
    let fr ← desiredFrame g.ζ g.N g.c g.f w yHat
    addFrame d (pySliceBound d.length idxBeg) (pySliceBound d.length idxEnd) fr

/-- Multiplication of the spectra with the phase factors of `compensate_sros` (d_classes.py 1996). -/
def GivenCfg.rotate (g : GivenCfg K) (k i : Nat) (yHat : List (List K)) : List (List K) :=
  yHat.zipIdx.map fun (ch, m) => ch.zipIdx.map fun (v, κ) => v * g.rot k i m κ

/-- First and last sample index of the chunk for the update (d_base.py 1463-1468, 1479), on which the
frame of the output is placed as well (d_classes.py 1916-1920, 2641-2652). -/
def GivenCfg.updRange (g : GivenCfg K) (t : ℚ) (k : Nat) : Int × Int :=
  let e := match g.bc with
    | .whole => ⌊t * g.fs k⌋ - ((g.N : Int) - g.Ns)
    | .few _ _ => ⌊t * g.fs k⌋
  (max (e - g.N) 0, e)

/-- `update_and_estimate` with given filters (d_classes.py 1252-1330 with 1338-1354, 1893-1934,
2623-2690). The observation matrix has `N` rows: a local frame or buffer of another length raises
`ValueError`. -/
def GivenCfg.update (g : GivenCfg K) (y : Nat → List (List K)) (s : GivenSt K) (t : ℚ) (k : Nat) :
    Except PyErr (GivenSt K) := do
  let net ← netStep g.nb g.N g.Ns s.net (.up k)
  let loc ← (y k).mapM fun ch => chunkForUpdate ch t (g.fs k) g.bc.name g.N g.Ns
  if loc.any (fun x => x.1.length ≠ g.N) then .error .valueError
  else do
    let i := s.net.it k
    let yL := loc.map (·.1)
    let yT := yL ++ net.z k
    let yHat := g.rotate k i (yT.map (analysis g.ζ g.N g.c g.h))
    let yHatL := yL.map (analysis g.ζ g.N g.c g.h)
    let r := g.updRange t k
    let d ← g.desired (g.wInt k (i + 1)) yHat (yT.take (y k).length) (s.d k) r.1 r.2
    let dL ← g.desired (g.wLoc k (i + 1)) yHatL yL (s.dLoc k) r.1 r.2
    .ok { s with
      net := net
      d := Function.update s.d k d
      dLoc := Function.update s.dLoc k dL }

/-- One event of the main loop of `danse` (d_core.py 75-92). -/
def GivenCfg.step (g : GivenCfg K) (y : Nat → List (List K)) (s : GivenSt K) (ev : ℚ × Nat × EvType) :
    Except PyErr (GivenSt K) :=
  match ev.2.2 with
  | .bc => g.broadcast y s ev.1 ev.2.1
  | .up => g.update y s ev.1 ev.2.1
  | _ => .error .valueError

/-- The main loop over all the events of a schedule, in order (d_core.py 66-92). -/
def GivenCfg.run (g : GivenCfg K) (y : Nat → List (List K)) (s : GivenSt K)
    (evs : List (ℚ × Nat × EvType)) : Except PyErr (GivenSt K) :=
  evs.foldlM (g.step y) s

/-- The filters that an update of a node writes in row `i + 1` of `wTilde[k]`, `wTildeExt[k]` and
`wLocal[k]` (d_classes.py 1297-1313): whatever `perform_update` and `update_external_filters`
compute from the history, or the values that were there before when they write nothing. -/
structure Rows (K : Type) where
  int : List (List K)
  ext : List (List K)
  loc : List (List K)

/-- Row `i` of the filters of node `k` is written. -/
def GivenCfg.record (g : GivenCfg K) (k i : Nat) (r : Rows K) : GivenCfg K :=
  { g with
    wInt := Function.update g.wInt k (Function.update (g.wInt k) i r.int)
    wExt := Function.update g.wExt k (Function.update (g.wExt k) i r.ext)
    wLoc := Function.update g.wLoc k (Function.update (g.wLoc k) i r.loc) }

/-- One event of a run that computes its filters itself (d_classes.py 1290-1324): an update first
writes row `i + 1` of the filters and then uses it. How the filters are computed is left open: they
come with the event. -/
def GivenCfg.freeStep (y : Nat → List (List K)) (p : GivenCfg K × GivenSt K)
    (ev : (ℚ × Nat × EvType) × Rows K) : Except PyErr (GivenCfg K × GivenSt K) :=
  match ev.1.2.2 with
  | .up => do
    let g := p.1.record ev.1.2.1 (p.2.net.it ev.1.2.1 + 1) ev.2
    let s ← g.step y p.2 ev.1
    .ok (g, s)
  | _ => do
    let s ← p.1.step y p.2 ev.1
    .ok (p.1, s)

/-- A run that computes its filters itself; the result contains the filters (`dv.wTilde`,
`dv.wTildeExt`, `dv.wLocal`). -/
def GivenCfg.freeRun (y : Nat → List (List K)) (p : GivenCfg K × GivenSt K)
    (evs : List ((ℚ × Nat × EvType) × Rows K)) : Except PyErr (GivenCfg K × GivenSt K) :=
  evs.foldlM (GivenCfg.freeStep y) p

/-- The events of a schedule in the order in which `danse` processes them (d_core.py 66-76). -/
def flatEvents (out : List (Instant ℚ)) : List (ℚ × Nat × EvType) :=
  out.flatMap fun i => i.evs.map fun e => (i.t, e.node, e.ty)

end
end Danse
