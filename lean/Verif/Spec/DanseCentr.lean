import Verif.Model.DanseCentr
import Verif.Spec.Danse
import Verif.Spec.CentrRun
import Verif.Spec.Cost

/-!
# Specification: the filters of the centralised and single-sensor-broadcast estimates
-/

namespace Danse
section
variable {K : Type} [Field K] [StarRing K] [DecidableEq K]

/-- What node `k` heard of all the sensors of the network at its updates: spectra of the frames times the phase factors,
with the network-wide VAD decision, the time and the bypass decision of each update. -/
def CDanseCfg.heardC (C : CDanseCfg K) (k : Nat) (h : List (CObs K)) :
    List (UpEv (Fin C.D.nb) (Fin C.total) K ℚ) :=
  h.zipIdx.map fun (o, i) =>
    ⟨fun κ c => coef (o.yC.map (analysis C.D.g.ζ C.D.g.N C.D.g.c C.D.g.h)) κ c *
        C.rotC k ((h.take (i + 1)).map fun o => (o.t, o.flags)) c κ,
      C.cvad i, o.t, C.D.bypass k i⟩

/-- What node `k` heard of its own sensors and of one sensor of every other node. -/
def CDanseCfg.heardS (C : CDanseCfg K) (k : Nat) (h : List (CObs K)) :
    List (UpEv (Fin C.D.nb) (Fin (C.D.dim k)) K ℚ) :=
  h.zipIdx.map fun (o, i) =>
    ⟨fun κ c => coef (o.yS.map (analysis C.D.g.ζ C.D.g.N C.D.g.c C.D.g.h)) κ c, C.D.vad k i, o.t, C.D.bypass k i⟩

/-- Updating of the centralised filters has started at one of the events `l`: the time was not before the set start, node
`k` had itself seen more active and more inactive frames than there are sensors in the network, and the covariance
matrices passed the test. -/
def CDanseCfg.StartedC (C : CDanseCfg K) (k : Nat) (l : List (UpEv (Fin C.D.nb) (Fin C.total) K ℚ)) : Prop :=
  ∃ l1 e, l1 ++ [e] <+: l ∧ C.D.startAfter ≤ e.t ∧
    C.total < ((List.range (l1.length + 1)).filter fun i => C.D.vad k i).length ∧
    C.total < ((List.range (l1.length + 1)).filter fun i => !C.D.vad k i).length ∧
    C.D.valid C.total (C.D.scm k false (l1 ++ [e])) (C.D.scm k true (l1 ++ [e])) = true

/-- Centralised filter row `new` (list of channels) of the last of the events `l`, as `DanseCfg.RowOk`, for the reference
sensor of node `k` in its place among all the sensors. -/
def CDanseCfg.RowOkC (C : CDanseCfg K) (k : Nat) (l : List (UpEv (Fin C.D.nb) (Fin C.total) K ℚ)) (bypass : Bool)
    (prev init new : List (List K)) : Prop :=
  (new.length = C.total ∧ ∀ ch ∈ new, ch.length = C.D.nb) ∧
  (bypass = true → ∀ (κ : Fin C.D.nb) (c : Fin C.total), coef new κ c = coef prev κ c) ∧
  (bypass = false → C.D.bypassAll = true ∨ ¬ C.StartedC k l →
    ∀ (κ : Fin C.D.nb) (c : Fin C.total), coef new κ c = coef init κ c) ∧
  (bypass = false → C.D.bypassAll = false → C.StartedC k l →
    ∀ κ : Fin C.D.nb, C.D.rule C.total (C.D.scm k true l κ) (C.D.scm k false l κ)
      (((List.range k).map C.D.M).sum + C.D.g.refSensor) = .ok fun c => coef new κ c)

/-- The matrices of the centralised estimate are averages of the frames that the network-wide VAD selects: averaging
starts from the initial matrices, or the network-wide VAD is that of node `k` (otherwise see C23). -/
def CDanseCfg.SoundVad (C : CDanseCfg K) (k : Nat) : Prop := C.D.use1st = false ∨ ∀ i, C.cvad i = C.D.vad k i

/-- The other nodes. -/
def CDanseCfg.others (C : CDanseCfg K) (k : Nat) : List Nat := (List.range C.n).filter fun q => q ≠ k

/-- How far a frame ends before the sample of the update: with whole-chunk broadcasts, frames end `N - Ns` samples before
it. -/
def CDanseCfg.lag (C : CDanseCfg K) : Nat :=
  match C.D.g.bc with
  | .whole => C.D.g.N - C.D.g.Ns
  | .few _ _ => 0

/-- What a device that records the signals `x` hears at the updates of a synchronous run: frames of `N` samples of all of
them, aligned to the sample. -/
def CDanseCfg.recorded (C : CDanseCfg K) (x : List (List K)) (m : Nat) (vad bypass : Nat → Bool) (fs : ℚ) (n : Nat) :
    List (UpEv (Fin C.D.nb) (Fin m) K ℚ) :=
  let first := ⌈(C.D.g.N : ℚ) / C.D.g.Ns⌉₊
  (List.range ((n - 1) / C.D.g.Ns - first)).map fun (i : Nat) =>
    ⟨fun κ c => at0 (analysis C.D.g.ζ C.D.g.N C.D.g.c C.D.g.h
        (frameBefore C.D.g.N (x.getD c []) ((first + i) * C.D.g.Ns - C.lag))) κ,
      vad i, ((first + i : Nat) : ℚ) * C.D.g.Ns / fs, bypass i⟩

/-- The place of channel `c` of the single-sensor observation of node `k` among all the sensors of the network: its own
sensors, then the first sensor of every other node. -/
def CDanseCfg.place (C : CDanseCfg K) (k c : Nat) : Nat :=
  if c < C.D.M k then ((List.range k).map C.D.M).sum + c
  else ((List.range ((C.others k).getD (c - C.D.M k) 0)).map C.D.M).sum

/-- A synchronous network: all clocks run at `fs`, all signals have `n` samples, every node has a neighbour, `out` is the
schedule of the code; whole-chunk broadcasts, or efficient few-sample broadcasts of `L` samples where `L` divides `Ns`. -/
structure CDanseCfg.Sync (C : CDanseCfg K) (y : Nat → List (List K)) (fs : ℚ) (n : Nat) (nbs : List (List Nat))
    (out : List (Instant ℚ)) : Prop where
  hn : 0 < n
  hfs : 0 < fs
  infer : inferFs (clockStamps fs n) = .ok fs
  neighbours : ∀ nb ∈ nbs, nb ≠ [] ∧ ∀ q ∈ nb, q < nbs.length
  nodes : C.n = nbs.length
  clock : ∀ k, C.D.g.fs k = fs
  stamps : ∀ k, C.D.g.stamps k = clockStamps fs n
  bc : C.D.g.bc = .whole ∨ ∃ L, C.D.g.bc = .few L true ∧ L ∣ C.D.g.Ns ∧ L < n
  sensors : ∀ q, (y q).length = C.D.M q
  samples : ∀ q < C.n, ∀ x ∈ y q, x.length = n
  hN : 0 < C.D.g.N
  hNs : 0 < C.D.g.Ns
  dvd : C.D.g.Ns ∣ C.D.g.N
  sched : ∃ (seq sim : Bool) (ri : Nat) (first minF : Int) (fsInf : List ℚ), (sim = true → ri < nbs.length) ∧
    initEventsFC C.D.g.bc C.D.g.N C.D.g.Ns seq sim ri first minF (syncNodes fs n nbs) = .ok (out, fsInf)

end

/-- Estimated error of the filter `w` for reference channel `r`, as `DanseCfg.estErr`. -/
noncomputable def DanseCfg.estErrAt (D : DanseCfg ℂ) (r k : Nat) {m : Nat} (l : List (UpEv (Fin D.nb) (Fin m) ℂ ℚ))
    (κ : Fin D.nb) (w : Fin m → ℂ) : ℝ :=
  let e : Fin m → ℂ := fun c => if c.val = r then 1 else 0
  (D.power k true l κ (e - w) - D.power k false l κ (e - w)) + D.power k false l κ w

end Danse
