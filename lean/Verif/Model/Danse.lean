import Verif.Model.AdaptRun
import Verif.Model.Scm
import Verif.Model.Mwf
import Verif.Model.ExtFilters
import Mathlib.Algebra.Module.Pi

/-!
# Model of a whole online DANSE run

The main loop of `danse` (`danse_toolbox/d_core.py` 66-92) with everything that an update computes:
`update_and_estimate` (d_classes.py 1252-1330) with `compensate_sros` (phase factors that are a function of
the times and buffer flags so far: no compensation, or oracle SROs), `spatial_covariance_matrix_update`,
`check_covariance_matrices`, `perform_update`, `update_external_filters` and `get_desired_signal`. Here the
pieces that are modelled in `AdaptRun` (frames, buffers, broadcasts, synthesis), `Scm`, `Mwf` and
`ExtFilters` are put together; nothing is left open but the choice of the filter update (`rule`) and the
numerical rank test (`valid`).

Not here: SRO estimation, the centralised and single-sensor estimates (`CentrRun`), and
`covMatInitType == 'batch_estimates'`, which never gets as far as this loop (C107). The buffer flags are
never NaN in this model, so that `skipUpdate` is false (d_classes.py 1966, `Buffers`). A frame of the wrong
length raises `ValueError` here after the filters are computed instead of before.
-/

namespace Danse
section
variable {K : Type} [Field K] [StarRing K] [DecidableEq K]

/-- What the run reads from the parameters and the network. The initial filters are `g.wInt k j`,
`g.wExt k 0`, `g.wLoc k j` (`init_complex_filter`, d_classes.py 667-735, all rows). -/
structure DanseCfg (K : Type) where
  g : GivenCfg K
  /-- `nSensorPerNode` -/
  M : Nat → Nat
  use1st : Bool
  /-- `expAvgBeta[k]` -/
  beta : Nat → K
  startAfter : ℚ
  /-- `bypassUpdates` -/
  bypassAll : Bool
  /-- `_check_validity_gevd` / `_check_validity_nogevd` on `(Rnn, Ryy)` with `m` channels. -/
  valid : (m : Nat) → Cov (Fin (g.N / 2 + 1)) (Fin m) K → Cov (Fin (g.N / 2 + 1)) (Fin m) K → Bool
  /-- `update_w` or `update_w_gevd` for one bin: `(Ryy, Rnn, refSensorIdx)` with `m` channels. -/
  rule : (m : Nat) → Matrix (Fin m) (Fin m) K → Matrix (Fin m) (Fin m) K → Nat → Except PyErr (Fin m → K)
  /-- `fullSlice` of node `k` (d_classes.py 606-643): bin, row, column. -/
  cov0 : Nat → Nat → Nat → Nat → K
  /-- `oVADframes[k][i]` -/
  vad : Nat → Nat → Bool
  /-- `bypassUpdate` of the `i`-th update of node `k` -/
  bypass : Nat → Nat → Bool
  onlyRef : Bool
  noRelax : Bool
  /-- `'seq' in nodeUpdating` -/
  seq : Bool
  betaExt : Nat → K
  alpha : K
  /-- `timeBtwExternalFiltUpdates` -/
  extEvery : ℚ
  /-- `wTildeExtTarget[k]` before the run: channel, bin -/
  extTarget0 : Nat → List (List K)
  /-- phase factors (channel, bin) from the times and flags of the updates so far -/
  rot : Nat → List (ℚ × List Int) → Nat → Nat → K

/-- Number of bins, `nPosFreqs`. -/
abbrev DanseCfg.nb (D : DanseCfg K) : Nat := D.g.N / 2 + 1

/-- `dimYTilde[k]` (d_classes.py 578). -/
abbrev DanseCfg.dim (D : DanseCfg K) (k : Nat) : Nat := D.M k + (D.g.nb k).length

/-- One value of a filter row (list of channels) as an array entry. -/
def coef (rows : List (List K)) (κ c : Nat) : K := at0 (rows.getD c []) κ

/-- A filter row as an array. -/
def rowFrame (B m : Nat) (rows : List (List K)) : Frame (Fin B) (Fin m) K := fun κ c => coef rows κ c

/-- An array as a filter row. -/
def frameRow {B m : Nat} (w : Frame (Fin B) (Fin m) K) : List (List K) :=
  List.ofFn fun c => List.ofFn fun κ => w κ c

/-- A computation for every bin; the first exception ends it. -/
def seqBins {B : Nat} {α : Type} [Zero α] (u : Fin B → Except PyErr α) :
    Except PyErr (Fin B → α) := do
  let l ← (List.finRange B).mapM u
  return fun κ => l.getD κ 0

/-- `update_w` as a rule; a reference sensor that is not a channel raises `IndexError`
(d_classes.py 3332). -/
noncomputable def mwfRule (m : Nat) (Ryy Rnn : Matrix (Fin m) (Fin m) K) (ref : Nat) :
    Except PyErr (Fin m → K) :=
  if h : ref < m then updateW Ryy Rnn ⟨ref, h⟩ else .error .indexError

/-- `update_w_gevd` as a rule (`performGEVD`), with `GEVDrank` (d_classes.py 3343-3399). -/
noncomputable def gevdRule (lib : (m : Nat) → LinAlg m) (rank : Nat) (m : Nat)
    (Ryy Rnn : Matrix (Fin m) (Fin m) ℂ) (ref : Nat) : Except PyErr (Fin m → ℂ) :=
  if h : ref < m then updateWGevd (lib m) Ryy Rnn ⟨ref, h⟩ rank else .error .indexError

/-- `NodeCfg` of the matrices with `m` channels of node `k` ('danse' or 'local'). -/
def DanseCfg.kind (D : DanseCfg K) (k m : Nat) :
    NodeCfg (Fin D.nb) (Fin m) K (Except PyErr (Frame (Fin D.nb) (Fin m) K)) ℚ where
  use1st := D.use1st
  beta := D.beta k
  batchInit := false
  startAfter := D.startAfter
  valid := D.valid m
  bypassAll := D.bypassAll
  upd Ryy Rnn := seqBins fun κ => D.rule m (Ryy κ) (Rnn κ) D.g.refSensor

/-- Initial state of these matrices and of the filters (d_classes.py 606-643, 667-725): `w` is the
array from `init_complex_filter`. -/
def DanseCfg.kind0 (D : DanseCfg K) (k m : Nat) (w : Nat → List (List K)) :
    NodeSt (Fin D.nb) (Fin m) K (Except PyErr (Frame (Fin D.nb) (Fin m) K)) where
  scm := { ryy := fun κ => Matrix.of fun i j => D.cov0 k κ i j
           rnn := fun κ => Matrix.of fun i j => D.cov0 k κ i j
           numRyy := 0, numRnn := 0 }
  started := false
  w j := .ok (rowFrame D.nb m (w j))
  i := 0
  nUps := 0

/-- Settings of `update_external_filters` for node `k`. -/
def DanseCfg.ext (D : DanseCfg K) (k : Nat) :
    ExtCfg (Frame (Fin D.nb) (Fin (D.M k)) K) K ℚ where
  onlyRef := D.onlyRef
  refSel := fun _ c => if c.val = D.g.refSensor then 1 else 0
  oneMic := D.M k == 1
  noFusion := D.g.noFusion
  noRelax := D.noRelax
  seq := D.seq
  betaExt := D.betaExt k
  alpha := D.alpha
  every := D.extEvery

/-- What a node keeps between its updates: the two kinds of matrices with their filters, the external
filter with its target, the times and flags so far. -/
structure DNode (B m ml : Nat) (K : Type) where
  danse : NodeSt (Fin B) (Fin m) K (Except PyErr (Frame (Fin B) (Fin m) K))
  loc : NodeSt (Fin B) (Fin ml) K (Except PyErr (Frame (Fin B) (Fin ml) K))
  ext : ExtSt (Frame (Fin B) (Fin ml) K) ℚ
  times : List (ℚ × List Int)

/-- Before the first update (d_classes.py 694-735, 816). -/
def DanseCfg.node0 (D : DanseCfg K) (k : Nat) : DNode D.nb (D.dim k) (D.M k) K where
  danse := D.kind0 k (D.dim k) (D.g.wInt k)
  loc := D.kind0 k (D.M k) (D.g.wLoc k)
  ext := { ext := rowFrame _ _ (D.g.wExt k 0), target := rowFrame _ _ (D.extTarget0 k), last := 0 }
  times := []

/-- Spectra of `m` channels of time-domain frames, `yTildeHat[k][:, i, :]` (d_classes.py 1926-1934). -/
def DanseCfg.spectra (D : DanseCfg K) (m : Nat) (chs : List (List K)) : Frame (Fin D.nb) (Fin m) K :=
  rowFrame D.nb m (chs.map (analysis D.g.ζ D.g.N D.g.c D.g.h))

/-- `wTilde[k][:, i + 1, :nLocalMic[k]]` (d_classes.py 1649). -/
def localPart {B : Nat} (M d : Nat) (w : Frame (Fin B) (Fin (M + d)) K) : Frame (Fin B) (Fin M) K :=
  fun κ c => w κ (Fin.castAdd d c)

/-- The computations of one update of node `k` (d_classes.py 1286-1313) on observation `o`, without the
synthesis: compensation, both covariance updates and checks, both filters, external filter. Returns the
new state and the filter rows. -/
def DanseCfg.nodeUpdate (D : DanseCfg K) (k : Nat) (s : DNode D.nb (D.dim k) (D.M k) K) (o : Obs K) :
    Except PyErr (DNode D.nb (D.dim k) (D.M k) K × Rows K) := do
  let times := s.times ++ [(o.t, o.flags)]
  let ph := D.rot k times
  let yT : Frame (Fin D.nb) (Fin (D.dim k)) K := fun κ c =>
    D.spectra (D.dim k) (o.loc ++ o.z) κ c * ph c κ
  let yL := D.spectra (D.M k) o.loc
  let i := s.danse.i
  let danse := nodeStep (D.kind k (D.dim k)) s.danse yT (D.vad k i) o.t (D.bypass k i)
  let w ← danse.w (i + 1)
  let loc := nodeStep (D.kind k (D.M k)) s.loc yL (D.vad k i) o.t (D.bypass k i)
  let wl ← loc.w (i + 1)
  let ext := extStep (D.ext k) s.ext (localPart (D.M k) _ w) (some o.t)
  return (⟨danse, loc, ext, times⟩, ⟨frameRow w, frameRow ext.ext, frameRow wl⟩)

/-- State of the run: `AdaptSt` and the nodes. -/
structure DanseSt (D : DanseCfg K) where
  run : AdaptSt K
  node : (k : Nat) → DNode D.nb (D.dim k) (D.M k) K

/-- One event of the main loop (d_core.py 75-92). -/
def danseStep (D : DanseCfg K) (y : Nat → List (List K)) (a : DanseSt D) (ev : ℚ × Nat × EvType) :
    Except PyErr (DanseSt D) :=
  match ev.2.2 with
  | .up => do
    let o ← a.run.cfg.observe y a.run.st ev.1 ev.2.1
    let r ← D.nodeUpdate ev.2.1 (a.node ev.2.1) o
    let i := a.run.st.net.it ev.2.1
    let g := (a.run.cfg.record ev.2.1 (i + 1) r.2).setRot ev.2.1 i (D.rot ev.2.1 r.1.times)
    let s ← g.step y a.run.st ev
    .ok ⟨⟨g, s, Function.update a.run.hist ev.2.1 (a.run.hist ev.2.1 ++ [o])⟩,
      Function.update a.node ev.2.1 r.1⟩
  | _ => do
    let s ← a.run.cfg.step y a.run.st ev
    .ok { a with run := { a.run with st := s } }

/-- Before the first event; `T` samples per signal. -/
def DanseSt.init (D : DanseCfg K) (T : Nat) : DanseSt D := ⟨.init D.g T D.M, D.node0⟩

/-- The main loop over a schedule (d_core.py 66-92). -/
def danseRun (D : DanseCfg K) (y : Nat → List (List K)) (T : Nat) (evs : List (ℚ × Nat × EvType)) :
    Except PyErr (DanseSt D) :=
  evs.foldlM (danseStep D y) (.init D T)

end
end Danse
