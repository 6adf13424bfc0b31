import Verif.Model.Danse
import Verif.Model.TIRun

/-!
# Model of a whole online TI-DANSE run

The main loop of `tidanse` (`danse_toolbox/d_core.py` 190-230) with everything that an update computes
(`ti_update_and_estimate`, d_classes.py 2920-2993): `spatial_covariance_matrix_update`,
`check_covariance_matrices`, `perform_update`, `normalize_filter_coeff` and `update_external_filters`. The
frames, fusion, sums, relays and the synthesis are those of `TIRun`.

The parameters are those of `DanseCfg`; the initial filters `g.wInt`, `g.wExt` and `extTarget0` have one
channel more than there are sensors (the in-network sum, d_classes.py 676-692). `g.nb`, `bypass` and `rot` are
not read. Not here: the centralised and single-sensor estimates; given filters (`TIRun`).
-/

namespace Danse
section
variable {n : Nat} {K : Type} [Field K] [StarRing K] [DecidableEq K]

/-- Settings of `update_external_filters` for node `k` with `tiDANSEflag` (d_classes.py 1645-1647, 1657-1669):
all the channels of the filter, the in-network sum included. -/
def DanseCfg.tiExt (D : DanseCfg K) (k : Nat) :
    ExtCfg (Frame (Fin D.nb) (Fin (D.M k + 1)) K) K ℚ where
  onlyRef := D.onlyRef
  refSel := fun _ c => if c.val = D.g.refSensor then 1 else 0
  oneMic := D.M k == 1
  noFusion := D.g.noFusion
  noRelax := D.noRelax
  seq := D.seq
  betaExt := D.betaExt k
  alpha := D.alpha
  every := D.extEvery

/-- What a node keeps between its updates: both kinds of matrices with their filters, the external filter
with its target, `lastNormFactGkUpdate` (one variable for all the nodes, read and written by node 0 only). -/
structure TDNode (B M : Nat) (K : Type) where
  danse : NodeSt (Fin B) (Fin (M + 1)) K (Except PyErr (Frame (Fin B) (Fin (M + 1)) K))
  loc : NodeSt (Fin B) (Fin M) K (Except PyErr (Frame (Fin B) (Fin M) K))
  ext : ExtSt (Frame (Fin B) (Fin (M + 1)) K) ℚ
  lastNorm : ℚ

/-- Before the first update (d_classes.py 606-643, 667-725, 816, 2755). -/
def DanseCfg.tiNode0 (D : DanseCfg K) (k : Nat) : TDNode D.nb (D.M k) K where
  danse := D.kind0 k (D.M k + 1) (D.g.wInt k)
  loc := D.kind0 k (D.M k) (D.g.wLoc k)
  ext := { ext := rowFrame _ _ (D.g.wExt k 0), target := rowFrame _ _ (D.extTarget0 k), last := 0 }
  lastNorm := 1

/-- `normalize_filter_coeff` (d_classes.py 2995-3005) with `normFactGkUpdateEvery = 0.0` (2757). Where the weight
to be divided is zero the code goes on with NaN; as in `tiFilter`, the model stops there. -/
def tiNormalize {B M : Nat} (seq : Bool) (k : Nat) (bypass : Bool) (t last : ℚ)
    (w : Frame (Fin B) (Fin (M + 1)) K) : Except PyErr (Frame (Fin B) (Fin (M + 1)) K × ℚ) :=
  if seq = true ∧ k = 0 ∧ bypass = false ∧ 0 ≤ t - last ∧ ∃ κ, w κ (Fin.last M) = 0 then .error .nan
  else .ok (normalizeFilter seq k bypass t last 0 (Fin.last M) w)

/-- The computations of one update of node `k` (d_classes.py 2951-2984) on observation `o`, without the
synthesis. Returns the new state and the filter rows. -/
def DanseCfg.tiNodeUpdate (D : DanseCfg K) (k : Nat) (s : TDNode D.nb (D.M k) K) (o : TIObs K) :
    Except PyErr (TDNode D.nb (D.M k) K × Rows K) := do
  let yT := D.spectra (D.M k + 1) (o.loc ++ [o.eta])
  let yL := D.spectra (D.M k) o.loc
  let i := s.danse.i
  let danse := nodeStep (D.kind k (D.M k + 1)) s.danse yT (D.vad k i) o.t o.bypass
  let w ← danse.w (i + 1)
  let loc := nodeStep (D.kind k (D.M k)) s.loc yL (D.vad k i) o.t o.bypass
  let wl ← loc.w (i + 1)
  let p ← tiNormalize D.seq k o.bypass o.t s.lastNorm w
  let ext := extStep (D.tiExt k) s.ext p.1 (some o.t)
  return (⟨{ danse with w := Function.update danse.w (i + 1) (.ok p.1) }, loc, ext, p.2⟩,
    ⟨frameRow p.1, frameRow ext.ext, frameRow wl⟩)

/-- State of the run: `TISt` and the filters and matrices of the nodes. -/
structure TIDanseSt (n : Nat) (D : DanseCfg K) where
  run : TISt n K
  node : (k : Fin n) → TDNode D.nb (D.M k) K

/-- What node `k` observes at an update (`ti_build_ytilde`, d_classes.py 3068-3112; see `tiUpdate`). -/
def tiObserve (g : GivenCfg K) (yk : List (List K)) (t : ℚ) (k : Nat) (bypass : Bool) (eta : List K) :
    Except PyErr (TIObs K) := do
  let loc ← yk.mapM fun ch => chunkForUpdate ch t (g.fs k) g.bc.name g.N g.Ns
  if loc.any (fun x => x.1.length ≠ g.N) ∨ eta.length ≠ g.N then .error .valueError
  else .ok ⟨t, bypass, loc.map (·.1), eta⟩

/-- One event (d_core.py 191-230): `tiStepEv`, where an update computes the rows itself. The strategy that is
passed for the other events is not read. -/
def tiDanseStepEv (D : DanseCfg K) (y : Fin n → List (List K)) (trees : List (TreeObj n)) (t : ℚ)
    (a : TIDanseSt n D) (e : OutEv) : Except PyErr (TIDanseSt n D) :=
  match e.ty with
  | .up => if h : e.node < n then do
      let k : Fin n := ⟨e.node, h⟩
      let o ← tiObserve D.g (y k) t k e.bypass (a.run.net.etaMk k)
      let r ← D.tiNodeUpdate k (a.node k) o
      let nd ← tiUpdate D.g (fun _ => r.2) (fun _ => r.1.danse.started) (y k) t k e.bypass (a.run.node k)
        (a.run.net.etaMk k)
      .ok ⟨{ a.run with node := Function.update a.run.node k nd }, Function.update a.node k r.1⟩
    else .error .indexError
  | _ => do
    let s ← tiStepEv D.g ⟨fun _ _ => ⟨[], [], []⟩, fun _ _ => false⟩ y trees t a.run e
    .ok { a with run := s }

/-- The events of one instant, in order (d_core.py 199-230). -/
def tiDanseInstant (D : DanseCfg K) (y : Fin n → List (List K)) (trees : List (TreeObj n))
    (a : TIDanseSt n D) (i : Instant ℚ) : Except PyErr (TIDanseSt n D) :=
  i.evs.foldlM (tiDanseStepEv D y trees i.t) a

/-- Before the first event; `T` samples per signal. -/
def TIDanseSt.init (D : DanseCfg K) (T : Nat) (y : Fin n → List (List K)) (up0 : Fin n → List (Fin n)) :
    TIDanseSt n D :=
  ⟨.init D.g.N D.g.refSensor T y (fun k => D.g.wExt k 0) up0, fun k => D.tiNode0 k⟩

/-- The main loop of `tidanse` (d_core.py 190-230). -/
def tiDanseRun (D : DanseCfg K) (T : Nat) (y : Fin n → List (List K)) (up0 : Fin n → List (Fin n))
    (trees : List (TreeObj n)) (out : List (Instant ℚ)) : Except PyErr (TIDanseSt n D) :=
  out.foldlM (tiDanseInstant D y trees) (.init D T y up0)

end
end Danse
