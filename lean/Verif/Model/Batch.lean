import Verif.Model.Mwf
import Verif.Model.ExtFilters
import Mathlib.Data.Fintype.Sigma
import Mathlib.Data.Fintype.Sum
import Mathlib.Data.List.FinRange

/-!
# Batch-mode DANSE (fully connected)

One frequency bin (the bins only share the VAD). `S k` are the sensors of node `k`; a frame of the
network is a value per sensor. `bypassUpdates` is false and `startUpdates` is true for all nodes, as
`BatchDANSEvariables.init` sets it (d_batch.py 10).
-/

namespace Danse
open Matrix

noncomputable section
variable {K : Nat} {S : Fin K → Type} [∀ k, Fintype (S k)] [∀ k, DecidableEq (S k)]

/-- All sensors of the network. -/
abbrev NetCh {K : Nat} (S : Fin K → Type) := (k : Fin K) × S k

/-- Channels of the observation vector of node `k`: own sensors, one fused signal per other node. -/
abbrev ObsCh {K : Nat} (S : Fin K → Type) (k : Fin K) := S k ⊕ {q : Fin K // q ≠ k}

/-- `get_y_tilde_batch` (d_base.py 2515-2542, fully connected: `neighbors[k]` are all other nodes),
one frame. `ext q` is `wTildeExt[q][:, i[q], :]`. -/
def yTildeB (ext : ∀ q, S q → ℂ) (k : Fin K) (y : NetCh S → ℂ) : ObsCh S k → ℂ
  | .inl s => y ⟨k, s⟩
  | .inr q => ∑ s, star (ext q.1 s) * y ⟨q.1, s⟩

/-- Data and settings of a batch run. -/
structure BatchCfg {K : Nat} (S : Fin K → Type) where
  /-- `yinSTFT`, this bin, frame by frame -/
  frames : List (NetCh S → ℂ)
  /-- `oVADframes` -/
  vad : Fin K → List Bool
  /-- `update_w` or `update_w_gevd` with reference sensor and rank filled in -/
  upd : ∀ k, Matrix (ObsCh S k) (ObsCh S k) ℂ → Matrix (ObsCh S k) (ObsCh S k) ℂ →
    Except PyErr (ObsCh S k → ℂ)
  /-- settings of `update_external_filters` -/
  ext : ∀ k, ExtCfg (S k → ℂ) ℂ ℝ
  nodeUpdating : String

/-- Current slices of `wTilde`, `wTildeExt` (and target), the iteration counters and the STFT-domain
estimates. -/
structure BatchSt {K : Nat} (S : Fin K → Type) where
  wT : ∀ k, ObsCh S k → ℂ
  ext : ∀ k, ExtSt (S k → ℂ) ℝ
  i : Fin K → Nat
  dhat : Fin K → List ℂ

/-- `batch_update_danse_covmats` (d_batch.py 116-126). -/
def batchCov (c : BatchCfg S) (ext : ∀ q, S q → ℂ) (k : Fin K) :
    Except PyErr (Matrix (ObsCh S k) (ObsCh S k) ℂ × Matrix (ObsCh S k) (ObsCh S k) ℂ) := do
  let r ← covBatch (F := Unit) (c.frames.map fun y _ => yTildeB ext k y) (c.vad k)
  return (r.1 (), r.2 ())

/-- Filter update or copy at node `k` (d_core.py 301-305 for 'seq', 325 for the others). -/
def batchFilter (c : BatchCfg S)
    (covs : ∀ k, Matrix (ObsCh S k) (ObsCh S k) ℂ × Matrix (ObsCh S k) (ObsCh S k) ℂ)
    (up : Fin K → Bool) (st : BatchSt S) (k : Fin K) : Except PyErr (ObsCh S k → ℂ) :=
  if up k then c.upd k (covs k).1 (covs k).2 else .ok (st.wT k)

/-- Body of the second loop over the nodes (d_core.py 300-312 for 'seq', 324-329 for the others),
node `k`: filter update or copy, external filter (the copy of `wTildeExt` to the next slice in the
'seq' branch is overwritten or repeated by `update_external_filters`), `batch_estimate` (d_batch.py
128-142; the last frame is excluded) with the observations `yTildeBatch` computed in the first
loop, from the external filters `ext0`, iteration count. -/
def batchNode (c : BatchCfg S) (ext0 : ∀ q, S q → ℂ)
    (covs : ∀ k, Matrix (ObsCh S k) (ObsCh S k) ℂ × Matrix (ObsCh S k) (ObsCh S k) ℂ)
    (up : Fin K → Bool) (st : BatchSt S) (k : Fin K) : Except PyErr (BatchSt S) := do
  let w ← batchFilter c covs up st k
  return {
    wT := Function.update st.wT k w
    ext := Function.update st.ext k (extStep (c.ext k) (st.ext k) (fun s => w (.inl s)) none)
    i := Function.update st.i k (st.i k + 1)
    dhat := Function.update st.dhat k
      (c.frames.dropLast.map fun y => star w ⬝ᵥ yTildeB ext0 k y) }

/-- One batch update: covariance matrices of all nodes first, then the second loop. -/
def batchStep (c : BatchCfg S) (up : Fin K → Bool) (st : BatchSt S) : Except PyErr (BatchSt S) := do
  let covs ← (List.finRange K).foldlM (m := Except PyErr) (fun cv k => do
    let r ← batchCov c (fun q => (st.ext q).ext) k
    return Function.update cv k r) (fun _ => (0, 0))
  (List.finRange K).foldlM (batchNode c (fun q => (st.ext q).ext) covs up) st

/-- `danse_batch` (d_core.py 286-330): `B = maxBatchUpdates` batch updates. In the 'seq' branch
`upNodeIdx` starts at 0 and is incremented modulo the number of nodes. -/
def batchRun (c : BatchCfg S) (st : BatchSt S) : Nat → Except PyErr (BatchSt S)
  | 0 => .ok st
  | B + 1 => do
    let st' ← batchRun c st B
    if c.nodeUpdating = "seq" then batchStep c (fun k => k.val == B % K) st'
    else if c.nodeUpdating = "sim" ∨ c.nodeUpdating = "asy" then batchStep c (fun _ => true) st'
    else .ok st'

/-- `centrVADframes` (d_classes.py 905-911): the VAD decisions of all nodes are averaged and cast to
bool, i.e. a frame is active if it is for any node. All nodes have equally many frames. -/
def centrVad (vads : Fin K → List Bool) : List Bool :=
  if h : 0 < K then
    (List.range (vads ⟨0, h⟩).length).map fun j =>
      (List.finRange K).any fun k => (vads k)[j]?.getD false
  else []

/-- Centralised batch filter and estimate (d_batch.py 35-48, covariances from d_classes.py 945-948);
`upd` is `update_w` or `update_w_gevd` with the reference sensor filled in. -/
def batchCentr (c : BatchCfg S)
    (upd : Matrix (NetCh S) (NetCh S) ℂ → Matrix (NetCh S) (NetCh S) ℂ →
      Except PyErr (NetCh S → ℂ)) : Except PyErr ((NetCh S → ℂ) × List ℂ) := do
  let r ← covBatch (F := Unit) (c.frames.map fun y _ => y) (centrVad c.vad)
  let w ← upd (r.1 ()) (r.2 ())
  return (w, c.frames.dropLast.map fun y => star w ⬝ᵥ y)

end
end Danse
