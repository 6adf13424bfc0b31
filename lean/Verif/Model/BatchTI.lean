import Verif.Model.Batch

/-!
# Batch-mode TI-DANSE

As `Model/Batch.lean`, with the in-network sum of all other nodes' fused signals in place of one
fused signal per node. The broadcast filters have the dimension of the internal ones. The re-rooting of
the tree (d_core.py 402-405) is not modelled: the batch statistics do not depend on the tree.
-/

namespace Danse
open Matrix

noncomputable section
open Classical
variable {K : Nat} {S : Fin K → Type} [∀ k, Fintype (S k)] [∀ k, DecidableEq (S k)]

/-- Own sensors and the in-network sum. -/
abbrev TiCh {K : Nat} (S : Fin K → Type) (k : Fin K) := S k ⊕ Unit

/-- Fusion vector `p` (d_base.py 2503-2504); a zero denominator makes NaN, see `tiYTildeB`. -/
def tiP (ext : ∀ q, TiCh S q → ℂ) (q : Fin K) (s : S q) : ℂ := ext q (.inl s) / ext q (.inr ())

/-- `get_y_tilde_batch` (d_base.py 2489-2516), one frame. -/
def tiY (p : ∀ q, S q → ℂ) (k : Fin K) (y : NetCh S → ℂ) : TiCh S k → ℂ
  | .inl s => y ⟨k, s⟩
  | .inr _ => ∑ q : {q : Fin K // q ≠ k}, ∑ s, star (p q.1 s) * y ⟨q.1, s⟩

structure TiBatchCfg {K : Nat} (S : Fin K → Type) where
  frames : List (NetCh S → ℂ)
  vad : Fin K → List Bool
  upd : ∀ k, Matrix (TiCh S k) (TiCh S k) ℂ → Matrix (TiCh S k) (TiCh S k) ℂ →
    Except PyErr (TiCh S k → ℂ)
  ext : ∀ k, ExtCfg (TiCh S k → ℂ) ℂ ℝ
  /-- `'seq' in nodeUpdating` -/
  seq : Bool
  /-- `'sim' in nodeUpdating or 'asy' in nodeUpdating` -/
  sim : Bool

structure TiBatchSt {K : Nat} (S : Fin K → Type) where
  wT : ∀ k, TiCh S k → ℂ
  ext : ∀ k, ExtSt (TiCh S k → ℂ) ℝ
  i : Fin K → Nat
  dhat : Fin K → List ℂ

/-- Broadcast filters of a state. -/
def TiBatchSt.exts (st : TiBatchSt S) : ∀ q, TiCh S q → ℂ := fun q => (st.ext q).ext

/-- `batch_update_tidanse_covmats` (d_batch.py 214-222). If the last coefficient of another node's
broadcast filter is zero, the result is NaN. -/
def tiBatchCov (c : TiBatchCfg S) (ext : ∀ q, TiCh S q → ℂ) (k : Fin K) :
    Except PyErr (Matrix (TiCh S k) (TiCh S k) ℂ × Matrix (TiCh S k) (TiCh S k) ℂ) :=
  if ∃ q, q ≠ k ∧ ext q (.inr ()) = 0 then .error .nan
  else do
    let r ← covBatch (F := Unit) (c.frames.map fun y _ => tiY (tiP ext) k y) (c.vad k)
    return (r.1 (), r.2 ())

/-- Filter update or copy (d_core.py 410-416, 431). -/
def tiBatchFilter (c : TiBatchCfg S)
    (covs : ∀ k, Matrix (TiCh S k) (TiCh S k) ℂ × Matrix (TiCh S k) (TiCh S k) ℂ)
    (up : Fin K → Bool) (st : TiBatchSt S) (k : Fin K) : Except PyErr (TiCh S k → ℂ) :=
  if up k then c.upd k (covs k).1 (covs k).2 else .ok (st.wT k)

/-- Body of the second loop (d_core.py 409-420, 430-435), as `batchNode`; the external filter update
(`ti_update_external_filters_batch`, d_classes.py 1696-1699) takes the whole internal filter. -/
def tiBatchNode (c : TiBatchCfg S) (ext0 : ∀ q, TiCh S q → ℂ)
    (covs : ∀ k, Matrix (TiCh S k) (TiCh S k) ℂ × Matrix (TiCh S k) (TiCh S k) ℂ)
    (up : Fin K → Bool) (st : TiBatchSt S) (k : Fin K) : Except PyErr (TiBatchSt S) := do
  let w ← tiBatchFilter c covs up st k
  return {
    wT := Function.update st.wT k w
    ext := Function.update st.ext k (extStep (c.ext k) (st.ext k) w none)
    i := Function.update st.i k (st.i k + 1)
    dhat := Function.update st.dhat k
      (c.frames.dropLast.map fun y => star w ⬝ᵥ tiY (tiP ext0) k y) }

/-- One batch update. -/
def tiBatchStep (c : TiBatchCfg S) (up : Fin K → Bool) (st : TiBatchSt S) :
    Except PyErr (TiBatchSt S) := do
  let covs ← (List.finRange K).foldlM (m := Except PyErr) (fun cv k => do
    let r ← tiBatchCov c st.exts k
    return Function.update cv k r) (fun _ => (0, 0))
  (List.finRange K).foldlM (tiBatchNode c st.exts covs up) st

/-- `tidanse_batch` (d_core.py 396-435): `B` batch updates. -/
def tiBatchRun (c : TiBatchCfg S) (st : TiBatchSt S) : Nat → Except PyErr (TiBatchSt S)
  | 0 => .ok st
  | B + 1 => do
    let st' ← tiBatchRun c st B
    if c.seq then tiBatchStep c (fun k => k.val == B % K) st'
    else if c.sim then tiBatchStep c (fun _ => true) st'
    else .ok st'

end
end Danse
