import Verif.Model.BatchTI

/-!
# Initial covariance matrices from batch estimates

`init_covmats_from_batch` (danse_toolbox/d_classes.py 987-1041), called by `init_from_wasn` (952-957) in an
online run with `covMatInitType == 'batch_estimates'`, and the method `get_y_tilde_batch` (2269-2288) that it
calls. One frequency bin; `ext0` are the initial external filters (`wTildeExt[q][:, 0, :]`). Data and the
filter update are those of a batch run. The matrices of the local and centralised estimates (1030-1041) are
not modelled.
-/

namespace Danse
open Matrix

/-- What is passed as `useThisFilter`. -/
inductive UseFilter (α : Type)
  | none
  | bool (b : Bool)
  | given (w : α)

/-- Binding of `useThisFilter` in a call of `get_y_tilde_batch(self, k, useThisFilter=None)`
(d_classes.py 2269-2273) with the second positional argument `pos` and the keyword argument `kw`. -/
def bindUse {α : Type} : Option (UseFilter α) → Option (UseFilter α) → Except PyErr (UseFilter α)
  | some _, some _ => .error .typeError
  | some x, .none => .ok x
  | .none, some x => .ok x
  | .none, .none => .ok .none

noncomputable section
open Classical
variable {K : Nat} {S : Fin K → Type} [∀ k, Fintype (S k)] [∀ k, DecidableEq (S k)]

/-- `update_covmats_batch(self.get_y_tilde_batch(k, pos, useThisFilter=kw), self.oVADframes[k])`, fully
connected (d_classes.py 2269-2288, d_base.py 2514-2535): `useThisFilter[idxNode]` is evaluated for every
neighbour if `useThisFilter is not None`, and a bool cannot be subscripted. -/
def batchCovCall (c : BatchCfg S) (ext0 : ∀ q, S q → ℂ) (k : Fin K)
    (pos kw : Option (UseFilter (∀ q, S q → ℂ))) :
    Except PyErr (Matrix (ObsCh S k) (ObsCh S k) ℂ × Matrix (ObsCh S k) (ObsCh S k) ℂ) := do
  match ← bindUse pos kw with
  | .none => batchCov c ext0 k
  | .bool _ => if ∃ q : Fin K, q ≠ k then .error .typeError else batchCov c ext0 k
  | .given w => batchCov c w k

/-- First loop (d_classes.py 1003-1020), fully connected. -/
def firstFilters (c : BatchCfg S) (ext0 : ∀ q, S q → ℂ) : Except PyErr (∀ k, ObsCh S k → ℂ) :=
  (List.finRange K).foldlM (m := Except PyErr) (fun cv k => do
    let r ← batchCovCall c ext0 k (some (.bool false)) .none
    let w ← c.upd k r.1 r.2
    return Function.update cv k w) (fun _ _ => 0)

/-- `init_covmats_from_batch` (d_classes.py 987-1029), fully connected: `Ryytilde[k]`, `Rnntilde[k]`. -/
def initFromBatch (c : BatchCfg S) (ext0 : ∀ q, S q → ℂ) :
    Except PyErr (∀ k, Matrix (ObsCh S k) (ObsCh S k) ℂ × Matrix (ObsCh S k) (ObsCh S k) ℂ) := do
  let w ← firstFilters c ext0
  (List.finRange K).foldlM (m := Except PyErr) (fun cv k => do
    let r ← batchCovCall c ext0 k (some (.bool false)) (some (.given fun q s => w q (.inl s)))
    return Function.update cv k r) (fun _ => (0, 0))

/-- The call for TI-DANSE (d_base.py 2489-2513). -/
def tiBatchCovCall (c : TiBatchCfg S) (ext0 : ∀ q, TiCh S q → ℂ) (k : Fin K)
    (pos kw : Option (UseFilter (∀ q, TiCh S q → ℂ))) :
    Except PyErr (Matrix (TiCh S k) (TiCh S k) ℂ × Matrix (TiCh S k) (TiCh S k) ℂ) := do
  match ← bindUse pos kw with
  | .none => tiBatchCov c ext0 k
  | .bool _ => if ∃ q : Fin K, q ≠ k then .error .typeError else tiBatchCov c ext0 k
  | .given w => tiBatchCov c w k

/-- First loop, TI-DANSE. -/
def tiFirstFilters (c : TiBatchCfg S) (ext0 : ∀ q, TiCh S q → ℂ) : Except PyErr (∀ k, TiCh S k → ℂ) :=
  (List.finRange K).foldlM (m := Except PyErr) (fun cv k => do
    let r ← tiBatchCovCall c ext0 k (some (.bool false)) .none
    let w ← c.upd k r.1 r.2
    return Function.update cv k w) (fun _ _ => 0)

/-- `init_covmats_from_batch`, TI-DANSE. -/
def tiInitFromBatch (c : TiBatchCfg S) (ext0 : ∀ q, TiCh S q → ℂ) :
    Except PyErr (∀ k, Matrix (TiCh S k) (TiCh S k) ℂ × Matrix (TiCh S k) (TiCh S k) ℂ) := do
  let w ← tiFirstFilters c ext0
  (List.finRange K).foldlM (m := Except PyErr) (fun cv k => do
    let r ← tiBatchCovCall c ext0 k (some (.bool false)) (some (.given w))
    return Function.update cv k r) (fun _ => (0, 0))

end
end Danse
