import Verif.Model.BatchTI

/-! # Specification vocabulary for batch TI-DANSE -/

namespace Danse
open Matrix

section
variable {K : Nat} {S : Fin K → Type} [∀ k, Fintype (S k)] [∀ k, DecidableEq (S k)]

/-- The network-wide filter that filter `w` of node `k` amounts to when the nodes fuse their sensors
with `p` and the fused signals are summed. -/
def tiNetFilter (p : ∀ q, S q → ℂ) (k : Fin K) (w : TiCh S k → ℂ) : NetCh S → ℂ := fun a =>
  if h : a.1 = k then w (.inl (h ▸ a.2)) else w (.inr ()) * p a.1 a.2

/-- As `SingleSource`, for TI-DANSE. -/
structure TiSingleSource (c : TiBatchCfg S) (ref : ∀ k, S k) (R N : Matrix (NetCh S) (NetCh S) ℂ)
    (rho : ℂ) (a : NetCh S → ℂ) : Prop where
  upd : ∀ k, c.upd k = fun Ry Rn => updateW Ry Rn (Sum.inl (ref k))
  cov : ∀ k, covBatch (F := Unit) (c.frames.map fun y _ => y) (c.vad k) =
    .ok (fun _ => R, fun _ => N)
  speech : R - N = rho • vecMulVec a (star a)
  det : R.det ≠ 0
  heard : ∀ k, a ⟨k, ref k⟩ ≠ 0

/-- The broadcast filters are the internal filters. -/
def TiTiedCfg (c : TiBatchCfg S) : Prop :=
  ∀ k, (c.ext k).onlyRef = false ∧ ((c.ext k).oneMic = false ∨ (c.ext k).noFusion = false) ∧
    ((c.ext k).noRelax = true ∨ (c.ext k).seq = true)

end
end Danse
