import Verif.Model.Batch

/-! # Specification vocabulary for batch DANSE -/

namespace Danse
open Matrix

section
variable {K : Nat} {S : Fin K → Type} [∀ k, Fintype (S k)] [∀ k, DecidableEq (S k)]

/-- The network-wide filter that filter `w` of node `k` amounts to when the other nodes fuse their
sensors with `ext`: own coefficients for own sensors, fused coefficient times fusion filter for the
sensors of the others. -/
def netFilter (ext : ∀ q, S q → ℂ) (k : Fin K) (w : ObsCh S k → ℂ) : NetCh S → ℂ := fun a =>
  if h : a.1 = k then w (.inl (h ▸ a.2)) else w (.inr ⟨a.1, h⟩) * ext a.1 a.2

/-- The data seen by all nodes has (estimated) covariance `R` with speech and `N` without; the speech
covariance has rank one (one source, steering vector `a`), and filters are computed without GEVD. -/
structure SingleSource (c : BatchCfg S) (ref : ∀ k, S k) (R N : Matrix (NetCh S) (NetCh S) ℂ)
    (rho : ℂ) (a : NetCh S → ℂ) : Prop where
  upd : ∀ k, c.upd k = fun Ry Rn => updateW Ry Rn (Sum.inl (ref k))
  cov : ∀ k, covBatch (F := Unit) (c.frames.map fun y _ => y) (c.vad k) =
    .ok (fun _ => R, fun _ => N)
  covCentr : covBatch (F := Unit) (c.frames.map fun y _ => y) (centrVad c.vad) =
    .ok (fun _ => R, fun _ => N)
  speech : R - N = rho • vecMulVec a (star a)
  det : R.det ≠ 0
  heard : ∀ k, a ⟨k, ref k⟩ ≠ 0

/-- The broadcast filters are simply the own-sensor parts of the internal filters. -/
def TiedCfg (c : BatchCfg S) : Prop :=
  ∀ k, (c.ext k).onlyRef = false ∧ ((c.ext k).oneMic = false ∨ (c.ext k).noFusion = false) ∧
    ((c.ext k).noRelax = true ∨ (c.ext k).seq = true)

/-- The state in which every node uses the filter `wbar k` on the whole network and broadcasts its own
part of it. -/
def AtOptimum (wbar : ∀ _ : Fin K, NetCh S → ℂ) (st : BatchSt S) : Prop :=
  ∀ k, ((st.ext k).ext = fun s => wbar k ⟨k, s⟩) ∧ ((st.ext k).target = fun s => wbar k ⟨k, s⟩) ∧
    netFilter (fun q s => wbar q ⟨q, s⟩) k (st.wT k) = wbar k

end
end Danse
