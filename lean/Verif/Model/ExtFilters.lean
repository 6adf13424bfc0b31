import Verif.Model.Py
import Mathlib.Algebra.Module.Basic
import Mathlib.Algebra.Field.Basic
import Mathlib.Analysis.SpecialFunctions.Log.Basic

/-!
# External (broadcast) filters, filter normalisation, forgetting factors

One node; `W` is the type of its broadcast filter (all bins), a vector space over `K`.
-/

namespace Danse

/-- Settings read by `update_external_filters`. -/
structure ExtCfg (W K T : Type) where
  /-- `onlyBroadcastRefSensorSigs` -/
  onlyRef : Bool
  /-- the selector of the reference sensor, all bins (1661-1665) -/
  refSel : W
  /-- `nLocalMic[k] == 1` -/
  oneMic : Bool
  noFusion : Bool
  noRelax : Bool
  /-- `'seq' in nodeUpdating` -/
  seq : Bool
  betaExt : K
  alpha : K
  /-- `timeBtwExternalFiltUpdates` -/
  every : T

/-- `wTildeExt[k][:, i[k], :]`, `wTildeExtTarget[k]`, `lastExtFiltUp[k]`. The array of external
filters is written at `i+1` on every path and read at `i`, so its current slice is enough. -/
structure ExtSt (W T : Type) where
  ext : W
  target : W
  last : T

section
variable {W K T : Type} [Field K] [AddCommGroup W] [Module K W] [Sub T] [LE T] [DecidableLE T]

/-- `update_external_filters` (d_classes.py 1627-1694); `wNew` is the slice `currWTilde` of the
internal filter just computed, `t = none` the call without time (batch mode). -/
def extStep (c : ExtCfg W K T) (s : ExtSt W T) (wNew : W) (t : Option T) : ExtSt W T :=
  if c.onlyRef then { s with ext := c.refSel }
  else if c.oneMic = true ∧ c.noFusion = true then s
  else if c.noRelax = true ∨ c.seq = true then { s with ext := wNew }
  else
    let s1 := { s with ext := c.betaExt • s.ext + (1 - c.betaExt) • s.target }
    match t with
    | none => { s1 with target := (1 - c.alpha) • s.target + c.alpha • wNew }
    | some t =>
      if c.every ≤ t - s.last then
        { s1 with target := (1 - c.alpha) • s.target + c.alpha • wNew, last := t }
      else s1

/-- A sequence of calls. -/
def extRun (c : ExtCfg W K T) (s : ExtSt W T) (l : List (W × Option T)) : ExtSt W T :=
  l.foldl (fun s e => extStep c s e.1 e.2) s

end

/-- `normalize_filter_coeff` (d_classes.py 2995-3005): `w` is `wTilde[k][:, i[k]+1, :]`, `lastCh` the
last channel. `normFactGk` is a view of the very entries divided, so only these entries change
(elementwise `x /= x`); the view itself is read nowhere else. Returns the filter and
`lastNormFactGkUpdate`. Division by zero gives NaN in the code, 0 here. -/
def normalizeFilter {F n K T : Type} [DecidableEq n] [Field K] [Sub T] [LE T] [DecidableLE T]
    (seq : Bool) (k : Nat) (bypass : Bool) (t last every : T) (lastCh : n) (w : F → n → K) :
    (F → n → K) × T :=
  if seq = true ∧ k = 0 ∧ bypass = false ∧ every ≤ t - last then
    (fun f c => if c = lastCh then w f c / w f lastCh else w f c, t)
  else (w, last)

/-- `_get_beta_from_t50p` (d_core.py 483-503), over the reals. -/
noncomputable def betaFromT50p (t50p fs Ns : ℝ) : ℝ :=
  Real.exp (Real.log 0.5 / (t50p * fs / Ns))

end Danse
