import Verif.Model.CohDrift
import Verif.Props.Sro2

/-! # Vocabulary for the coherence-drift estimates of a run -/

namespace Danse

/-- The neighbour's spectrum that the estimator looks at: after compensation in the closed loop, before it in
the open one. -/
def CohCfg.seen (c : CohCfg) (x : CohIn) : Nat → ℂ := if c.closed then x.cmp else x.unc

/-- Coherences of one update, all bins. -/
noncomputable def CohCfg.cohOf (c : CohCfg) (x : CohIn) : List ℂ :=
  (List.range c.P).map fun κ => coherence (x.ref κ) (c.seen x κ)

/-- Sum of the flags (in samples) after update `a`, up to update `b`. -/
def flagsBetween (xs : List CohIn) (a b : Nat) : Int := (((xs.take (b + 1)).drop (a + 1)).map (·.flag)).sum

/-- Number of samples by which the product of update `i` is corrected. -/
def CohCfg.corrected (c : CohCfg) (xs : List CohIn) (i : Nat) : Int :=
  if c.closed then 0 else c.broadcastLength * flagsBetween xs (i - c.ld) i

/-- Product of the coherences of the updates `i` and `i - ld`, corrected. -/
noncomputable def CohCfg.productOf (c : CohCfg) (xs : List CohIn) (i : Nat) : List ℂ :=
  flagRotate (c.corrected xs i : ℝ)
    (resProd ((xs[i]?).elim [] c.cohOf) ((xs[i - c.ld]?).elim [] c.cohOf))

/-- Average of the products of all scheduled updates up to `i`. -/
noncomputable def CohCfg.averageOf (c : CohCfg) (xs : List CohIn) (i : Nat) : List ℂ :=
  cohRounds c.alpha (((List.range (i + 1)).filter c.scheduled).map (c.productOf xs))

/-- There is signal in every bin. -/
def Sounding (P : Nat) (x : CohIn) : Prop := ∀ κ < P, x.ref κ ≠ 0 ∧ x.unc κ ≠ 0 ∧ x.cmp κ ≠ 0

/-- The estimator is scheduled at update `i`, and bin `κ` of one of the two spectra that are compared is zero at
one of the two updates concerned, `i` and `i - ld`. -/
def SilentAt (c : CohCfg) (xs : List CohIn) (κ i : Nat) : Prop :=
  c.scheduled i = true ∧ ∃ j x, (j = i ∨ j + c.ld = i) ∧ xs[j]? = some x ∧ (x.ref κ = 0 ∨ c.seen x κ = 0)

/-- At update `i` the spectrum that the estimator looks at is the own one through the transfer function `h`,
delayed by `τ` samples. -/
def HeardDelayed (c : CohCfg) (h : Nat → ℂ) (xs : List CohIn) (i : Nat) (τ : Int) : Prop :=
  ∃ x, xs[i]? = some x ∧ ∀ κ < c.P, c.seen x κ = h κ * x.ref κ * phaseFactor (2 * (c.P - 1)) κ (τ : ℝ)

/-- The search returns the lag of the peak if the product is the spectrum of a single unit impulse. -/
def FindsImpulse (N : Nat) (search : List (Option ℂ) → ℝ) : Prop :=
  ∀ (x : List ℂ) (τ : Int), 2 * |τ| < N →
    idft (Complex.exp (2 * Real.pi * Complex.I / N)) N x = circDelay N τ (1 :: List.replicate (N - 1) 0) →
    search (x.map some) = τ

end Danse
