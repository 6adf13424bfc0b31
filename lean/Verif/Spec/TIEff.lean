import Verif.Spec.TIRun
import Verif.Spec.CentrRun

/-!
# Specification: TI-DANSE with efficient few-sample broadcasts
-/

namespace Danse

/-- A TI-DANSE network of `n` nodes with the same clock of `fs` Hz and `m` samples each, with efficient
broadcasts (`efficientSpSBC`) in chunks of `L` samples, `L` a divisor of the shift `Ns`. -/
structure SyncTIEff {n : Nat} {K : Type} (g : GivenCfg K) (fs : ℚ) (m L : Nat) (y : Fin n → List (List K)) :
    Prop where
  shift : 0 < g.Ns
  overlap : g.Ns < g.N
  bc : g.bc = .few L true
  divides : L ∣ g.Ns
  rate : 0 < fs
  clock : inferFs (clockStamps fs m) = .ok fs
  rates : ∀ k, g.fs k = fs
  stamps : ∀ k, g.stamps k = clockStamps fs m
  signals : ∀ k, ∀ ch ∈ y k, ch.length = m
  update : everySep g.Ns fs ⌈(g.N : ℚ) / g.Ns⌉₊ ((m - 1) / g.Ns) ≠ []

section
variable {K : Type} [Field K]

/-- The samples of a signal `x` that have reached the other nodes at the time of update `i`: of the first
exchange, at sample `N`, the first (oldest) `Ns` samples; then everything from sample `N` on. -/
def effStream (N Ns : Nat) (x : List K) (i : Nat) : List K :=
  x.take Ns ++ (x.take (i * Ns)).drop N

/-- What node `k` takes into account at its update number `i`. -/
def observedEff {n : Nat} (N Ns : Nat) (fs : ℚ) (y : Fin n → List (List K)) (x : Fin n → List K) (k : Fin n)
    (i : Nat) : ℚ × List (List K) × List K :=
  ((i : ℚ) * Ns / fs, (y k).map (frameBefore N · (i * Ns)),
    sumOthers N (fun q => lastFrame N (effStream N Ns (x q) i)) k)

end
end Danse
