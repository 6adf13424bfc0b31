import Verif.Spec.TIDanse
import Verif.Spec.Signals

/-!
# Specification: what a node would hear with cables to the sensors of its neighbours
-/

namespace Danse
section
variable {K : Type} [Field K] [StarRing K] [DecidableEq K]

/-- The recordings of all the sensors of node `q` and of its neighbours, in the order of the neighbour list. -/
def DanseCfg.around (D : DanseCfg K) (y : Nat → List (List K)) (q : Nat) : List (List K) := y q ++ (D.g.nb q).flatMap y

/-- Spectra of the frames of all these sensors that end at every `Ns`-th sample of a recording of `n` samples (from the
first sample before which there is a whole frame), with the VAD decision, the time and the bypass decision. -/
def DanseCfg.wired (D : DanseCfg K) (y : Nat → List (List K)) (fs : ℚ) (n q : Nat) :
    List (UpEv (Fin D.nb) (Fin (D.dim q)) K ℚ) :=
  let first := ⌈(D.g.N : ℚ) / D.g.Ns⌉₊
  (List.range ((n - 1) / D.g.Ns - first)).map fun (i : Nat) =>
    ⟨fun κ c => at0 (analysis D.g.ζ D.g.N D.g.c D.g.h
        (frameAt ((D.around y q).getD c []) ((first + i) * D.g.Ns - D.g.N) D.g.N)) κ,
      D.vad q i, ((first + i : Nat) : ℚ) * D.g.Ns / fs, D.bypass q i⟩

end
end Danse
