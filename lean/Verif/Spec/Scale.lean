import Verif.Model.Danse

/-!
# Specification: a recording at another level

Every sample of a signal, of a recording, of everything that a run has stored is multiplied by the same number.
-/

namespace Danse
section
variable {K : Type} [Field K]

/-- A signal times `a`. -/
def scaled (a : K) (x : List K) : List K := x.map (a * ·)

/-- Channels times `a`. -/
def scaledM (a : K) (y : List (List K)) : List (List K) := y.map (scaled a)

/-- What a node observed, times `a`: frames are scaled, times and flags are not. -/
def Obs.scaled (a : K) (o : Obs K) : Obs K := ⟨o.t, o.flags, scaledM a o.loc, scaledM a o.z⟩

/-- Buffers and frames times `a`. -/
def NetSt.scaled (a : K) (s : NetSt K) : NetSt K :=
  ⟨fun q i => Danse.scaled a (s.zBuffer q i), fun k => scaledM a (s.z k), s.it, s.flags⟩

/-- The signals of a run times `a`; filters and clocks as they are. -/
def GivenSt.scaled (a : K) (s : GivenSt K) : GivenSt K :=
  { net := s.net.scaled a
    zLocal := fun k => Danse.scaled a (s.zLocal k)
    wIR := s.wIR
    lastUp := s.lastUp
    lastBc := s.lastBc
    d := fun k => Danse.scaled a (s.d k)
    dLoc := fun k => Danse.scaled a (s.dLoc k) }

/-- The same for a run that computes its filters. -/
def AdaptSt.scaled (a : K) (s : AdaptSt K) : AdaptSt K :=
  ⟨s.cfg, s.st.scaled a, fun k => (s.hist k).map (Obs.scaled a)⟩

end
end Danse

namespace Danse
section
variable {K : Type} [Field K] [StarRing K] [DecidableEq K]

/-- The same settings with other initial covariance matrices. -/
def DanseCfg.withCov (D : DanseCfg K) (cov0 : Nat → Nat → Nat → Nat → K) : DanseCfg K := { D with cov0 := cov0 }

/-- The filter update and the rank test give the same for both matrices times `a ^ 2`. -/
def DanseCfg.LevelFree (D : DanseCfg K) (a : K) : Prop :=
  (∀ m Ryy Rnn r, D.rule m (a ^ 2 • Ryy) (a ^ 2 • Rnn) r = D.rule m Ryy Rnn r) ∧
  ∀ m (Rnn Ryy : Cov (Fin D.nb) (Fin m) K),
    D.valid m (fun κ => a ^ 2 • Rnn κ) (fun κ => a ^ 2 • Ryy κ) = D.valid m Rnn Ryy

end
end Danse
