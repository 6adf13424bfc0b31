import Verif.Spec.Scale
import Verif.Model.TIDanse

/-!
# Specification: a recording at another level, TI-DANSE
-/

namespace Danse
section
variable {n : Nat} {K : Type} [Field K]

/-- What a node observed, times `a`. -/
def TIObs.scaled (a : K) (o : TIObs K) : TIObs K := ⟨o.t, o.bypass, scaledM a o.loc, Danse.scaled a o.eta⟩

/-- The arrays of the in-network sum times `a`. -/
def TIState.scaled {V : Type} (a : K) (s : TIState V K) : TIState V K :=
  ⟨fun k => Danse.scaled a (s.prime k), fun k => Danse.scaled a (s.buf k), fun k => Danse.scaled a (s.zloc k),
    fun k => Danse.scaled a (s.eta k), fun k => Danse.scaled a (s.etaMk k)⟩

/-- The signals of a node times `a`; filters and clocks as they are. -/
def TINode.scaled (a : K) (s : TINode K) : TINode K :=
  { s with hist := s.hist.map (TIObs.scaled a), d := Danse.scaled a s.d, dLoc := Danse.scaled a s.dLoc }

/-- The signals of a run times `a`; filters, clocks and trees as they are. -/
def TISt.scaled (a : K) (s : TISt n K) : TISt n K :=
  { s with net := s.net.scaled a, node := fun k => (s.node k).scaled a }

end
end Danse
