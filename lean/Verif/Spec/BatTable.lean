import Verif.Model.BatTable

/-!
# Specification: what the tables of a battery say
-/

namespace Danse

/-- The scores that a folder holds. -/
def ResFolder.scores {α : Type} (f : ResFolder α) : Except PyErr (List α) := f.pkl.getD f.outputs

/-- Folders whose name begins with an underscore do not belong to the battery. -/
def ResFolder.Ignored {α : Type} (f : ResFolder α) : Prop := ∃ r, f.name = '_' :: r

/-- `fs` is a listing, in any order, of the results of the tests `ts` (`score t`: one value per node), with other folders that are to be
ignored. -/
structure Listing {α : Type} (ts : List BatTest) (score : BatTest → List α) (fs : List (ResFolder α)) : Prop where
  all : ∀ t ∈ ts, ∃ f ∈ fs, f.name = t.ref
  only : ∀ f ∈ fs, f.Ignored ∨ ∃ t ∈ ts, f.name = t.ref
  holds : ∀ f ∈ fs, ∀ t ∈ ts, f.name = t.ref → f.scores = .ok (score t)

/-- The column of a test: the broadcast length; whole chunks are `Ns` samples. -/
def BatTest.column (Ns : Int) (t : BatTest) : Int := t.L.elim Ns fun l => (l : Int)

/-- The values `S`, in increasing order, without repetition. -/
def Ascending (l : List Int) (S : Int → Prop) : Prop := l.Pairwise (· < ·) ∧ ∀ x, x ∈ l ↔ S x

end Danse
