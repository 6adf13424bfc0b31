import Verif.Model.TIDanse
import Verif.Spec.Danse

/-!
# Specification: the filters of an online TI-DANSE run
-/

namespace Danse
section
variable {n : Nat} {K : Type} [Field K] [StarRing K] [DecidableEq K]

/-- What node `k` heard at its updates: spectra of the frames of its own sensors and of the in-network sum of
the others, with the VAD decision, the time and the bypass decision of each update. -/
def DanseCfg.tiHeard (D : DanseCfg K) (k : Nat) (h : List (TIObs K)) :
    List (UpEv (Fin D.nb) (Fin (D.M k + 1)) K ℚ) :=
  h.zipIdx.map fun (o, i) =>
    ⟨fun κ c => coef ((o.loc ++ [o.eta]).map (analysis D.g.ζ D.g.N D.g.c D.g.h)) κ c, D.vad k i, o.t, o.bypass⟩

/-- What node `k` heard with its own sensors only. -/
def DanseCfg.tiHeardLoc (D : DanseCfg K) (k : Nat) (h : List (TIObs K)) :
    List (UpEv (Fin D.nb) (Fin (D.M k)) K ℚ) :=
  h.zipIdx.map fun (o, i) =>
    ⟨fun κ c => coef (o.loc.map (analysis D.g.ζ D.g.N D.g.c D.g.h)) κ c, D.vad k i, o.t, o.bypass⟩

/-- Row `i` of the filter array of node `k` (list of channels, the in-network sum comes last). -/
def TIDanseSt.row {D : DanseCfg K} (a : TIDanseSt n D) (k : Fin n) (i : Nat) : List (List K) :=
  (((a.node k).danse.w i).toOption.map frameRow).getD []

/-- Row `i` of the local filter array of node `k`. -/
def TIDanseSt.rowLoc {D : DanseCfg K} (a : TIDanseSt n D) (k : Fin n) (i : Nat) : List (List K) :=
  (((a.node k).loc.w i).toOption.map frameRow).getD []

/-- The updates of node `k` on observations `h`, one after the other, with the rows of the last one. -/
def DanseCfg.tiNodeFold (D : DanseCfg K) (k : Nat) (h : List (TIObs K)) :
    Except PyErr (TDNode D.nb (D.M k) K × Rows K) :=
  h.foldlM (fun p o => D.tiNodeUpdate k p.1 o) (D.tiNode0 k, ⟨[], [], []⟩)

/-- The way in which the nodes of a TI-DANSE run compute their filters, as a `TIStrategy`. -/
def DanseCfg.tiStrategy (n : Nat) (D : DanseCfg K) : TIStrategy n K where
  rows k h := ((D.tiNodeFold k h).toOption.map (·.2)).getD ⟨[], [], []⟩
  started k h := ((D.tiNodeFold k h).toOption.map (·.1.danse.started)).getD false

end
end Danse
