import Verif.Model.Danse
import Verif.Spec.Scm
import Verif.Spec.Online

/-!
# Specification: the filters of an online DANSE run

What a node has heard at its updates, as frames in the frequency domain, the covariance matrices of these
frames, and when filter updating has started.
-/

namespace Danse
section
variable {F n K T : Type} [Fintype n] [Field K] [StarRing K]

/-- Exponentially weighted covariance of the frames `l`, oldest first: starting from `R0`, or from the first
frame when `use1st`. -/
def scmOf (use1st : Bool) (β : K) (R0 : Cov F n K) : List (Frame F n K) → Cov F n K
  | [] => R0
  | y :: r => if use1st then expWeighted β (rankOne y) r else expWeighted β R0 (y :: r)

/-- Updating has started at one of the events `l`: the time was not before `start`, more active and more
inactive frames than channels had been seen, and their covariance matrices passed the test. -/
def StartedBy [LE T] (use1st : Bool) (β : K) (R0 : Cov F n K) (valid : Cov F n K → Cov F n K → Bool)
    (start : T) (l : List (UpEv F n K T)) : Prop :=
  ∃ l1 e, l1 ++ [e] <+: l ∧ start ≤ e.t ∧
    Fintype.card n < (framesWith true (l1 ++ [e])).length ∧
    Fintype.card n < (framesWith false (l1 ++ [e])).length ∧
    valid (scmOf use1st β R0 (framesWith false (l1 ++ [e]))) (scmOf use1st β R0 (framesWith true (l1 ++ [e]))) = true

end

section
variable {K : Type} [Field K] [StarRing K] [DecidableEq K]

/-- The initial covariance matrices of node `k` with `m` channels. -/
def DanseCfg.R0 (D : DanseCfg K) (k m : Nat) : Cov (Fin D.nb) (Fin m) K :=
  fun κ => Matrix.of fun i j => D.cov0 k κ i j

/-- What node `k` heard at its updates with its own sensors and from its neighbours: spectra of the frames
times the phase factors, with the VAD decision, the time and the bypass decision of each update. -/
def DanseCfg.heard (D : DanseCfg K) (k : Nat) (h : List (Obs K)) :
    List (UpEv (Fin D.nb) (Fin (D.dim k)) K ℚ) :=
  h.zipIdx.map fun (o, i) =>
    ⟨fun κ c => coef ((o.loc ++ o.z).map (analysis D.g.ζ D.g.N D.g.c D.g.h)) κ c *
        D.rot k ((h.take (i + 1)).map fun o => (o.t, o.flags)) c κ,
      D.vad k i, o.t, D.bypass k i⟩

/-- What node `k` heard with its own sensors only. -/
def DanseCfg.heardLoc (D : DanseCfg K) (k : Nat) (h : List (Obs K)) :
    List (UpEv (Fin D.nb) (Fin (D.M k)) K ℚ) :=
  h.zipIdx.map fun (o, i) =>
    ⟨fun κ c => coef (o.loc.map (analysis D.g.ζ D.g.N D.g.c D.g.h)) κ c, D.vad k i, o.t, D.bypass k i⟩

/-- Covariance matrices of the frames flagged active (`b = true`) or inactive (`b = false`). -/
def DanseCfg.scm (D : DanseCfg K) (k : Nat) {m : Nat} (b : Bool) (l : List (UpEv (Fin D.nb) (Fin m) K ℚ)) :
    Cov (Fin D.nb) (Fin m) K :=
  scmOf D.use1st (D.beta k) (D.R0 k m) (framesWith b l)

/-- Filter updating with `m` channels has started. -/
def DanseCfg.Started (D : DanseCfg K) (k : Nat) {m : Nat} (l : List (UpEv (Fin D.nb) (Fin m) K ℚ)) : Prop :=
  StartedBy D.use1st (D.beta k) (D.R0 k m) (D.valid m) D.startAfter l

/-- The updates of node `k` on observations `h`, one after the other, with the rows of the last one. -/
def DanseCfg.nodeFold (D : DanseCfg K) (k : Nat) (h : List (Obs K)) :
    Except PyErr (DNode D.nb (D.dim k) (D.M k) K × Rows K) :=
  h.foldlM (fun p o => D.nodeUpdate k p.1 o) (D.node0 k, ⟨[], [], []⟩)

/-- The way in which the nodes of a DANSE run compute their filters and phase factors, as a `Strategy`. -/
def DanseCfg.strategy (D : DanseCfg K) : Strategy K where
  rot k h := D.rot k (h.map fun o => (o.t, o.flags))
  rows k h := ((D.nodeFold k h).toOption.map (·.2)).getD ⟨[], [], []⟩

/-- Filter row `new` (list of channels) of the last of the events `l`: the previous row when the update is
bypassed; the initial row as long as updating has not started or is switched off; otherwise what the rule
gives for the covariance matrices of everything heard so far. -/
def DanseCfg.RowOk (D : DanseCfg K) (k : Nat) {m : Nat} (l : List (UpEv (Fin D.nb) (Fin m) K ℚ)) (bypass : Bool)
    (prev init new : List (List K)) : Prop :=
  (new.length = m ∧ ∀ ch ∈ new, ch.length = D.nb) ∧
  (bypass = true → ∀ (κ : Fin D.nb) (c : Fin m), coef new κ c = coef prev κ c) ∧
  (bypass = false → D.bypassAll = true ∨ ¬ D.Started k l →
    ∀ (κ : Fin D.nb) (c : Fin m), coef new κ c = coef init κ c) ∧
  (bypass = false → D.bypassAll = false → D.Started k l →
    ∀ κ : Fin D.nb, D.rule m (D.scm k true l κ) (D.scm k false l κ) D.g.refSensor =
      .ok fun c => coef new κ c)

end
end Danse
