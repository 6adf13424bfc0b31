import Verif.Model.AdaptRun

/-!
# Specification: comparing two runs

Two recordings that agree up to some time, or at some nodes only; two results of a run that agree in
what concerns some nodes.
-/

namespace Danse
section
variable {K : Type}

/-- Multichannel recordings with the same number of channels that have the same first `n` samples
(and at least `n` of them) in every channel. -/
def SameUntil (n : Nat) (a b : List (List K)) : Prop :=
  List.Forall₂ (fun x y => x.take n = y.take n ∧ n ≤ x.length ∧ n ≤ y.length) a b

/-- What node `k` can be said to produce in a run: its output, its local output, all its filters
(indexed by iteration) and its observations. -/
structure NodeView (K : Type) where
  d : List K
  dLoc : List K
  wInt : Nat → List (List K)
  wExt : Nat → List (List K)
  wLoc : Nat → List (List K)
  hist : List (Obs K)

/-- The view of node `k`. -/
def AdaptSt.view (a : AdaptSt K) (k : Nat) : NodeView K :=
  ⟨a.st.d k, a.st.dLoc k, a.cfg.wInt k, a.cfg.wExt k, a.cfg.wLoc k, a.hist k⟩

/-- `S` is a union of connected components of the network. -/
def Closed (nb : Nat → List Nat) (S : Nat → Prop) : Prop :=
  ∀ k, S k → ∀ q ∈ nb k, S q

end
end Danse

namespace Danse
section
variable {K : Type} [Field K]

/-- The sample at which the frame of an update at time `t` ends: the current sample of the node, or
`N - Ns` samples earlier with whole-chunk broadcasting. -/
def frameEnd (bc : BcType) (N Ns : Nat) (t fs : ℚ) : Int :=
  match bc with
  | .whole => ⌊t * fs⌋ - ((N : Int) - Ns)
  | .few _ _ => ⌊t * fs⌋

/-- The ends of the frames of the updates of node `k` in a schedule. -/
def frameEnds (bc : BcType) (N Ns : Nat) (fs : ℚ) (k : Nat) (evs : List (ℚ × Nat × EvType)) : List Int :=
  evs.filterMap fun ev => if ev.2.1 = k ∧ ev.2.2 = .up then some (frameEnd bc N Ns ev.1 fs) else none

/-- The current samples of node `k` (sampling frequency `fs`) at its broadcasts in a schedule. -/
def bcEnds (fs : ℚ) (k : Nat) (evs : List (ℚ × Nat × EvType)) : List Int :=
  evs.filterMap fun ev => if ev.2.1 = k ∧ ev.2.2 = .bc then some ⌊ev.1 * fs⌋ else none

/-- Number of updates of node `k` in a schedule. -/
def evUps (evs : List (ℚ × Nat × EvType)) (k : Nat) : Nat :=
  evs.countP fun ev => decide (ev.2.1 = k ∧ ev.2.2 = .up)

/-- The times of the updates of node `k` in a schedule. -/
def upTimes (evs : List (ℚ × Nat × EvType)) (k : Nat) : List ℚ :=
  evs.filterMap fun ev => if ev.2.1 = k ∧ ev.2.2 = .up then some ev.1 else none

/-- Product of the analysis and synthesis windows at sample `n` in a frame of `N` samples that ends at
sample `e` (exclusive); zero outside the frame. -/
def windowGain (N : Nat) (h f : List K) (n : Nat) (e : Int) : K :=
  if e - N ≤ n ∧ (n : Int) < e then h.getD (n - (e - N)).toNat 0 * f.getD (n - (e - N)).toNat 0 else 0

end
end Danse

namespace Danse

/-- The part of a schedule after the last update of node `q` (everything if there is none). -/
def evSince (q : Nat) (evs : List (ℚ × Nat × EvType)) : List (ℚ × Nat × EvType) :=
  evs.foldl (fun acc ev => if ev.2.1 = q ∧ ev.2.2 = .up then [] else acc ++ [ev]) []

/-- Number of broadcasts of node `k` in a schedule. -/
def evBcs (evs : List (ℚ × Nat × EvType)) (k : Nat) : Nat :=
  evs.countP fun ev => decide (ev.2.1 = k ∧ ev.2.2 = .bc)

end Danse
