import Verif.Model.Dxcp

/-!
# Specifications for the online SRO estimator

Written without the state machine of the model: every quantity is defined from the history of input
frames.
-/

namespace Danse

section
variable {α A C E : Type}

/-- The most recent `m` samples of the input, zeros before its beginning, after `n` frames. -/
def latest [Zero α] (m : Nat) (frames : List (List α)) (n : Nat) : List α :=
  let h := List.replicate m 0 ++ (frames.take n).flatten
  h.drop (h.length - m)

/-- The averaged cross-spectrum after update `m` (counted from 1), when the `m`-th update sees the
samples `bufs m`. -/
def specAvg [Zero A] (f : DxFuns α A C E) (bufs : Nat → List α) : Nat → A
  | 0 => 0
  | 1 => f.gcsd (bufs 1)
  | m + 2 => f.smooth1 (specAvg f bufs (m + 1)) (f.gcsd (bufs (m + 2)))

/-- The second average after update `m`: from update `start` on it accumulates the comparison of
the current average with the one `sep` updates earlier, beginning at zero. -/
def specAvg2 [Zero A] [Zero C] (f : DxFuns α A C E) (bufs : Nat → List α) (start sep : Nat) : Nat → C
  | 0 => 0
  | m + 1 => if start ≤ m + 1 then
      f.smooth2 (specAvg2 f bufs start sep m)
        (f.cross (specAvg f bufs (m + 1)) (specAvg f bufs (m + 1 - sep)))
    else 0

/-- The reported estimate after update `m`: zero until update `ready`. -/
def specEst [Zero A] [Zero C] [Zero E] (f : DxFuns α A C E) (bufs : Nat → List α)
    (start sep ready m : Nat) : E :=
  if ready ≤ m then f.peak (specAvg2 f bufs start sep m) else 0

end

/-- The items written since the last `clear`. -/
inductive DelayOp (α : Type) where
  | write (x : α)
  | clear

/-- What has been written since the buffer was last cleared. -/
def sinceClear {α : Type} (ops : List (DelayOp α)) : List α :=
  ops.foldl (fun acc o => match o with
    | .write x => acc ++ [x]
    | .clear => []) []

/-- `n` consecutive samples of a signal from time `a`. -/
def seg (x : Int → ℝ) (a : Int) (n : Nat) : List ℝ := (List.range n).map fun (i : Nat) => x (a + i)

/-- `a + c·b`, sample by sample. -/
def lin (c : ℝ) (a b : List ℝ) : List ℝ := List.zipWith (fun u v => u + c * v) a b

/-- The block `m` blocks before block `n`, zeros before the beginning. -/
def earlier (B m : Nat) (blocks : List (List ℝ)) (n : Nat) : List ℝ :=
  if n < m then List.replicate B 0 else blocks.getD (n - m) []

/-- The gain bound of the controller. -/
def imcGain : ℚ := (|kNom.2.1| + |kNom.2.2|) / (1 + kDen.1 + kDen.2)

end Danse
