import Verif.Model.NetFilts

/-!
# What a network-wide filter is

One frequency bin. A node estimates its signal from its own sensors and from the signals that it gets from
the other nodes; each of them is a combination of the sensors of one node (fully connected network) or of
all other nodes (tree). The network-wide filter is the filter on all sensors of the network that gives the
same estimate.
-/

namespace Danse

/-- `Σ_{j<n} conj(w j) x j`. -/
noncomputable def herm (n : Nat) (w x : Nat → ℂ) : ℂ := ((List.range n).map fun j => star (w j) * x j).sum

/-- The nodes other than `k`. -/
def othersOf (K k : Nat) : List Nat := (List.range K).filter (· ≠ k)

/-- Estimate of node `k` in a fully connected network: own sensors, then the fused signal of every other
node `q`, which is `herm (M q) (e q) (y q)`. -/
noncomputable def estimateFc (K : Nat) (M : Nat → Nat) (w : Nat → ℂ) (e y : Nat → Nat → ℂ) (k : Nat) : ℂ :=
  herm (M k) w (y k) +
    herm (othersOf K k).length (fun j => w (M k + j))
      (fun j => (othersOf K k).map (fun q => herm (M q) (e q) (y q)) |>.getD j 0)

/-- Estimate of node `k` in a tree: own sensors, then the sum of the fused signals of all other nodes. -/
noncomputable def estimateTi (K : Nat) (M : Nat → Nat) (w : Nat → ℂ) (p y : Nat → Nat → ℂ) (k : Nat) : ℂ :=
  herm (M k) w (y k) + star (w (M k)) * ((othersOf K k).map fun q => herm (M q) (p q) (y q)).sum

/-- Output of a filter on all sensors of the network. -/
noncomputable def applyNet (K : Nat) (M : Nat → Nat) (h y : Nat → Nat → ℂ) : ℂ :=
  ((List.range K).map fun q => herm (M q) (h q) (y q)).sum

/-- The network-wide filter of node `k`: from its filter `w` and the fusion vectors `e`. -/
noncomputable def netCoef (K : Nat) (M : Nat → Nat) (ti : Bool) (w : Nat → ℂ) (e : Nat → Nat → ℂ)
    (k q m : Nat) : ℂ :=
  if q = k then w m
  else if ti then e q m / e q (M q) * w (M k)
  else e q m * w (M k + (othersOf K k).idxOf q)

/-- Index of the column of sensor `m` of node `q`. -/
def colOf (M : Nat → Nat) (q m : Nat) : Nat := ((List.range q).map M).sum + m

end Danse
