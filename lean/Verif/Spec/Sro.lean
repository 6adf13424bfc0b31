import Verif.Model.Sro

/-!
# Vocabulary for the sampling-rate-offset properties
-/

namespace Danse

/-- The sample-drift flag of neighbour number `q` in one vector of flags (NaN counts as 0). -/
def flagAt (flags : List (Option ℚ)) (q : Nat) : ℚ := (flags.getD q none).getD 0

/-- Sum of the flags of neighbour number `q` over a history of updates. -/
def flagTotal (xs : List SroIn) (q : Nat) : ℚ := (xs.map fun x => flagAt x.flags q).sum

/-- Sum of the flags of node `q` over a history of updates, for the centralised estimate. -/
def flagTotalC (xs : List SroIn) (q : Nat) : ℚ := (xs.map fun x => flagAt x.flagsC q).sum

/-- Channel `j` of the centralised observation belongs to node `q`. -/
def channelOf (nSensors : List Nat) (q j : Nat) : Prop :=
  (nSensors.take q).sum ≤ j ∧ j < (nSensors.take (q + 1)).sum

/-- The misalignment, in samples of the sender, of a frame that ends at the sender's sample number
`R` (rate `fq`), against a frame that ends at the receiver's sample number `L` (rate `fk`): positive
when the sender's frame ends later. -/
def misalign (R L fq fk : ℚ) : ℚ := R - L / fk * fq

/-- The shift (in samples) that update `i` applied to channel `j`. -/
def shiftAt (os : List SroOut) (i j : Nat) : ℚ := (((os[i]?).bind (·.applied)).bind (·[j]?)).getD 0

/-- The delay, in samples, of channel `j` (the signal of neighbour number `q`, whose clock is faster than
the own one by the factor `1 + ε`) at update `i`: the clocks drift apart by `ε * Ns` samples from one
update to the next, samples taken from the buffer in addition (flags) make up for delay, and the
shift is that of the compensation. -/
def delayLeft (ε : ℚ) (Ns : Nat) (xs : List SroIn) (os : List SroOut) (q j i : Nat) : ℚ :=
  ε * Ns * i - flagTotal (xs.take (i + 1)) q + shiftAt os i j

/-- A frame of `N` samples, delayed circularly by `d` samples. -/
def circDelay {K : Type} [Zero K] (N : Nat) (d : Int) (x : List K) : List K :=
  (List.range N).map fun (t : Nat) => x.getD (((t : Int) - d) % N).toNat 0

end Danse
