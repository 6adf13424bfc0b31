import Mathlib.Data.Rat.Floor
import Verif.Model.Dft
import Verif.Model.Dxcp
import Verif.Model.Params

/-!
# `gen_offset` (dxcpphat/demo_utils.py 492-542)

Shifts a signal by a (fractional) number of samples, block by block. Numbers are elements of a field with a
conjugation, `ζ` stands for `exp(2πi/fft_size)`, arithmetic is exact. `ph rest i` stands for
`exp(-2πi k_i / fft_size * rest)`, `k_i` being entry `i` of `k` (496); `win B` for `hann(B, sym=False)` (506).
`while True` is bounded by `fuel`: running out of it is `none`.
-/

namespace Danse
section
variable {K : Type} [Field K] [StarRing K]

/-- The block that starts at sample `bs` of the signal, zero outside the signal (demo_utils.py 511-524). -/
def srcBlock (B : Nat) (sig : List K) (bs : Int) : List K :=
  if bs < 0 then
    if bs + B < 0 then List.replicate B 0
    else List.replicate (B - (bs + B)).toNat 0 ++ sig.take (bs + B).toNat
  else if bs + B > sig.length then
    sig.drop bs.toNat ++ List.replicate (B - (sig.drop bs.toNat).length) 0
  else (sig.drop bs.toNat).take B

/-- `len_rest` (demo_utils.py 500, 522): number of signal samples in an incomplete last block. -/
def restLen (B : Nat) (sig : List K) (bs : Int) (prev : Nat) : Nat :=
  if 0 ≤ bs ∧ bs + B > sig.length then (sig.drop bs.toNat).length else prev

/-- `sig_offset = np.pad(…)` if too short, then `sig_offset[s:s + len(blk)] += blk`
(demo_utils.py 531-536). -/
def addAt (out blk : List K) (s : Nat) : List K :=
  (List.range (max out.length (s + blk.length))).map fun n =>
    at0 out n + if s ≤ n then at0 blk (n - s) else 0

/-- Windowing, transform, phase, inverse transform and real part of a block (demo_utils.py 526-527, 535-536). -/
def shiftBlock (ζ : K) (F B : Nat) (ph : Nat → K) (win blk : List K) : List K :=
  let spec := dft ζ F (List.zipWith (· * ·) win blk)
  let spec := List.zipWith (· * ·) spec ((List.range F).map ph)
  ((idft ζ F spec).map rePart).take B

/-- The loop (demo_utils.py 508-542). `off` is `integer_offset`. -/
def offsetLoop (ζ : K) (F B : Nat) (ph : Nat → K) (win sig : List K) (off : Int) :
    Nat → Nat → Nat → List K → Option (Except PyErr (List K))
  | 0, _, _, _ => none
  | fuel + 1, idx, lenRest, out =>
    let bs := pyInt ((idx : ℚ) * B / 2 + off)
    let blk := srcBlock B sig bs
    let lenRest := restLen B sig bs lenRest
    if win.length ≠ blk.length then some (.error .valueError)
    else
      let bd := (pyInt ((idx : ℚ) * B / 2)).toNat
      let out := addAt out (shiftBlock ζ F B ph win blk) bd
      if pyInt ((idx : ℚ) * B / 2 - off) + B > sig.length then some (.ok (out.take (bd + lenRest)))
      else offsetLoop ζ F B ph win sig off fuel (idx + 1) lenRest out

/-- `gen_offset(sig, offset, fft_size)` (demo_utils.py 492-542). -/
def genOffset (ζ : K) (ph : ℚ → Nat → K) (win : Nat → List K) (sig : List K) (offset : ℚ) (F fuel : Nat) :
    Option (Except PyErr (List K)) :=
  let B := F / 2
  let off := roundHE offset
  offsetLoop ζ F B (ph (off - offset)) (win B) sig off fuel 0 0 (List.replicate sig.length 0)

end
end Danse
