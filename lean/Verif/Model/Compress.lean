import Verif.Model.Dft

/-!
# Model of the local signal compression and of the output synthesis

Models, from `danse_toolbox/d_base.py`: `danse_compression_whole_chunk` (1759-1868),
`danse_compression_few_samples` (1871-1937), `extract_few_samples_from_convolution` (1538-1566),
`dist_fct_approx` (1948-1991) and `get_desired_sig_chunk` (2027-2100).

Multichannel arrays are lists of channels. Arithmetic is exact, so `np.real_if_close` is the
identity on the values it is applied to (C35). `c` stands for `np.sqrt(Ns)`. The special treatment
of a single sensor (`flagSingleSensor`) only changes array shapes. NumPy broadcasting errors are
modelled where sizes depend on the configuration; array sizes that are fixed by construction
(windows, filters and frames all belong to the same DFT size) are assumed to match.
-/

namespace Danse
section
variable {K : Type} [Field K] [StarRing K]

/-- WOLA analysis of one channel: window, transform, scale, keep bins `0 .. N/2`
(d_base.py 1809-1813, 1820-1824; the same in d_classes.py 1927-1934). -/
def analysis (ζ : K) (N : Nat) (c : K) (h y : List K) : List K :=
  ((dft ζ N (List.zipWith (· * ·) y h)).take (N / 2 + 1)).map (· / c)

/-- `np.einsum('ij,ij->i', w.conj(), y)` (d_base.py 1818, 1827, 2075): combination of the channels
in each of `nf` bins. -/
def combine (nf : Nat) (w y : List (List K)) : List K :=
  (List.range nf).map fun k => ((w.zip y).map fun p => star (at0 p.1 k) * at0 p.2 k).sum

/-- `normVal` before the final slice (d_base.py 1845-1848). Adding the `N` squared window samples
to a slice that was clipped by the end of the array raises `ValueError`. -/
def normVal (N Ns : Nat) (h : List K) : Except PyErr (List K) :=
  (List.range (N / Ns)).foldlM (fun v ii =>
    if min (ii * Ns + N) (N + Ns) - ii * Ns ≠ h.length then .error .valueError
    else .ok (v.zipIdx.map fun (x, j) =>
      if ii * Ns ≤ j ∧ j < ii * Ns + N then x + at0 h (j - ii * Ns) ^ 2 else x))
    (List.replicate (N + Ns) 0)

/-- Overlap-add with the previous chunk and normalisation (d_base.py 1836-1853). For
`N - Ns = 0` the slice `zqPrevious[-0:]` is the whole chunk, which does not fit in an empty
slice. -/
def overlapAdd [DecidableEq K] (N Ns : Nat) (h prev cur : List K) : Except PyErr (List K) :=
  if prev.all (fun x => x = 0) then .ok cur
  else if N - Ns = 0 then .error .valueError
  else if Ns = 0 then .error .zeroDivisionError
  else do
    let nv ← normVal N Ns h
    .ok ((List.range N).map fun j =>
      let x := (if j < N - Ns then at0 prev (prev.length - (N - Ns) + j) else 0) + at0 cur j
      if j < Ns then x / at0 nv (Ns + j) else x)

/-- `danse_compression_whole_chunk` (d_base.py 1759-1868), time-domain result only. -/
def wholeChunk [DecidableEq K] (ζ : K) (N Ns : Nat) (c : K) (h f : List K)
    (yq wHat : List (List K)) (prev : List K) : Except PyErr (List K) := do
  let zHat := combine (N / 2 + 1) wHat (yq.map (analysis ζ N c h))
  let z ← backToTD ζ N zHat
  overlapAdd N Ns h prev (List.zipWith (· * ·) (z.map (c * ·)) f)

/-- The run of a node's whole-chunk broadcasts (d_classes.py 1070-1086): `zLocal` is kept from one
broadcast to the next, its first `Ns` samples are sent. -/
def wholeChunkRun [DecidableEq K] (ζ : K) (N Ns : Nat) (c : K) (h f : List K) (wHat : List (List K)) :
    List K → List (List (List K)) → Except PyErr (List (List K))
  | _, [] => .ok []
  | prev, y :: ys => do
    let z ← wholeChunk ζ N Ns c h f y wHat prev
    let r ← wholeChunkRun ζ N Ns c h f wHat z ys
    .ok (z.take Ns :: r)

/-- `extract_few_samples_from_convolution` (d_base.py 1538-1566). A slice clipped by the end of
the array has the wrong length for `np.dot`, which raises `ValueError`. -/
def extractConv (idDesired : List Int) (a b : List K) : Except PyErr (List K) :=
  let yqzp := List.replicate a.length 0 ++ b ++ List.replicate a.length 0
  idDesired.mapM fun id =>
    let s := pySlice yqzp (id + 1) (id + 1 + a.length)
    if s.length ≠ a.length then .error .valueError
    else .ok (List.zipWith (· * ·) s a.reverse).sum

/-- Entry `(i, j)` of `sla.circulant(np.flip(w))` (d_base.py 1979). -/
def circFlip (n : Nat) (w : List K) (i j : Nat) : K := at0 w.reverse ((i + n - j) % n)

/-- One column of `dist_fct_approx` (d_base.py 1972-1989) from the time-domain filter: traces of
`diag(f) @ Hmat @ diag(h)` at offsets `-n+1 .. n-1`, divided by the hop `R`. -/
def distFctTD (n : Nat) (wTD h f : List K) (R : K) : List K :=
  (List.range (2 * n - 1)).map fun p =>
    (∑ i ∈ Finset.range n, if n - 1 ≤ i + p ∧ i + p - (n - 1) < n then
      at0 f i * circFlip n wTD i (i + p - (n - 1)) * at0 h (i + p - (n - 1)) else 0) / R

/-- `dist_fct_approx` (d_base.py 1948-1991), one list per channel. -/
def distFct (ζ : K) (n : Nat) (wHat : List (List K)) (h f : List K) (R : K) :
    Except PyErr (List (List K)) :=
  wHat.mapM fun w => do
    let wTD ← backToTD ζ n (w.map star)
    .ok (distFctTD n wTD h f R)

/-- Sum over the channels, sample by sample (`np.sum(..., axis=1)`). -/
def sumChannels (L : Nat) (l : List (List K)) : List K :=
  (List.range L).map fun i => (l.map fun x => at0 x i).sum

/-- `danse_compression_few_samples` (d_base.py 1917-1937): the filters `wIR` are given (they are
either the previous ones or fresh from `distFct`); `P = len(wIR)`. -/
def fewSamples (L P : Nat) (wIR yq : List (List K)) : Except PyErr (List K) := do
  let r ← (wIR.zip yq).mapM fun p =>
    extractConv ((List.range L).map fun (l : Nat) => (P : Int) - L + 1 + l) p.1 p.2
  .ok (sumChannels L r)

/-- The `conv` branch of `get_desired_sig_chunk` (d_base.py 2085-2098). -/
def desiredConv (Ns P : Nat) (wIR yTD : List (List K)) : Except PyErr (List K) := do
  let r ← (wIR.zip yTD).mapM fun p =>
    extractConv ((List.range Ns).map fun (l : Nat) => (P : Int) - Ns + l) p.1 p.2
  .ok (sumChannels Ns r)

/-- The `wola` branch of `get_desired_sig_chunk` (d_base.py 2073-2083): current windowed output
frame. -/
def desiredFrame (ζ : K) (N : Nat) (c : K) (win : List K) (w yHat : List (List K)) :
    Except PyErr (List K) := do
  let z ← backToTD ζ N (combine (N / 2 + 1) w yHat)
  .ok (List.zipWith (fun a b => c * a * b) win z)

/-- `d[idxBeg:idxEnd] += frame` (d_base.py 2080-2083 with d_classes.py 2641-2652): as many last
samples of the frame as the slice holds are added to it. For an empty slice `frame[-0:]` is the whole
frame and the addition raises `ValueError`; so does a slice that is longer than the frame. -/
def addFrame (d : List K) (idxBeg idxEnd : Nat) (frame : List K) : Except PyErr (List K) :=
  let m := min idxEnd d.length - idxBeg
  if m = 0 ∨ frame.length < m then .error .valueError
  else .ok (d.zipIdx.map fun (x, j) =>
    if idxBeg ≤ j ∧ j < idxEnd then x + at0 frame (frame.length - m + (j - idxBeg)) else x)

/-- Output synthesis over successive updates (d_classes.py 2641-2655): position of the frame in the
output, filter and observation frame of each update. -/
def desiredRun (ζ : K) (N : Nat) (c : K) (h win : List K) :
    List K → List (Nat × Nat × List (List K) × List (List K)) → Except PyErr (List K)
  | d, [] => .ok d
  | d, (b, e, w, y) :: r => do
    let fr ← desiredFrame ζ N c win w (y.map (analysis ζ N c h))
    let d ← addFrame d b e fr
    desiredRun ζ N c h win d r

end
end Danse
