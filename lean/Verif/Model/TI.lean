import Verif.Model.Tree
import Verif.Model.Dft

/-!
# TI-DANSE in-network summation

Signals are lists of samples. NumPy broadcasting of one-element arrays is reproduced, any other
length mismatch is a `ValueError`.
-/

namespace Danse

section
variable {K : Type} [Field K] {V : Type} [DecidableEq V]

/-- `a += b` on 1-D arrays (result keeps the length of `a`). -/
def npIAdd (a b : List K) : Except PyErr (List K) :=
  if a.length = b.length then .ok (List.zipWith (· + ·) a b)
  else if b.length = 1 then .ok (a.map (· + at0 b 0))
  else .error .valueError

/-- `a - b` on 1-D arrays. -/
def npSub (a b : List K) : Except PyErr (List K) :=
  if a.length = b.length then .ok (List.zipWith (· - ·) a b)
  else if b.length = 1 then .ok (a.map (· - at0 b 0))
  else if a.length = 1 then .ok (b.map (at0 a 0 - ·))
  else .error .valueError

/-- The per-node arrays of `TIDANSEvariables` used by the in-network sum (d_classes.py 2734-2745,
781). -/
structure TIState (V K : Type) where
  /-- `zLocalPrime`: fused local signal -/
  prime : V → List K
  /-- `zLocalPrimeBuffer`: newest output of the fusion -/
  buf : V → List K
  /-- `zLocal`: partial in-network sum -/
  zloc : V → List K
  /-- `eta`: full in-network sum -/
  eta : V → List K
  /-- `etaMk`: full in-network sum without the own fused signal -/
  etaMk : V → List K

/-- `ti_compute_partial_sum` (d_classes.py 2875-2900); `up` is `upstreamNeighbors`, `root` is
`currentWasnTreeObj.rootIdx`. -/
def tiPartialSum (up : V → List V) (root : V) (N Ns : Nat) (s : TIState V K) (k : V) :
    Except PyErr (TIState V K) := do
  -- zLocalPrime[k][-(N - Ns):] ++ zLocalPrimeBuffer[k][:Ns]
  let p := pySlice (s.prime k) (-((N : Int) - Ns)) (s.prime k).length ++
    pySlice (s.buf k) 0 Ns
  let s1 : TIState V K :=
    { s with prime := Function.update s.prime k p, zloc := Function.update s.zloc k p }
  let s2 ← (up k).foldlM (fun (s : TIState V K) l =>
    if (s.zloc l).length = 0 then .ok s
    else do
      let z ← npIAdd (s.zloc k) (s.zloc l)
      .ok { s with zloc := Function.update s.zloc k z }) s1
  if root = k then do
    let s3 : TIState V K := { s2 with eta := Function.update s2.eta k (s2.zloc k) }
    let e ← npSub (s3.eta k) (s3.prime k)
    .ok { s3 with etaMk := Function.update s3.etaMk k e }
  else .ok s2

/-- `ti_relay_innetwork_sum_upstream` (d_classes.py 2902-2918). -/
def tiRelay (up : V → List V) (s : TIState V K) (k : V) : Except PyErr (TIState V K) :=
  (up k).foldlM (fun (s : TIState V K) l => do
    let s1 : TIState V K := { s with eta := Function.update s.eta l (s.eta k) }
    if (s1.eta l).length > 0 then do
      let e ← npSub (s1.eta l) (s1.prime l)
      .ok { s1 with etaMk := Function.update s1.etaMk l e }
    else .ok { s1 with etaMk := Function.update s1.etaMk l [] }) s

/-- The events of one instant that concern the in-network sum (d_core.py 191-214). -/
inductive TIEv (V : Type) where
  | fu (k : V)
  | bc (k : V)
  | re (k : V)
  deriving DecidableEq

/-- Dispatch of one event (d_core.py 199-207). The fusion (`ti_fusion`, d_classes.py 2785-2853)
enters as its result `fused k`, the array stored in `zLocalPrimeBuffer[k]`; see
`Verif/Model/Compress.lean` for the compression itself. -/
def tiEvent (up : V → List V) (root : V) (N Ns : Nat) (fused : V → List K) (s : TIState V K) :
    TIEv V → Except PyErr (TIState V K)
  | .fu k => .ok { s with buf := Function.update s.buf k (fused k) }
  | .bc k => tiPartialSum up root N Ns s k
  | .re k => tiRelay up s k

/-- All in-network-sum events of one instant, in order (d_core.py 191). -/
def tiInstant (up : V → List V) (root : V) (N Ns : Nat) (fused : V → List K) (s : TIState V K)
    (evs : List (TIEv V)) : Except PyErr (TIState V K) :=
  evs.foldlM (tiEvent up root N Ns fused) s

end
end Danse
