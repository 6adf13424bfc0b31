import Verif.Model.AdaptRun
import Verif.Model.TIRun

/-!
# Model of the fused signals kept for the outputs

`broadcast` keeps in `zFullTD[k]` the samples that node `k` sends with whole-chunk broadcasts (d_classes.py 882,
1082-1086); `ti_build_ytilde` keeps in `etaMkFullTD[k]` the oldest `Ns` samples of the in-network sum (2746,
3112-3115). `from_variables` copies both (d_post.py 92-94) and `export_sounds` writes them to files (1238-1261).

The runs are those of `AdaptRun` and `TIRun`, with these signals beside.
-/

namespace Danse
section
variable {K : Type} [Field K] [StarRing K] [DecidableEq K]

/-- A run together with `zFullTD`. -/
structure FusedSt (K : Type) where
  run : AdaptSt K
  zFull : Nat → List K

/-- `zFullTD[k] = np.concatenate((zFullTD[k], zLocal[k][:Ns]))` after a whole-chunk broadcast (d_classes.py
1082-1086); few-sample broadcasts leave it. `a` is the state after the event. -/
def keepFused (a : AdaptSt K) (z : Nat → List K) (ev : ℚ × Nat × EvType) : Nat → List K :=
  match ev.2.2, a.cfg.bc with
  | .bc, .whole => Function.update z ev.2.1 (z ev.2.1 ++ pySlice (a.st.zLocal ev.2.1) 0 a.cfg.Ns)
  | _, _ => z

/-- One event of the main loop (d_core.py 75-92). -/
def fusedStep (U : Strategy K) (y : Nat → List (List K)) (s : FusedSt K) (ev : ℚ × Nat × EvType) :
    Except PyErr (FusedSt K) := do
  let a ← adaptStep U y s.run ev
  .ok ⟨a, keepFused a s.zFull ev⟩

/-- The main loop (d_core.py 66-92), from empty fused signals (d_classes.py 882) on. -/
def fusedRun (U : Strategy K) (y : Nat → List (List K)) (g : GivenCfg K) (T : Nat) (M : Nat → Nat)
    (evs : List (ℚ × Nat × EvType)) : Except PyErr (FusedSt K) :=
  evs.foldlM (fusedStep U y) ⟨.init g T M, fun _ => []⟩

variable {n : Nat}

/-- A TI-DANSE run together with `etaMkFullTD`. -/
structure FusedTISt (n : Nat) (K : Type) where
  run : TISt n K
  eFull : Fin n → List K

/-- One event of the main loop of `tidanse` (d_core.py 191-230): an update of node `k` appends `etaMk[k][:Ns]` to
`etaMkFullTD[k]` (d_classes.py 3112-3115). -/
def fusedTIStepEv (g : GivenCfg K) (U : TIStrategy n K) (y : Fin n → List (List K)) (trees : List (TreeObj n)) (t : ℚ)
    (s : FusedTISt n K) (e : OutEv) : Except PyErr (FusedTISt n K) := do
  let r ← tiStepEv g U y trees t s.run e
  .ok ⟨r, if h : e.ty = .up ∧ e.node < n then
      Function.update s.eFull ⟨e.node, h.2⟩ (s.eFull ⟨e.node, h.2⟩ ++ pySlice (s.run.net.etaMk ⟨e.node, h.2⟩) 0 g.Ns)
    else s.eFull⟩

/-- The main loop of `tidanse` (d_core.py 190-230), from empty signals (d_classes.py 2746) on. -/
def fusedTIRun (g : GivenCfg K) (U : TIStrategy n K) (y : Fin n → List (List K)) (trees : List (TreeObj n))
    (s : TISt n K) (out : List (Instant ℚ)) : Except PyErr (FusedTISt n K) :=
  out.foldlM (fun s i => i.evs.foldlM (fusedTIStepEv g U y trees i.t) s) ⟨s, fun _ => []⟩

end
end Danse
