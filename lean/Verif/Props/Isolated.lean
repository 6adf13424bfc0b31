import Verif.Proofs.Isolated
import Verif.Props.Scale

/-!
# Property C123: a node without neighbours

`danseRun D y T evs` is the main loop of `danse` on the recording `y` over the schedule `evs` (Model/Danse.lean);
`a.run.cfg.wInt k i` and `a.run.cfg.wLoc k i` are the rows of the DANSE and of the local filters of node `k`,
`a.run.st.d k` and `a.run.st.dLoc k` its DANSE and its local output.
-/

namespace Danse
section
variable {K : Type} [Field K] [StarRing K] [DecidableEq K] {D : DanseCfg K} {y : Nat → List (List K)}
  {T : Nat} {evs : List (ℚ × Nat × EvType)} {a : DanseSt D}

/-- C123: a node without neighbours (also the only node of a network) whose own channels are not phase-shifted and
whose DANSE and local filters start alike (`init_complex_filter` with the same sizes) has at every update the same
DANSE filter as local filter, and its DANSE output is sample by sample the local output: whatever the recording, the
schedule, the other nodes, the update rule, the rank test and the synthesis. -/
theorem C123_isolated (h : danseRun D y T evs = .ok a) {k : Nat} (hn : D.g.nb k = [])
    (hr : ∀ l c κ, D.rot k l c κ = 1) (hw : D.g.wInt k = D.g.wLoc k) :
    (∀ i, a.run.cfg.wInt k i = a.run.cfg.wLoc k i) ∧ a.run.st.d k = a.run.st.dLoc k := by
  have := danseRun_isolated hn hr hw h
  exact ⟨congrFun this.w, this.out⟩

end

/-- The DANSE and the local filters and output of the single node of `exLevel`. -/
noncomputable def exIsolatedRun (y : List ℚ) : Except PyErr ((List ℚ × List ℚ) × (List ℚ × List ℚ)) :=
  letI : StarRing ℚ := starRingOfComm
  (danseRun (exLevel true) (fun _ => [y]) 7 ((List.range 5).map fun (j : Nat) => ((j : ℚ) + 2, 0, .up))).map fun s =>
    (((s.run.cfg.wInt 0 4).flatten, s.run.st.d 0), ((s.run.cfg.wLoc 0 4).flatten, s.run.st.dLoc 0))

/-- A run to which `C123_isolated` applies, in which the filters are updated. -/
example : (exLevel true).g.nb 0 = [] ∧ (∀ l c κ, (exLevel true).rot 0 l c κ = 1) ∧
    (exLevel true).g.wInt 0 = (exLevel true).g.wLoc 0 ∧
    exIsolatedRun [4, 2, 2, 1, 5, 1, 3] =
      .ok (([-7 / 45, -11 / 5], [2, 2, 2, 37 / 15, -1183 / 555, 7 / 222, 0]),
        ([-7 / 45, -11 / 5], [2, 2, 2, 37 / 15, -1183 / 555, 7 / 222, 0])) := by
  refine ⟨rfl, fun _ _ _ => rfl, rfl, ?_⟩
  decide +kernel

end Danse
