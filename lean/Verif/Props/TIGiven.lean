import Verif.Proofs.TIGiven3
import Verif.Props.TITotal

/-!
# C85: speech-only and noise-only re-runs of TI-DANSE

`ys`, `yn`, `y` are the clean speech, the clean noise and their sum at every node; `out` is any schedule,
`trees` are any trees. `TIStrategy.given F` is a run that copies the filters `F`; `recorded U s` are the
filters that a run with the update rule `U` which ended in the state `s` wrote.
-/

set_option linter.unusedSectionVars false

namespace Danse
section
variable {n : Nat} {K : Type} [Field K] [StarRing K] [DecidableEq K] {g : GivenCfg K} {U : TIStrategy n K}
  {ys yn y : Fin n → List (List K)} {trees : List (TreeObj n)}

/-- C85 (a): few-sample broadcasts; re-running with given filters on the clean speech and on the clean noise
gives outputs that add up, at every sample, to those of the re-run on the sum. -/
theorem C85_additive {L : Nat} {eff : Bool} (hb : g.bc = .few L eff) (hy : ∀ k, SumsM (ys k) (yn k) (y k))
    (F : Fin n → Nat → Rows K) (N r T : Nat) (ext : Fin n → List (List K)) (up0 : Fin n → List (Fin n))
    (out : List (Instant ℚ)) {s v : TISt n K}
    (hs : tiRun g (.given F) ys trees (.init N r T ys ext up0) out = .ok s)
    (hv : tiRun g (.given F) yn trees (.init N r T yn ext up0) out = .ok v) :
    ∃ m, tiRun g (.given F) y trees (.init N r T y ext up0) out = .ok m ∧
      ∀ k, Sums (s.node k).d (v.node k).d (m.node k).d ∧ Sums (s.node k).dLoc (v.node k).dLoc (m.node k).dLoc := by
  obtain ⟨m, hm, hr⟩ := tiRun_sums_few (F := F) hy trees hb out (tiInit_rel N r T hy ext up0) s v hs hv
  exact ⟨m, hm, fun k => ⟨(hr.node k).d, (hr.node k).dLoc⟩⟩

/-- C85 (b): the same with whole-chunk broadcasts, as long as at no point of the schedule (also within an
instant) the last fused chunk of a node is silent in one of the runs but not in another. -/
theorem C85_additive_whole (hy : ∀ k, SumsM (ys k) (yn k) (y k))
    (F : Fin n → Nat → Rows K) (N r T : Nat) (ext : Fin n → List (List K)) (up0 : Fin n → List (Fin n))
    (out : List (Instant ℚ)) {s v : TISt n K}
    (hs : tiRun g (.given F) ys trees (.init N r T ys ext up0) out = .ok s)
    (hv : tiRun g (.given F) yn trees (.init N r T yn ext up0) out = .ok v)
    (hz : ∀ pre i post es es', out = pre ++ i :: post → i.evs = es ++ es' → ∀ a b c,
      tiRun g (.given F) ys trees (.init N r T ys ext up0) (pre ++ [⟨i.t, es⟩]) = .ok a →
      tiRun g (.given F) yn trees (.init N r T yn ext up0) (pre ++ [⟨i.t, es⟩]) = .ok b →
      tiRun g (.given F) y trees (.init N r T y ext up0) (pre ++ [⟨i.t, es⟩]) = .ok c →
      ∀ k, silent (a.net.buf k) = silent (c.net.buf k) ∧ silent (b.net.buf k) = silent (c.net.buf k)) :
    ∃ m, tiRun g (.given F) y trees (.init N r T y ext up0) out = .ok m ∧
      ∀ k, Sums (s.node k).d (v.node k).d (m.node k).d ∧ Sums (s.node k).dLoc (v.node k).dLoc (m.node k).dLoc := by
  obtain ⟨m, hm, hr⟩ := tiRun_sums_whole (F := F) hy trees out (tiInit_rel N r T hy ext up0) hz s v hs hv
  exact ⟨m, hm, fun k => ⟨(hr.node k).d, (hr.node k).dLoc⟩⟩

/-- C85 (c): few-sample broadcasts; re-running with the filters that a run wrote reproduces that run,
however it computed them: the same outputs, the same observations and the same in-network sums. -/
theorem C85_reproduces {L : Nat} {eff : Bool} (hb : g.bc = .few L eff) {s0 s : TISt n K} {out : List (Instant ℚ)}
    (h : tiRun g U y trees s0 out = .ok s) :
    ∃ s', tiRun g (.given (recorded U s)) y trees s0 out = .ok s' ∧ s'.net = s.net ∧
      ∀ k, (s'.node k).d = (s.node k).d ∧ (s'.node k).dLoc = (s.node k).dLoc ∧
        (s'.node k).hist = (s.node k).hist ∧ (s'.node k).ext = (s.node k).ext := by
  obtain ⟨s', h1, h2⟩ := tiRun_given hb h
  refine ⟨s', h1, h2.net, fun k => ?_⟩
  obtain ⟨f, hf⟩ := h2.node k
  rw [hf]
  exact ⟨rfl, rfl, rfl, rfl⟩

/-- C85 (d): few-sample broadcasts; so the outputs of a TI-DANSE run on the mixture, which computes its
filters itself, are at every sample the sum of the outputs of the speech-only and noise-only re-runs with its
filters. -/
theorem C85_mixture {L : Nat} {eff : Bool} (hb : g.bc = .few L eff) (hy : ∀ k, SumsM (ys k) (yn k) (y k))
    (N r T : Nat) (ext : Fin n → List (List K)) (up0 : Fin n → List (Fin n)) (out : List (Instant ℚ))
    {m s v : TISt n K} (hm : tiRun g U y trees (.init N r T y ext up0) out = .ok m)
    (hs : tiRun g (.given (recorded U m)) ys trees (.init N r T ys ext up0) out = .ok s)
    (hv : tiRun g (.given (recorded U m)) yn trees (.init N r T yn ext up0) out = .ok v) (k : Fin n) :
    Sums (s.node k).d (v.node k).d (m.node k).d ∧ Sums (s.node k).dLoc (v.node k).dLoc (m.node k).dLoc := by
  obtain ⟨m', h1, h2⟩ := C85_additive (trees := trees) hb hy (recorded U m) N r T ext up0 out hs hv
  obtain ⟨m'', h3, _, h4⟩ := C85_reproduces hb hm
  rw [h1] at h3
  injection h3 with h3
  subst h3
  have := h2 k
  rwa [(h4 k).1, (h4 k).2.1] at this

/-- C85 (e): with few-sample broadcasts the fused signals are never normalised by the weight `g_k` on the
in-network sum: two update rules that differ only in that weight (the channels of the external filters after
those of the node's own sensors) and in when updates start give the same outputs, observations and in-network
sums. (With whole-chunk broadcasts they do not: see `C85_whole_uses_weight`.) -/
theorem C85_few_ignores_weight {L : Nat} {eff : Bool} (hb : g.bc = .few L eff) {U' : TIStrategy n K}
    (hr : ∀ k h, (U.rows k h).int = (U'.rows k h).int ∧ (U.rows k h).loc = (U'.rows k h).loc ∧
      (U.rows k h).ext.take (y k).length = (U'.rows k h).ext.take (y k).length)
    {ext ext' : Fin n → List (List K)} (hext : ∀ k, (ext k).take (y k).length = (ext' k).take (y k).length)
    (N r T : Nat) (up0 : Fin n → List (Fin n)) (out : List (Instant ℚ)) {s s' : TISt n K}
    (h : tiRun g U y trees (.init N r T y ext up0) out = .ok s)
    (h' : tiRun g U' y trees (.init N r T y ext' up0) out = .ok s') :
    s'.net = s.net ∧ ∀ k, (s'.node k).d = (s.node k).d ∧ (s'.node k).dLoc = (s.node k).dLoc ∧
      (s'.node k).hist = (s.node k).hist := by
  have hrel := tiRun_noGk (trees := trees) hb hr
    (a := .init N r T y ext up0) (b := .init N r T y ext' up0)
    ⟨rfl, rfl, rfl, rfl, fun k => ⟨hext k, rfl, rfl, rfl, rfl, rfl, rfl⟩⟩ out s s' h h'
  exact ⟨hrel.net.symm, fun k => ⟨(hrel.node k).d.symm, (hrel.node k).dLoc.symm, (hrel.node k).hist.symm⟩⟩

end

/-! ## Concrete runs: the four nodes of `TISched` -/

section
local instance : StarRing ℚ := starRingOfComm

/-- Speech, and the noise that is left of `exTISig`. -/
def exTISp (k : Fin 4) : List (List ℚ) := [[0, 0, 0, 1, 2, (k : Nat), 1]]
def exTINo (k : Fin 4) : List (List ℚ) :=
  [[[3, 1, 4, 0, 3, 9, 1], [2, 7, 1, 7, 0, 7, 0], [1, 4, 1, 3, 0, -1, 2], [1, 6, 1, 7, -2, 0, 2]].getD k []]

theorem exTISums (k : Fin 4) : SumsM (exTISp k) (exTINo k) (exTISig k) := by
  fin_cases k <;>
    (refine All3.cons ?_ All3.nil
     repeat' (first | exact All3.nil | refine All3.cons (by decide +kernel) ?_))

/-- State before the first event. -/
def exTIStart (y : Fin 4 → List (List ℚ)) : TISt 4 ℚ := .init 2 0 7 y (fun _ => [[1, 1], [0, 0]]) (fun _ => [])

/-- Outputs of nodes 0 and 1 of a run. -/
def exTIOutputs (bc : BcType) (U : TIStrategy 4 ℚ) (y : Fin 4 → List (List ℚ)) : Option (List (List ℚ)) :=
  (tiRun (exTI bc) U y [(exTITree 0 0).1, (exTITree 0 1).1] (exTIStart y) exTIOut).toOption.map fun s =>
    [(s.node 0).d, (s.node 1).d]

/-- The re-run with the filters of the run on the mixture. -/
def exTIAgain (bc : BcType) (y : Fin 4 → List (List ℚ)) : Option (List (List ℚ)) :=
  (tiRun (exTI bc) exTIStrategy exTISig [(exTITree 0 0).1, (exTITree 0 1).1] (exTIStart exTISig)
    exTIOut).toOption.bind fun m => exTIOutputs bc (.given (recorded exTIStrategy m)) y

/-- The hypotheses of (a), (c) and (d) are met: all runs end normally, the components add up. -/
example : exTIOutputs (.few 1 false) exTIStrategy exTISig = some [[0, 0, 7, 42, 9, 0, 0], [0, 0, 7, 42, 9, 0, 0]] ∧
    exTIAgain (.few 1 false) exTISp = some [[0, 0, 0, 8, 8, 0, 0], [0, 0, 0, 8, 8, 0, 0]] ∧
    exTIAgain (.few 1 false) exTINo = some [[0, 0, 7, 34, 1, 0, 0], [0, 0, 7, 34, 1, 0, 0]] := by
  decide +kernel

/-- C85, refuted part: with whole-chunk broadcasts the re-runs with the filters of a run do not use the fusion
vectors of that run (`startUpdates` stays `False`, so they are not divided by `g_k`). The fourth output sample of
node 0 is 95/4; in the speech-only and noise-only re-runs it is 17/2 and 24, and even the re-run on the
mixture itself gives 65/2. The signal-to-noise ratios are those of another system. -/
theorem C85_whole_chunk_refuted : (∀ k, SumsM (exTISp k) (exTINo k) (exTISig k)) ∧
    exTIOutputs .whole exTIStrategy exTISig = some [[0, 18, 14, 95 / 4, 0, 0, 0], [0, 18, 14, 23, 0, 0, 0]] ∧
    exTIAgain .whole exTISp = some [[0, 0, 0, 17 / 2, 0, 0, 0], [0, 0, 0, 31 / 4, 0, 0, 0]] ∧
    exTIAgain .whole exTINo = some [[0, 18, 14, 24, 0, 0, 0], [0, 18, 14, 89 / 4, 0, 0, 0]] ∧
    exTIAgain .whole exTISig = some [[0, 18, 14, 65 / 2, 0, 0, 0], [0, 18, 14, 30, 0, 0, 0]] :=
  ⟨exTISums, by decide +kernel, by decide +kernel, by decide +kernel, by decide +kernel⟩

/-- `exTIStrategy` with another weight on the in-network sum. -/
def exTIWeight : TIStrategy 4 ℚ :=
  { rows := fun k hist => ⟨[[1, 1], [1, 1]], [[(hist.length : ℚ) + k, 1], [4, 1]], [[1, 1]]⟩
    started := fun _ _ => true }

/-- `C85_few_ignores_weight` applies to `exTIStrategy` and `exTIWeight`. -/
example {tr : List (TreeObj 4)} {out : List (Instant ℚ)} {s s' : TISt 4 ℚ}
    (h : tiRun (exTI (.few 1 false)) exTIStrategy exTISig tr
      (.init 2 0 7 exTISig (fun _ => [[1, 1], [0, 0]]) (fun _ => [])) out = .ok s)
    (h' : tiRun (exTI (.few 1 false)) exTIWeight exTISig tr
      (.init 2 0 7 exTISig (fun _ => [[1, 1], [0, 0]]) (fun _ => [])) out = .ok s') :
    s'.net = s.net ∧ ∀ k, (s'.node k).d = (s.node k).d ∧ (s'.node k).dLoc = (s.node k).dLoc ∧
      (s'.node k).hist = (s.node k).hist :=
  C85_few_ignores_weight (U := exTIStrategy) (y := exTISig) (U' := exTIWeight) (g := exTI (.few 1 false)) rfl (fun _ _ => ⟨rfl, rfl, rfl⟩) (fun _ => rfl) 2 0 7 _ out h h'

/-- C85 (f): the two broadcasting modes do not agree on the fusion vector: with whole-chunk broadcasts the weight
on the in-network sum changes the outputs. -/
theorem C85_whole_uses_weight :
    exTIOutputs (.few 1 false) exTIWeight exTISig = exTIOutputs (.few 1 false) exTIStrategy exTISig ∧
    (exTIOutputs (.few 1 false) exTIStrategy exTISig).isSome = true ∧
    exTIOutputs .whole exTIStrategy exTISig = some [[0, 18, 14, 95 / 4, 0, 0, 0], [0, 18, 14, 23, 0, 0, 0]] ∧
    exTIOutputs .whole exTIWeight exTISig ≠ exTIOutputs .whole exTIStrategy exTISig := by
  decide +kernel

/-- The hypotheses of (b) are met by signals that are nowhere silent: the noise, twice the noise and three
times the noise. -/
example : ∀ c ∈ [1, 2, 3], ∀ i < 5, ∀ j ≤ 17,
    ((tiRun (exTI .whole) (.given fun _ _ => ⟨[[1, 1], [1, 1]], [[2, 1], [1, 1]], [[1, 1]]⟩)
      (fun k => [List.replicate 7 (c * (1 + (k : Nat)))]) [(exTITree 0 0).1, (exTITree 0 1).1]
      (exTIStart fun k => [List.replicate 7 (c * (1 + (k : Nat)))])
      (exTIOut.take i ++ (exTIOut[i]?.toList.map fun (x : Instant ℚ) => ⟨x.t, x.evs.take j⟩))).toOption.map fun s =>
      (List.finRange 4).map fun k => silent (s.net.buf k)) =
    some ((List.finRange 4).map fun k => decide (i = 0 ∨ (i = 1 ∧ j ≤ [3, 0, 1, 2].getD k 0))) := by
  decide +kernel

end
end Danse
