import Verif.Proofs.Given3

/-!
# Property C30: filtered speech plus filtered noise equals the filtered mixture

`ys`, `yn`, `y` are the clean speech, the clean noise and their sum at every node (lists of
channels); `g` holds the parameters, the network and the given filters of every node and iteration,
`evs` is any schedule of broadcasts and updates.
-/

namespace Danse
section
variable {K : Type} [Field K] [StarRing K] [DecidableEq K] {g : GivenCfg K}
  {ys yn y : Nat → List (List K)}

/-- C30 (a): when few samples are broadcast at a time, re-running with given filters on the clean
speech and on the clean noise gives outputs (network-wide and local estimate of every node) that
add up, at every sample, to those of the re-run on the sum. -/
theorem C30_additive {L : Nat} {eff : Bool} (hb : g.bc = .few L eff)
    (hy : ∀ k, SumsM (ys k) (yn k) (y k)) (N r T : Nat) (M : Nat → Nat)
    (evs : List (ℚ × Nat × EvType)) {s n : GivenSt K}
    (hs : g.run ys (.init N r T M) evs = .ok s) (hn : g.run yn (.init N r T M) evs = .ok n) :
    ∃ m, g.run y (.init N r T M) evs = .ok m ∧
      ∀ k, Sums (s.d k) (n.d k) (m.d k) ∧ Sums (s.dLoc k) (n.dLoc k) (m.dLoc k) := by
  obtain ⟨m, hm, hr⟩ := run_sums (g := g) hy evs (init_rel N r T M)
    (fun e => by rw [hb] at e; cases e) s n hs hn
  exact ⟨m, hm, fun k => ⟨hr.d k, hr.dLoc k⟩⟩

/-- C30 (b): the same with whole-chunk broadcasts, as long as no node's last compressed chunk is ever
silent in one of the runs but not in another. -/
theorem C30_additive_whole (hy : ∀ k, SumsM (ys k) (yn k) (y k)) (N r T : Nat) (M : Nat → Nat)
    (evs : List (ℚ × Nat × EvType)) {s n : GivenSt K}
    (hs : g.run ys (.init N r T M) evs = .ok s) (hn : g.run yn (.init N r T M) evs = .ok n)
    (hz : ∀ pre post, evs = pre ++ post → ∀ a b c, g.run ys (.init N r T M) pre = .ok a →
      g.run yn (.init N r T M) pre = .ok b → g.run y (.init N r T M) pre = .ok c →
      ∀ k, silent (a.zLocal k) = silent (c.zLocal k) ∧ silent (b.zLocal k) = silent (c.zLocal k)) :
    ∃ m, g.run y (.init N r T M) evs = .ok m ∧
      ∀ k, Sums (s.d k) (n.d k) (m.d k) ∧ Sums (s.dLoc k) (n.dLoc k) (m.dLoc k) := by
  obtain ⟨m, hm, hr⟩ := run_sums (g := g) hy evs (init_rel N r T M) (fun _ => hz) s n hs hn
  exact ⟨m, hm, fun k => ⟨hr.d k, hr.dLoc k⟩⟩

/-- C30 (c): re-running with the filters that a run computed reproduces that run, however it
computed them. -/
theorem C30_reproduces {s0 m : GivenSt K} {F : GivenCfg K}
    (evs : List ((ℚ × Nat × EvType) × Rows K)) (h : GivenCfg.freeRun y (g, s0) evs = .ok (F, m)) :
    F.run y s0 (evs.map (·.1)) = .ok m :=
  (freeRun_agree y evs g F s0 m h).2

/-- C30 (d): so the outputs of a run on the mixture, which computes its filters itself, are at every
sample the sum of the outputs of the speech-only and noise-only re-runs with its filters. -/
theorem C30_mixture {L : Nat} {eff : Bool} (hb : g.bc = .few L eff)
    (hy : ∀ k, SumsM (ys k) (yn k) (y k)) (N r T : Nat) (M : Nat → Nat)
    (evs : List ((ℚ × Nat × EvType) × Rows K)) {s n m : GivenSt K} {F : GivenCfg K}
    (hm : GivenCfg.freeRun y (g, .init N r T M) evs = .ok (F, m))
    (hs : F.run ys (.init N r T M) (evs.map (·.1)) = .ok s)
    (hn : F.run yn (.init N r T M) (evs.map (·.1)) = .ok n) (k : Nat) :
    Sums (s.d k) (n.d k) (m.d k) ∧ Sums (s.dLoc k) (n.dLoc k) (m.dLoc k) := by
  have ha := freeRun_agree y evs g F _ m hm
  have hF : F.bc = .few L eff := by rw [ha.1.rest]; exact hb
  obtain ⟨m', hm', h⟩ := C30_additive hF hy N r T M _ hs hn
  rw [ha.2] at hm'
  injection hm' with hm'
  subst hm'
  exact h k
end

/-! ## Concrete runs -/

/-- Two nodes with one sensor each; every node hears the other one. -/
def exGiven (bc : BcType) (w : List ℚ) : GivenCfg ℚ :=
  { N := 2, Ns := 1, ζ := -1, c := 1, h := [1, 1], f := [1, 1], nb := fun k => [1 - k],
    fs := fun _ => 1, stamps := fun _ => [0, 1, 2, 3, 4], bc := bc, upTDEvery := 1, noFusion := false,
    conv := false, refSensor := 0, wInt := fun _ _ => [[0, 0], [1, 1]], wExt := fun _ _ => [w],
    wLoc := fun _ _ => [[1, 1]], rot := fun _ _ _ _ => 1 }

/-- Two broadcasts of each node, then an update of each. -/
def exEvs : List (ℚ × Nat × EvType) :=
  [(2, 0, .bc), (2, 1, .bc), (3, 0, .bc), (3, 1, .bc), (3, 0, .up), (3, 1, .up)]

/-- Speech that starts in the third sample, and noise. -/
def exSpeech (_ : Nat) : List (List ℚ) := [[0, 0, 1, 1]]
def exNoise (_ : Nat) : List (List ℚ) := [[1, 1, 1, 1]]
def exMix (_ : Nat) : List (List ℚ) := [[1, 1, 2, 2]]

theorem exMix_sums (k : Nat) : SumsM (exSpeech k) (exNoise k) (exMix k) := by
  refine .cons (.cons ?_ (.cons ?_ (.cons ?_ (.cons ?_ .nil)))) .nil <;> norm_num

/-- The hypotheses of `C30_additive` and, with the filters of the run, of `C30_mixture` are met: the
three runs end normally, with non-zero outputs. -/
example : letI : StarRing ℚ := starRingOfComm
    let o := fun y : Nat → List (List ℚ) =>
      ((exGiven (.few 1 false) [1, 0]).run y (.init 2 0 4 fun _ => 1) exEvs).map fun s => (s.d 0, s.dLoc 0)
    o exSpeech = .ok ([0, 0, 1 / 2, 0], [0, 0, 1, 0]) ∧
      o exNoise = .ok ([0, 1 / 2, 1 / 2, 0], [0, 1, 1, 0]) ∧
      o exMix = .ok ([0, 1 / 2, 1, 0], [0, 1, 2, 0]) := by
  decide +kernel

/-- A run that computes its filters itself (here: rows that change from one update to the next), to
which `C30_reproduces` and `C30_mixture` apply. -/
example : letI : StarRing ℚ := starRingOfComm
    (GivenCfg.freeRun exMix (exGiven (.few 1 false) [1, 0], .init 2 0 4 fun _ => 1)
      (exEvs.map fun e => (e, ⟨[[1, 0], [e.2.1, 2]], [[2, 1]], [[3, 1]]⟩))).map (fun p =>
        (p.1.wInt 1 0, p.1.wInt 1 1, p.2.d 1)) =
      .ok ([[0, 0], [1, 1]], [[1, 0], [1, 2]], [0, 7 / 4, 11 / 4, 0]) := by
  decide +kernel

/-- The hypotheses of `C30_additive_whole` are met by runs with non-silent signals throughout, e.g.
the noise, twice the noise and three times the noise. -/
example : letI : StarRing ℚ := starRingOfComm
    ∀ n ≤ 6, ∀ k < 2, ∀ c ∈ [1, 2, 3],
      (((exGiven .whole [1, -1]).run (fun _ => [[c, c, c, c]]) (.init 2 0 4 fun _ => 1)
        (exEvs.take n)).toOption.map fun s => silent (s.zLocal k)) = some (decide (n ≤ k)) := by
  decide +kernel

/-- C30, refuted part: with whole-chunk broadcasts the outputs of the re-runs do not add up where the
speech starts: the chunk after a silent one is not normalised (`if not np.any(zqPrevious)`). Here
the second output sample of node 0 is 1 for the speech, 1 for the noise, but 3/2 for the mixture. -/
theorem C30_refuted_speech_onset : letI : StarRing ℚ := starRingOfComm
    (∀ k, SumsM (exSpeech k) (exNoise k) (exMix k)) ∧
    let o := fun y : Nat → List (List ℚ) =>
      ((exGiven .whole [1, -1]).run y (.init 2 0 4 fun _ => 1) exEvs).map fun s => s.d 0
    o exSpeech = .ok [0, 1, 0, 0] ∧ o exNoise = .ok [1, 1, 0, 0] ∧ o exMix = .ok [1, 3 / 2, 0, 0] := by
  refine ⟨exMix_sums, ?_⟩
  decide +kernel

end Danse
