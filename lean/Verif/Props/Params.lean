import Verif.Proofs.Params2
import Verif.Proofs.Divisors
import Mathlib.Tactic.NormNum

/-!
# Properties C12-C14: parameter consistency

The statements mention only the constructor-time checks (`DanseParams.postInit`,
`TestParams.postInit`, `getDivisors`) and the fields a user sees.
-/

namespace Danse

/-! ## C12 -/

/-- C12 (a): whatever is accepted has the hop size `Ns = int(DFTsize * (1 - overlap))`, and
whole-chunk broadcasting forces the broadcast length to `Ns`. -/
theorem C12_whole_chunk {p p' : DanseParams} (h : p.postInit = .ok p') :
    p'.Ns = pyInt ((p.DFTsize : ℚ) * (1 - p.WOLAovlp)) ∧
    (p.broadcastType = "wholeChunk" → p'.broadcastLength = some p'.Ns) := by
  obtain ⟨_, _, _, _, _, bl, hb, rfl⟩ := danse_postInit_ok h
  refine ⟨rfl, fun ht => ?_⟩
  simp only [checkBroadcast, ht, if_true] at hb
  cases hb
  rfl

/-- C12 (b): a missing few-samples broadcast length becomes 1. -/
theorem C12_default_length {p p' : DanseParams} (h : p.postInit = .ok p')
    (ht : p.broadcastType = "fewSamples") (hn : p.broadcastLength = none) :
    p'.broadcastLength = some 1 := by
  obtain ⟨_, _, _, _, _, bl, hb, rfl⟩ := danse_postInit_ok h
  simp only [checkBroadcast, ht, hn, if_true] at hb
  rw [if_neg (by decide)] at hb
  cases hb
  rfl

/-- C12 (c): for otherwise valid parameters, a positive user-given few-samples length is accepted
exactly when it is at most `Ns` and divides `Ns`; it is then kept unchanged, and otherwise the
error is a `ValueError`. -/
theorem C12_few_samples_iff {p : DanseParams} (hw1 : p.winAnalysis ∈ winTypes)
    (hw2 : p.winSynthesis ∈ winTypes)
    (hs : p.estimateSROs ∈ ["Oracle", "CohDrift", "DXCPPhaT"])
    (ht' : p.simType ∈ ["batch", "online"])
    (hc : p.compensationStrategy.toLower ∈ ["network-wide", "node-specific"])
    (ht : p.broadcastType = "fewSamples") {b : Int} (hb : p.broadcastLength = some b)
    (hpos : 1 ≤ b) :
    let Ns := pyInt ((p.DFTsize : ℚ) * (1 - p.WOLAovlp))
    ((∃ p', p.postInit = .ok p' ∧ p'.broadcastLength = some b ∧ p'.Ns = Ns) ↔ b ≤ Ns ∧ b ∣ Ns) ∧
    (¬ (b ≤ Ns ∧ b ∣ Ns) → p.postInit = .error .valueError) := by
  intro Ns
  have hchk : b ≤ Ns ∧ b ∣ Ns → checkBroadcast p.broadcastType p.broadcastLength Ns
      = .ok (some b) := by
    intro ⟨h1, h2⟩
    unfold checkBroadcast
    rw [ht, hb, if_neg (by decide), if_pos rfl]
    simp only
    rw [if_neg (by omega), if_neg (by omega), if_neg]
    rw [not_not]; exact (fmod_eq_zero_iff _ _).mpr h2
  have hbad : ¬ (b ≤ Ns ∧ b ∣ Ns) → checkBroadcast p.broadcastType p.broadcastLength Ns
      = .error .valueError := by
    intro hn
    unfold checkBroadcast
    rw [ht, hb, if_neg (by decide), if_pos rfl]
    simp only
    by_cases h1 : b > Ns
    · rw [if_pos h1]
    · rw [if_neg h1, if_neg (by omega), if_pos]
      intro h2
      exact hn ⟨by omega, (fmod_eq_zero_iff _ _).mp h2⟩
  have herr : ¬ (b ≤ Ns ∧ b ∣ Ns) → p.postInit = .error .valueError := by
    intro hn
    unfold DanseParams.postInit
    simp only
    rw [if_neg (not_not.mpr hw1), if_neg (not_not.mpr hw2), hbad hn]
    rfl
  refine ⟨⟨?_, ?_⟩, herr⟩
  · rintro ⟨p', hp, _, _⟩
    by_contra hn
    rw [herr hn] at hp
    cases hp
  · intro h
    exact ⟨_, danse_postInit_intro hw1 hw2 hs ht' hc (hchk h), rfl, rfl⟩

/-- C12 (d): consequently an accepted few-samples length that is positive is between 1 and `Ns`
and divides `Ns`. -/
theorem C12_accepted_divides {p p' : DanseParams} (h : p.postInit = .ok p')
    (ht : p.broadcastType = "fewSamples") {b : Int} (hb : p'.broadcastLength = some b)
    (hpos : 1 ≤ b) (hns : 1 ≤ p'.Ns) : b ≤ p'.Ns ∧ b ∣ p'.Ns := by
  obtain ⟨_, _, _, _, _, bl, hc, rfl⟩ := danse_postInit_ok h
  simp only at hb hns ⊢
  subst hb
  unfold checkBroadcast at hc
  rw [ht, if_neg (by decide), if_pos rfl] at hc
  cases hl : p.broadcastLength with
  | none => rw [hl] at hc; cases hc; exact ⟨hns, one_dvd _⟩
  | some c =>
    rw [hl] at hc
    simp only at hc
    split at hc
    · cases hc
    next c1 =>
    split at hc
    · cases hc
    next c2 =>
    split at hc
    · cases hc
    next c3 =>
    cases hc
    exact ⟨by omega, (fmod_eq_zero_iff _ _).mp (not_not.mp c3)⟩

/-- C12 (e): a zero length is not reported as a `ValueError`: the modulo itself fails. -/
theorem C12_zero_length {p : DanseParams} (hw1 : p.winAnalysis ∈ winTypes)
    (hw2 : p.winSynthesis ∈ winTypes) (ht : p.broadcastType = "fewSamples")
    (hb : p.broadcastLength = some 0) (hns : 0 ≤ pyInt ((p.DFTsize : ℚ) * (1 - p.WOLAovlp))) :
    p.postInit = .error .zeroDivisionError := by
  unfold DanseParams.postInit
  simp only
  rw [if_neg (not_not.mpr hw1), if_neg (not_not.mpr hw2), ht, hb]
  simp only [checkBroadcast]
  rw [if_neg (by decide), if_pos trivial, if_neg (by omega)]
  rfl

/-- C12 (f), refuted part: positivity is not checked. For every hop size `Ns`, `-Ns` is accepted
as a few-samples broadcast length when `Ns ≥ 1`. -/
theorem C12_refuted_negative_accepted {p : DanseParams} (hw1 : p.winAnalysis ∈ winTypes)
    (hw2 : p.winSynthesis ∈ winTypes)
    (hs : p.estimateSROs ∈ ["Oracle", "CohDrift", "DXCPPhaT"])
    (ht' : p.simType ∈ ["batch", "online"])
    (hc : p.compensationStrategy.toLower ∈ ["network-wide", "node-specific"])
    (ht : p.broadcastType = "fewSamples")
    (hns : 1 ≤ pyInt ((p.DFTsize : ℚ) * (1 - p.WOLAovlp)))
    (hb : p.broadcastLength = some (-pyInt ((p.DFTsize : ℚ) * (1 - p.WOLAovlp)))) :
    ∃ p' b, p.postInit = .ok p' ∧ p'.broadcastLength = some b ∧ b < 0 := by
  refine ⟨_, -pyInt ((p.DFTsize : ℚ) * (1 - p.WOLAovlp)),
    danse_postInit_intro hw1 hw2 hs ht' hc (bl := some _) ?_, rfl, by omega⟩
  unfold checkBroadcast
  rw [ht, hb, if_neg (by decide), if_pos rfl]
  simp only
  rw [if_neg (by omega), if_neg (by omega), if_neg]
  rw [not_not, fmod_eq_zero_iff]
  exact ⟨-1, by ring⟩

/-- C12 (g), refuted part: an unknown broadcast type with any length is accepted unchanged. -/
theorem C12_refuted_unknown_type {p : DanseParams} (hw1 : p.winAnalysis ∈ winTypes)
    (hw2 : p.winSynthesis ∈ winTypes)
    (hs : p.estimateSROs ∈ ["Oracle", "CohDrift", "DXCPPhaT"])
    (ht' : p.simType ∈ ["batch", "online"])
    (hc : p.compensationStrategy.toLower ∈ ["network-wide", "node-specific"])
    (h1 : p.broadcastType ≠ "wholeChunk") (h2 : p.broadcastType ≠ "fewSamples") :
    ∃ p', p.postInit = .ok p' ∧ p'.broadcastLength = p.broadcastLength :=
  ⟨_, danse_postInit_intro hw1 hw2 hs ht' hc (bl := p.broadcastLength) (by
    simp only [checkBroadcast, if_neg h1, if_neg h2]), rfl⟩

/-- 1024-point DFT, 50 % overlap, 16-sample broadcasts: accepted with `Ns = 512`. -/
def exDanse : DanseParams :=
  { DFTsize := 1024, WOLAovlp := 1/2, broadcastType := "fewSamples", broadcastLength := some 16 }

theorem exDanse_Ns : pyInt ((exDanse.DFTsize : ℚ) * (1 - exDanse.WOLAovlp)) = 512 := by
  show pyInt (((1024 : Nat) : ℚ) * (1 - 1/2)) = 512
  unfold pyInt
  rw [if_pos (by norm_num)]
  norm_num

example : ∃ p', exDanse.postInit = .ok p' ∧ p'.broadcastLength = some 16 ∧ p'.Ns = 512 := by
  have := (C12_few_samples_iff (p := exDanse) (by decide) (by decide) (by decide) (by decide)
    (by rw [show exDanse.compensationStrategy.toLower = "node-specific" by cbv]; decide) rfl
    (b := 16) rfl (by decide)).1.mpr
  rw [exDanse_Ns] at this
  exact this (by decide)

example : { exDanse with broadcastLength := some 17 }.postInit = .error .valueError := by
  have := (C12_few_samples_iff (p := { exDanse with broadcastLength := some 17 }) (by decide)
    (by decide) (by decide) (by decide)
    (by rw [show ({ exDanse with broadcastLength := some 17 } : DanseParams).compensationStrategy.toLower
          = "node-specific" by cbv]; decide) rfl (b := 17) rfl (by decide)).2
  refine this ?_
  show ¬ (_ ≤ pyInt ((exDanse.DFTsize : ℚ) * (1 - exDanse.WOLAovlp)) ∧
    _ ∣ pyInt ((exDanse.DFTsize : ℚ) * (1 - exDanse.WOLAovlp)))
  rw [exDanse_Ns]
  decide

/-! ## C13 -/

/-- C13: the divisors offered for `n ≥ 1` are exactly the positive divisors of `n`, each listed
once. -/
theorem C13_divisors {n : Nat} (hn : 1 ≤ n) :
    (getDivisors n).Nodup ∧ ∀ d, d ∈ getDivisors n ↔ d ∣ n := by
  obtain ⟨hprod, hprime⟩ := primeFactors_spec hn
  obtain ⟨h1, h2, h3⟩ := counterItems_spec (primeFactors n)
  have := divisors_of_powers (counterItems (primeFactors n)) h1
    (fun x hx => hprime _ (h2 x hx))
  rw [h3, hprod] at this
  unfold getDivisors
  have hp : (pyProd : List Nat → Nat) = List.prod := funext pyProd_eq
  rw [hp]
  exact this

/-- C13, refuted part: the list is not sorted. -/
theorem C13_refuted_sorted : ¬ (getDivisors 12).Pairwise (· < ·) := by
  have : getDivisors 12 = [1, 3, 2, 6, 4, 12] := by cbv
  rw [this]
  decide

example : getDivisors 60 = [1, 5, 3, 15, 2, 10, 6, 30, 4, 20, 12, 60] := by cbv

/-! ## C14 -/

/-- C14 (a): re-running the consistency step on an accepted object changes nothing and asks
nothing, whatever the answers available. (If no broadcast length was given in few-samples mode,
the hop size must be at least 1.) -/
theorem C14_idempotent {t t' : TestParams} {ans r : List String}
    (h : t.postInit ans = .ok (t', r))
    (hns : t.danse.broadcastType = "fewSamples" → t.danse.broadcastLength = none →
      1 ≤ t'.danse.Ns) (ans' : List String) :
    t'.postInit ans' = .ok (t', ans') := by
  obtain ⟨w, d, hw, hd, g1, g2, e1, e2, e3, _, _⟩ := test_postInit_ok h
  have hw' := wasn_postInit_idem hw
  have hNs : t'.danse.Ns = d.Ns := by rw [e2]
  have hd' := danse_postInit_idem hd (by rw [← hNs]; exact hns)
  have hsim : d.simType ∈ ["batch", "online"] := (danse_fix hd').2.2.2.2.1
  have etopo : strIn "topo-indep" d.nodeUpdating = true ∨
      strIn "topo-indep" ("topo-indep_" ++ d.nodeUpdating) = true :=
    Or.inr (strIn_prefix' "topo-indep" "_" d.nodeUpdating)
  apply test_postInit_fix
  · rw [e1]; exact hw'
  · rw [e2]
    apply danse_fix_update hd'
    split
    · exact Or.inr rfl
    · exact Or.inl rfl
  · rw [e1, e2]
    simp only
    by_cases c : w.topologyType = "fully-connected"
    · rw [if_pos c]; exact g1
    · rw [if_neg c]
      split
      · exact g1
      · rintro ⟨hh, _⟩
        have := congrArg (fun s => s.toList.head?) hh
        rw [show "topo-indep_" = "t" ++ "opo-indep_" from rfl] at this
        simp [String.toList_append] at this
  · rw [e1, e2]; exact g2
  · rw [e1, e2]
    simp only
    rintro ⟨a, b, c⟩
    split at c
    · exact absurd c (by decide)
    · next hn => exact hn ⟨a, b, c⟩
  · rw [e2, e3]
  · rw [e1, e2]
    intro hc
    simp only [if_neg hc, and_true]
    split
    · assumption
    · exact strIn_prefix' "topo-indep" "_" d.nodeUpdating
  · rw [e2, e3]
    intro hb
    simp only at hb
    simp [hb]
  · rw [e2, e3]
    intro hb ho
    simp only at hb ho
    simp [hb, ho]
  · rw [e1, e3]
    intro hb
    simp [hb]
  · rw [e1, e3]
    intro hb
    simp [hb]

/-- C14 (b): every accepted object satisfies the documented cross-field constraints: one SRO and
one noise value per node; no simultaneous updating with SROs; no network-wide SRO compensation in
fully connected networks; metrics start within the signal; known SRO estimator, simulation type
and compensation strategy; outside fully connected networks topology-independent updating without
single-sensor broadcasts; no room plot without a room; filters not exported in batch mode. -/
theorem C14_accepted_consistent {t t' : TestParams} {ans r : List String}
    (h : t.postInit ans = .ok (t', r)) :
    t'.wasn.nNodes = t.wasn.nSensorPerNode.length ∧
    t'.wasn.SROperNode.length = t'.wasn.nNodes ∧ t'.wasn.addedNoise.length = t'.wasn.nNodes ∧
    (t'.danse.nodeUpdating = "sim" → ∀ s ∈ t'.wasn.SROperNode, s = 0) ∧
    (t'.wasn.topologyType = "fully-connected" → t'.danse.compensateSROs = true →
      t'.danse.compensationStrategy = "node-specific") ∧
    (∀ dur, t'.danse.startMetricsAfter = some dur → dur ≤ t'.wasn.sigDur) ∧
    t'.danse.estimateSROs ∈ ["Oracle", "CohDrift", "DXCPPhaT"] ∧
    t'.danse.simType ∈ ["batch", "online"] ∧
    t'.danse.compensationStrategy ∈ ["network-wide", "node-specific"] ∧
    (t'.wasn.topologyType ≠ "fully-connected" →
      strIn "topo-indep" t'.danse.nodeUpdating = true ∧
      t'.danse.computeSingleSensorBroadcast = false) ∧
    (t'.wasn.trueRoom = false → t'.exp.acousticScenarioPlot = false ∧
      t'.wasn.diffuseNoise = false) ∧
    (t'.danse.simType = "batch" → t'.exp.filters = false ∧ t'.exp.filterNormsPlot = false) ∧
    t'.danse.saveConditionNumber = t'.exp.conditionNumberPlot := by
  obtain ⟨w, d, hw, hd, g1, g2, e1, e2, e3, _, _⟩ := test_postInit_ok h
  obtain ⟨an, sro, ha, hs, hwe⟩ := wasn_postInit_ok hw
  obtain ⟨_, _, c3, c4, c5, bl, hb, hde⟩ := danse_postInit_ok hd
  have k1 : w.nNodes = t.wasn.nSensorPerNode.length := by rw [hwe]
  have k2 : w.SROperNode.length = t.wasn.nSensorPerNode.length := by
    rw [hwe]; exact (dimCheck_spec hs).1
  have k3 : w.addedNoise.length = t.wasn.nSensorPerNode.length := by
    rw [hwe]; exact (dimCheck_spec ha).1
  have k4 : d.estimateSROs ∈ ["Oracle", "CohDrift", "DXCPPhaT"] := by rw [hde]; exact c3
  have k5 : d.simType ∈ ["batch", "online"] := by rw [hde]; exact c4
  have k6 : d.compensationStrategy ∈ ["network-wide", "node-specific"] := by rw [hde]; exact c5
  have k7 : w.trueRoom = false → w.diffuseNoise = false := by
    rw [hwe]; intro hh; simp only at hh ⊢; rw [hh]; rfl
  rw [e1, e2, e3]
  refine ⟨k1, by rw [k2, k1], by rw [k3, k1], ?_, ?_, g2, k4, k5, ?_, ?_, ?_, ?_, rfl⟩
  · intro hh s hs'
    simp only at hh
    have hu : d.nodeUpdating = "sim" := by
      split at hh
      · exact hh
      · split at hh
        · exact hh
        · have := congrArg (fun s => s.toList.head?) hh
          rw [show "topo-indep_" = "t" ++ "opo-indep_" from rfl] at this
          simp [String.toList_append] at this
    by_contra hne
    exact g1 ⟨hu, List.any_eq_true.mpr ⟨s, hs', by simpa using hne⟩⟩
  · intro hf hc
    simp only at hc ⊢
    by_cases hn : d.compensationStrategy = "network-wide"
    · rw [if_pos ⟨hf, hc, hn⟩]
    · rw [if_neg (fun x => hn x.2.2)]
      simp only [List.mem_cons, List.not_mem_nil, or_false] at k6
      exact k6.resolve_left hn
  · simp only
    split
    · simp
    · exact k6
  · intro hf
    simp only [if_neg hf, and_true]
    split
    · assumption
    · exact strIn_prefix' "topo-indep" "_" d.nodeUpdating
  · intro hf
    exact ⟨by simp [hf], k7 hf⟩
  · intro hf
    simp only at hf
    simp [hf]

/-- C14 (c): in a fully connected network with SRO compensation and the network-wide strategy the
user is asked, and refusing is an error. -/
theorem C14_refusal {t : TestParams} {ans r : List String} {w : WasnParams} {d : DanseParams}
    (hw : t.wasn.postInit = .ok w) (hd : t.danse.postInit = .ok d)
    (hf : w.topologyType = "fully-connected") (hc : d.compensateSROs = true)
    (hn : d.compensationStrategy = "network-wide") (ha : askYN ans = .ok (false, r)) :
    t.postInit ans = .error .valueError := by
  unfold TestParams.postInit
  simp only [bind, Except.bind, hw, hd]
  split
  · rfl
  · rw [if_pos (by simp [hf, hc, hn]), ha]

/-- A two-node tree network with node-updating `seq`. -/
def exTest : TestParams :=
  { wasn := { nSensorPerNode := [2, 3], SROperNode := [0], addedNoise := [], topologyType := "ad-hoc" }
    danse := { DFTsize := 1024, WOLAovlp := 1/2 } }

def okOf {α β : Type} (x : Except PyErr α) (f : α → β) : Option β :=
  match x with | .ok a => some (f a) | .error _ => none

example : okOf exTest.wasn.postInit (fun w => (w.SROperNode, w.sensorToNodeIndices)) =
    some ([0, 0], [0, 0, 1, 1, 1]) := by decide

example : ∃ t' r, exTest.postInit [] = .ok (t', r) ∧ t'.danse.nodeUpdating = "topo-indep_seq" ∧
    t'.wasn.SROperNode = [0, 0] ∧ t'.danse.computeSingleSensorBroadcast = false := by
  have hw : exTest.wasn.postInit = .ok { exTest.wasn with
    nNodes := 2, addedNoise := [0, 0], SROperNode := [0, 0],
    sensorToNodeIndices := [0, 0, 1, 1, 1] } := by decide
  have hd := danse_postInit_intro (p := exTest.danse) (by decide) (by decide) (by decide)
    (by decide) (by rw [show exTest.danse.compensationStrategy.toLower = "node-specific" by cbv]
                    decide) (bl := some _) rfl
  have hf : strIn "topo-indep" "seq" = false := by decide
  simp only [TestParams.postInit, bind, Except.bind, hw, hd]
  simp [exTest, hf]

/-- C14 (d), refuted part: topology-independent mode is *not* confined to networks that are not
fully connected: a user-given `topo-indep_seq` is accepted and kept in a fully connected one. -/
theorem C14_refuted_mode_iff_topology :
    okOf (TestParams.postInit
      { exTest with
        wasn := { exTest.wasn with topologyType := "fully-connected" }
        danse := { exTest.danse with nodeUpdating := "topo-indep_seq" } } [])
      (fun x => (x.1.wasn.topologyType, x.1.danse.nodeUpdating)) =
      some ("fully-connected", "topo-indep_seq") := by
  decide_cbv

/-- C14 (e), refuted part: simultaneous updating in the presence of SROs is only rejected under
its fully-connected name. -/
theorem C14_refuted_sim_with_sros :
    okOf (TestParams.postInit
      { exTest with
        wasn := { exTest.wasn with SROperNode := [0, 50] }
        danse := { exTest.danse with nodeUpdating := "topo-indep_sim" } } [])
      (fun x => (x.1.wasn.SROperNode, x.1.danse.nodeUpdating)) =
      some ([0, 50], "topo-indep_sim") := by
  decide_cbv

end Danse
