import Verif.Proofs.Params

/-! # Helper lemmas on `TestParameters.__post_init__` -/

namespace Danse

/-- The SRO-compensation question as a relation. -/
theorem test_postInit_ok {t t' : TestParams} {ans r : List String}
    (h : t.postInit ans = .ok (t', r)) :
    ∃ w d, t.wasn.postInit = .ok w ∧ t.danse.postInit = .ok d ∧
      ¬ (d.nodeUpdating = "sim" ∧ w.SROperNode.any (fun s => s ≠ 0) = true) ∧
      (∀ dur, d.startMetricsAfter = some dur → dur ≤ w.sigDur) ∧
      t'.wasn = w ∧
      t'.danse = { d with
        saveConditionNumber := t.exp.conditionNumberPlot
        compensationStrategy :=
          if w.topologyType = "fully-connected" ∧ d.compensateSROs = true ∧
            d.compensationStrategy = "network-wide" then "node-specific"
          else d.compensationStrategy
        nodeUpdating :=
          if w.topologyType = "fully-connected" then d.nodeUpdating
          else if strIn "topo-indep" d.nodeUpdating then d.nodeUpdating
          else "topo-indep_" ++ d.nodeUpdating
        computeSingleSensorBroadcast :=
          if w.topologyType = "fully-connected" then d.computeSingleSensorBroadcast else false } ∧
      t'.exp = { t.exp with
        filters := if d.simType = "batch" then false else t.exp.filters
        filterNormsPlot := if d.simType = "batch" then false
          else if strIn "online" d.simType then true else t.exp.filterNormsPlot
        acousticScenarioPlot := if w.trueRoom then t.exp.acousticScenarioPlot else false
        waveformsAndSpectrograms :=
          if w.signalType = "from_file" then t.exp.waveformsAndSpectrograms else false
        metricsPlot := if w.signalType = "from_file" then t.exp.metricsPlot else false
        wavFiles := if w.signalType = "from_file" then t.exp.wavFiles else false } ∧
      ((w.topologyType = "fully-connected" ∧ d.compensateSROs = true ∧
            d.compensationStrategy = "network-wide") → askYN ans = .ok (true, r)) ∧
      (¬ (w.topologyType = "fully-connected" ∧ d.compensateSROs = true ∧
            d.compensationStrategy = "network-wide") → r = ans) := by
  unfold TestParams.postInit at h
  simp only [bind, Except.bind] at h
  cases hw : t.wasn.postInit with
  | error e => rw [hw] at h; cases h
  | ok w =>
  rw [hw] at h
  cases hd : t.danse.postInit with
  | error e => rw [hd] at h; cases h
  | ok d =>
  rw [hd] at h
  simp only at h
  split at h
  · cases h
  next c1 =>
  refine ⟨w, d, rfl, rfl, c1, ?_⟩
  by_cases c2 : w.topologyType = "fully-connected"
  · by_cases c3 : d.compensateSROs = true ∧ d.compensationStrategy = "network-wide"
    · rw [if_pos (by simpa [c2] using c3)] at h
      cases ha : askYN ans with
      | error e => rw [ha] at h; cases h
      | ok ar =>
      obtain ⟨b, r'⟩ := ar
      rw [ha] at h
      cases b with
      | false => cases h
      | true =>
      simp only at h
      split at h
      · next dur hdur =>
        split at h
        · cases h
        · next hle =>
          cases h
          simp only [c2, decide_true, if_true] at hdur ⊢
          refine ⟨?_, by trivial, ?_, ?_, fun _ => by trivial, fun hh => absurd ⟨trivial, c3⟩ hh⟩
          · intro x hx; rw [hdur] at hx; cases hx; exact not_lt.mp hle
          · simp [c3]
          · split_ifs <;> simp_all
      · next hdur =>
          cases h
          simp only [c2, decide_true, if_true] at hdur ⊢
          refine ⟨?_, by trivial, ?_, ?_, fun _ => by trivial, fun hh => absurd ⟨trivial, c3⟩ hh⟩
          · intro x hx; rw [hdur] at hx; cases hx
          · simp [c3]
          · split_ifs <;> simp_all
    · rw [if_neg (by simpa [c2] using c3)] at h
      simp only at h
      split at h
      · next dur hdur =>
        split at h
        · cases h
        · next hle =>
          cases h
          simp only [c2, decide_true, if_true] at hdur ⊢
          refine ⟨?_, by trivial, ?_, ?_, fun hh => absurd hh.2 c3, fun _ => by trivial⟩
          · intro x hx; rw [hdur] at hx; cases hx; exact not_lt.mp hle
          · simp [c3]
          · split_ifs <;> simp_all
      · next hdur =>
          cases h
          simp only [c2, decide_true, if_true] at hdur ⊢
          refine ⟨?_, by trivial, ?_, ?_, fun hh => absurd hh.2 c3, fun _ => by trivial⟩
          · intro x hx; rw [hdur] at hx; cases hx
          · simp [c3]
          · split_ifs <;> simp_all
  · rw [if_neg (by simp [c2])] at h
    simp only at h
    split at h
    · next dur hdur =>
      split at h
      · cases h
      · next hle =>
        cases h
        simp only [c2, decide_false] at hdur ⊢
        refine ⟨?_, by trivial, ?_, ?_, fun hh => absurd hh.1 id, fun _ => by trivial⟩
        · intro x hx; simp at hdur; rw [hdur] at hx; cases hx; exact not_lt.mp hle
        · simp
        · split_ifs <;> simp_all
    · next hdur =>
        cases h
        simp only [c2, decide_false] at hdur ⊢
        refine ⟨?_, by trivial, ?_, ?_, fun hh => absurd hh.1 id, fun _ => by trivial⟩
        · intro x hx; simp at hdur; rw [hdur] at hx; cases hx
        · simp
        · split_ifs <;> simp_all

end Danse

namespace Danse

theorem danse_fix {p : DanseParams} (h : p.postInit = .ok p) :
    p.Ns = pyInt ((p.DFTsize : ℚ) * (1 - p.WOLAovlp)) ∧
    p.winAnalysis ∈ winTypes ∧ p.winSynthesis ∈ winTypes ∧
    p.estimateSROs ∈ ["Oracle", "CohDrift", "DXCPPhaT"] ∧ p.simType ∈ ["batch", "online"] ∧
    p.compensationStrategy ∈ ["network-wide", "node-specific"] ∧
    p.compensationStrategy.toLower = p.compensationStrategy ∧
    checkBroadcast p.broadcastType p.broadcastLength
        (pyInt ((p.DFTsize : ℚ) * (1 - p.WOLAovlp))) = .ok p.broadcastLength ∧
    (p.noExternalFilterRelaxation = true → p.timeBtwExternalFiltUpdates = 0) := by
  obtain ⟨c1, c2, c3, c4, c5, bl, hb, he⟩ := danse_postInit_ok h
  have e1 := congrArg DanseParams.Ns he
  have e2 := congrArg DanseParams.broadcastLength he
  have e3 := congrArg DanseParams.compensationStrategy he
  have e4 := congrArg DanseParams.timeBtwExternalFiltUpdates he
  simp only at e1 e2 e3 e4
  refine ⟨e1, c1, c2, c3, c4, by rw [e3]; exact c5, e3.symm, by rw [hb, e2], ?_⟩
  intro hn
  rw [e4, if_pos hn]

/-- Changing fields that `__post_init__` does not look at keeps a fixed point. -/
theorem danse_fix_update {p : DanseParams} (h : p.postInit = .ok p) (a : Bool) (s u : String)
    (b : Bool) (hs : s = p.compensationStrategy ∨ s = "node-specific") :
    ({ p with saveConditionNumber := a, compensationStrategy := s, nodeUpdating := u,
              computeSingleSensorBroadcast := b } : DanseParams).postInit =
    .ok { p with saveConditionNumber := a, compensationStrategy := s, nodeUpdating := u,
                 computeSingleSensorBroadcast := b } := by
  obtain ⟨f0, f1, f2, f3, f4, f5, f6, f7, f8⟩ := danse_fix h
  have hlow : s.toLower = s := by
    rcases hs with rfl | rfl
    · exact f6
    · cbv
  have hmem : s.toLower ∈ ["network-wide", "node-specific"] := by
    rw [hlow]
    rcases hs with rfl | rfl
    · exact f5
    · simp
  have := danse_postInit_intro (p := { p with
      saveConditionNumber := a, compensationStrategy := s, nodeUpdating := u,
      computeSingleSensorBroadcast := b }) f1 f2 f3 f4 hmem f7
  rw [this]
  simp only [hlow, ← f0]
  cases hr : p.noExternalFilterRelaxation
  · simp
  · simp [f8 hr]

theorem test_postInit_fix {t : TestParams} (hw : t.wasn.postInit = .ok t.wasn)
    (hd : t.danse.postInit = .ok t.danse)
    (h1 : ¬ (t.danse.nodeUpdating = "sim" ∧ t.wasn.SROperNode.any (fun s => s ≠ 0) = true))
    (h2 : ∀ dur, t.danse.startMetricsAfter = some dur → dur ≤ t.wasn.sigDur)
    (h3 : ¬ (t.wasn.topologyType = "fully-connected" ∧ t.danse.compensateSROs = true ∧
            t.danse.compensationStrategy = "network-wide"))
    (h4 : t.danse.saveConditionNumber = t.exp.conditionNumberPlot)
    (h5 : t.wasn.topologyType ≠ "fully-connected" →
      strIn "topo-indep" t.danse.nodeUpdating = true ∧
      t.danse.computeSingleSensorBroadcast = false)
    (h6 : t.danse.simType = "batch" → t.exp.filters = false ∧ t.exp.filterNormsPlot = false)
    (h7 : t.danse.simType ≠ "batch" → strIn "online" t.danse.simType = true →
      t.exp.filterNormsPlot = true)
    (h8 : t.wasn.trueRoom = false → t.exp.acousticScenarioPlot = false)
    (h9 : t.wasn.signalType ≠ "from_file" → t.exp.waveformsAndSpectrograms = false ∧
      t.exp.metricsPlot = false ∧ t.exp.wavFiles = false) (ans : List String) :
    t.postInit ans = .ok (t, ans) := by
  obtain ⟨w, d, e⟩ := t
  simp only at *
  unfold TestParams.postInit
  simp only [bind, Except.bind, hw, hd]
  rw [if_neg h1, if_neg (by simpa using h3)]
  simp only
  have key : (⟨w, if (decide (w.topologyType = "fully-connected")) = true then
      { d with saveConditionNumber := e.conditionNumberPlot } else
      { d with
        saveConditionNumber := e.conditionNumberPlot
        nodeUpdating := if strIn "topo-indep" d.nodeUpdating = true then d.nodeUpdating
          else "topo-indep_" ++ d.nodeUpdating
        computeSingleSensorBroadcast := false }, e⟩ : TestParams) = ⟨w, d, e⟩ := by
    by_cases c : w.topologyType = "fully-connected"
    · simp [c, ← h4]
    · simp [c, ← h4, (h5 c).1, ← (h5 c).2]
  have ke : (if w.signalType = "from_file" then
        if w.trueRoom = true then
          if d.simType = "batch" then { e with filters := false, filterNormsPlot := false }
          else if strIn "online" d.simType = true then { e with filterNormsPlot := true } else e
        else { (if d.simType = "batch" then { e with filters := false, filterNormsPlot := false }
          else if strIn "online" d.simType = true then { e with filterNormsPlot := true } else e)
          with acousticScenarioPlot := false }
      else { (if w.trueRoom = true then
          if d.simType = "batch" then { e with filters := false, filterNormsPlot := false }
          else if strIn "online" d.simType = true then { e with filterNormsPlot := true } else e
        else { (if d.simType = "batch" then { e with filters := false, filterNormsPlot := false }
          else if strIn "online" d.simType = true then { e with filterNormsPlot := true } else e)
          with acousticScenarioPlot := false }) with
          waveformsAndSpectrograms := false, metricsPlot := false, wavFiles := false }) = e := by
    obtain ⟨e1, e2, e3, e4, e5, e6, e7⟩ := e
    simp only at *
    split_ifs <;> simp_all
  have hds : (if decide (w.topologyType = "fully-connected") = true then
      { d with saveConditionNumber := e.conditionNumberPlot } else
      { d with
        saveConditionNumber := e.conditionNumberPlot
        nodeUpdating := if strIn "topo-indep" d.nodeUpdating = true then d.nodeUpdating
          else "topo-indep_" ++ d.nodeUpdating
        computeSingleSensorBroadcast := false } : DanseParams) = d := by
    simpa using congrArg TestParams.danse key
  split
  · next dur hdur =>
    rw [if_neg]
    · rw [hds, ke]
    · rw [hds] at hdur
      exact not_lt.mpr (h2 dur hdur)
  · rw [hds, ke]

end Danse
