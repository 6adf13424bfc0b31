import Verif.Model.Params
import Verif.Proofs.Py
import Mathlib.Tactic.IntervalCases

/-! # Helper lemmas on parameter checks -/

namespace Danse

theorem fmod_eq_zero_iff (a b : Int) : Int.fmod a b = 0 ↔ b ∣ a := by
  rw [← Int.dvd_iff_fmod_eq_zero]

theorem checkBroadcast_idem {ty : String} {len r : Option Int} {Ns : Int}
    (h : checkBroadcast ty len Ns = .ok r) (hns : ty = "fewSamples" → len = none → 1 ≤ Ns) :
    checkBroadcast ty r Ns = .ok r := by
  unfold checkBroadcast at *
  by_cases h1 : ty = "wholeChunk"
  · simp only [h1, if_true] at *; exact h
  · by_cases h2 : ty = "fewSamples"
    · have hns' := hns h2
      subst h2
      simp only [if_neg h1, if_true] at *
      cases len with
      | none =>
        have := hns' rfl
        cases h
        simp only
        rw [if_neg (by omega), if_neg (by omega), if_neg]
        simp
      | some b =>
        simp only at h
        split at h
        · cases h
        next c1 =>
        split at h
        · cases h
        next c2 =>
        split at h
        · cases h
        next c3 =>
        cases h
        simp [c1, c2, c3]
    · simp only [if_neg h1, if_neg h2] at *

theorem danse_postInit_ok {p p' : DanseParams} (h : p.postInit = .ok p') :
    p.winAnalysis ∈ winTypes ∧ p.winSynthesis ∈ winTypes ∧
    p.estimateSROs ∈ ["Oracle", "CohDrift", "DXCPPhaT"] ∧ p.simType ∈ ["batch", "online"] ∧
    p.compensationStrategy.toLower ∈ ["network-wide", "node-specific"] ∧
    ∃ bl, checkBroadcast p.broadcastType p.broadcastLength
        (pyInt ((p.DFTsize : ℚ) * (1 - p.WOLAovlp))) = .ok bl ∧
      p' = { p with
        Ns := pyInt ((p.DFTsize : ℚ) * (1 - p.WOLAovlp)), broadcastLength := bl,
        timeBtwExternalFiltUpdates :=
          if p.noExternalFilterRelaxation then 0 else p.timeBtwExternalFiltUpdates,
        compensationStrategy := p.compensationStrategy.toLower } := by
  unfold DanseParams.postInit at h
  simp only at h
  split at h
  · cases h
  next c1 =>
  split at h
  · cases h
  next c2 =>
  cases hb : checkBroadcast p.broadcastType p.broadcastLength
        (pyInt ((p.DFTsize : ℚ) * (1 - p.WOLAovlp))) with
  | error e => rw [hb] at h; cases h
  | ok bl =>
    rw [hb] at h
    simp only [bind, Except.bind] at h
    split at h
    · cases h
    next c3 =>
    split at h
    · cases h
    next c4 =>
    split at h
    · cases h
    next c5 =>
    cases h
    exact ⟨not_not.mp c1, not_not.mp c2, not_not.mp c3, not_not.mp c4, not_not.mp c5, bl, rfl, rfl⟩

theorem danse_postInit_intro {p : DanseParams} (c1 : p.winAnalysis ∈ winTypes)
    (c2 : p.winSynthesis ∈ winTypes)
    (c3 : p.estimateSROs ∈ ["Oracle", "CohDrift", "DXCPPhaT"])
    (c4 : p.simType ∈ ["batch", "online"])
    (c5 : p.compensationStrategy.toLower ∈ ["network-wide", "node-specific"])
    {bl : Option Int} (hb : checkBroadcast p.broadcastType p.broadcastLength
        (pyInt ((p.DFTsize : ℚ) * (1 - p.WOLAovlp))) = .ok bl) :
    p.postInit = .ok { p with
        Ns := pyInt ((p.DFTsize : ℚ) * (1 - p.WOLAovlp)), broadcastLength := bl,
        timeBtwExternalFiltUpdates :=
          if p.noExternalFilterRelaxation then 0 else p.timeBtwExternalFiltUpdates,
        compensationStrategy := p.compensationStrategy.toLower } := by
  unfold DanseParams.postInit
  simp only
  rw [if_neg (not_not.mpr c1), if_neg (not_not.mpr c2), hb]
  simp only [bind, Except.bind]
  rw [if_neg (not_not.mpr c3), if_neg (not_not.mpr c4), if_neg (not_not.mpr c5)]

theorem lower_idem {s : String} (h : s.toLower ∈ ["network-wide", "node-specific"]) :
    s.toLower.toLower = s.toLower := by
  simp only [List.mem_cons, List.not_mem_nil, or_false] at h
  rcases h with h | h <;> rw [h] <;> cbv

theorem dimCheck_spec {v r : List Int} {n : Nat} (h : dimCheck v n = .ok r) :
    r.length = n ∧ dimCheck r n = .ok r := by
  have hl : r.length = n := by
    unfold dimCheck at h
    split at h
    · split at h
      · cases h; simp
      · split at h
        · cases h; simp
        · cases h
    · next hc => cases h; exact not_not.mp hc
  refine ⟨hl, ?_⟩
  unfold dimCheck
  rw [if_neg (by simpa using hl)]

theorem wasn_postInit_ok {w w' : WasnParams} (h : w.postInit = .ok w') :
    ∃ an sro, dimCheck w.addedNoise w.nSensorPerNode.length = .ok an ∧
      dimCheck w.SROperNode w.nSensorPerNode.length = .ok sro ∧
      w' = { w with
        nNodes := w.nSensorPerNode.length, addedNoise := an, SROperNode := sro,
        sensorToNodeIndices := sensorToNode w.nSensorPerNode,
        diffuseNoise := if w.trueRoom then w.diffuseNoise else false } := by
  unfold WasnParams.postInit at h
  simp only at h
  cases h1 : dimCheck w.addedNoise w.nSensorPerNode.length with
  | error e => rw [h1] at h; cases h
  | ok an =>
    rw [h1] at h
    simp only [bind, Except.bind] at h
    cases h2 : dimCheck w.SROperNode w.nSensorPerNode.length with
    | error e => rw [h2] at h; cases h
    | ok sro =>
      rw [h2] at h
      cases h
      exact ⟨an, sro, rfl, rfl, rfl⟩

theorem wasn_postInit_idem {w w' : WasnParams} (h : w.postInit = .ok w') :
    w'.postInit = .ok w' := by
  obtain ⟨an, sro, h1, h2, rfl⟩ := wasn_postInit_ok h
  unfold WasnParams.postInit
  simp only [(dimCheck_spec h1).2, (dimCheck_spec h2).2, bind, Except.bind]
  congr 2
  split <;> rfl

theorem danse_postInit_idem {p p' : DanseParams} (h : p.postInit = .ok p')
    (hns : p.broadcastType = "fewSamples" → p.broadcastLength = none → 1 ≤ p'.Ns) :
    p'.postInit = .ok p' := by
  obtain ⟨c1, c2, c3, c4, c5, bl, hb, rfl⟩ := danse_postInit_ok h
  have hb' := checkBroadcast_idem hb hns
  have h5 := lower_idem c5
  have key := danse_postInit_intro (p := { p with
        Ns := pyInt ((p.DFTsize : ℚ) * (1 - p.WOLAovlp)), broadcastLength := bl,
        timeBtwExternalFiltUpdates :=
          if p.noExternalFilterRelaxation then 0 else p.timeBtwExternalFiltUpdates,
        compensationStrategy := p.compensationStrategy.toLower }) (bl := bl)
        c1 c2 c3 c4 (by simp only [h5]; exact c5) hb'
  rw [key]
  simp only [h5]
  cases p.noExternalFilterRelaxation <;> rfl

theorem isInfixB_iff (n h : List Char) : isInfixB n h = true ↔ n <:+: h := by
  induction h with
  | nil => simp [isInfixB]
  | cons c cs ih =>
    simp only [isInfixB, Bool.or_eq_true, ih, List.isPrefixOf_iff_prefix, List.infix_cons_iff]

theorem strIn_iff (x s : String) : strIn x s = true ↔ x.toList <:+: s.toList :=
  isInfixB_iff _ _

theorem strIn_prefix (x s : String) : strIn x (x ++ s) = true := by
  rw [strIn_iff, String.toList_append]
  exact (List.prefix_append _ _).isInfix

theorem strIn_prefix' (x y s : String) : strIn x (x ++ y ++ s) = true := by
  rw [strIn_iff, String.toList_append, String.toList_append, List.append_assoc]
  exact (List.prefix_append _ _).isInfix

end Danse
