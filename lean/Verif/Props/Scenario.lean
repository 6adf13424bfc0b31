import Verif.Model.Scenario
import Verif.Props.SigTools
import Verif.Props.Topo
import Verif.Proofs.Online4
import Mathlib.Tactic.Positivity
import Mathlib.Tactic.FieldSimp

/-!
# C109: signal-to-noise ratio of a scenario
-/

set_option linter.unusedSectionVars false

namespace Danse

variable {n : Nat}

/-- Energy of a signal. -/
def energy (x : Fin n → ℝ) : ℝ := ∑ i, x i ^ 2

theorem noiseSource_ok {c : Scenario n} {d : List (Fin n → ℝ)} {x : (Fin n → ℝ) × Nat} {y : Fin n → ℝ}
    (h : noiseSource c d x = .ok y) :
    ∃ s g, rawSource c.ty x.1 = .ok s ∧ noiseGain c d x.2 s = .ok g ∧ y = g • s := by
  unfold noiseSource at h
  obtain ⟨s, hs, h⟩ := bind_ok_inv h
  obtain ⟨g, hg, h⟩ := bind_ok_inv h
  injection h with h
  exact ⟨s, g, hs, hg, h.symm⟩

theorem buildScenario_ok {c : Scenario n} {S : List (List (Fin n → ℝ))}
    {N : Option (List (List (Fin n → ℝ)))} (h : buildScenario c = .ok (S, N)) :
    ∃ d z, c.desired.mapM (rawSource c.ty) = .ok d ∧ c.noise.zipIdx.mapM (noiseSource c d) = .ok z ∧
      rawSources c = .ok (d, z) ∧
      S = (c.irsD.map fun node => node.map fun irs => wetSum irs d) ∧
      N = if c.noise.length > 0 then some (c.irsN.map fun node => node.map fun irs => wetSum irs z) else none := by
  unfold buildScenario at h
  obtain ⟨r, hr, h⟩ := bind_ok_inv h
  have hr0 := hr
  unfold rawSources at hr
  obtain ⟨d, hd, hr⟩ := bind_ok_inv hr
  obtain ⟨z, hz, hr⟩ := bind_ok_inv hr
  injection hr with hr
  subst hr
  injection h with h
  injection h with h1 h2
  exact ⟨d, z, hd, hz, hr0, h1.symm, h2.symm⟩

theorem pyGet_ok_zero {α : Type} {l : List α} {x : α} (h : pyGet l 0 = .ok x) : l[0]? = some x := by
  unfold pyGet at h
  simp only [lt_irrefl, if_false, Int.toNat_zero] at h
  cases hl : l[0]? with
  | none => rw [hl] at h; cases h
  | some y => rw [hl] at h; injection h with h; rw [h]

theorem pyGet_ok_nat {α : Type} {l : List α} {i : Nat} {x : α} (h : pyGet l i = .ok x) : l[i]? = some x := by
  unfold pyGet at h
  have h0 : ¬ ((i : Int) < 0) := by omega
  simp only [h0, if_false, Int.toNat_natCast] at h
  cases hl : l[i]? with
  | none => rw [hl] at h; cases h
  | some y => rw [hl] at h; injection h with h; rw [h]

/-- What the gain of a noise source is computed from. -/
theorem noiseGain_mic {c : Scenario n} {d : List (Fin n → ℝ)} {ii m : Nat} {x : Fin n → ℝ} {g : ℝ}
    (hb : c.basis = .mic m) (h : noiseGain c d ii x = .ok g) :
    ∃ r nodeD irD nodeN irN ir, refMicOf c.nSensors m = .ok r ∧ pyGet c.irsD r.1 = .ok nodeD ∧
      pyGet nodeD r.2 = .ok irD ∧ pyGet c.irsN r.1 = .ok nodeN ∧ pyGet nodeN r.2 = .ok irN ∧
      pyGet irN ii = .ok ir ∧ micGain (wetSum irD d) (lfilter ir x) c.snr = .ok g := by
  unfold noiseGain at h
  rw [hb] at h
  obtain ⟨r, h1, h⟩ := bind_ok_inv h
  obtain ⟨nodeD, h2, h⟩ := bind_ok_inv h
  obtain ⟨irD, h3, h⟩ := bind_ok_inv h
  obtain ⟨nodeN, h4, h⟩ := bind_ok_inv h
  obtain ⟨irN, h5, h⟩ := bind_ok_inv h
  obtain ⟨ir, h6, h⟩ := bind_ok_inv h
  exact ⟨r, nodeD, irD, nodeN, irN, ir, h1, h2, h3, h4, h5, h6, h⟩

theorem refMicOf_zero {nS : List Nat} (hs : ∃ s0 rest, nS = (s0 + 1) :: rest) : refMicOf nS 0 = .ok (0, 0) := by
  obtain ⟨s0, rest, rfl⟩ := hs
  rw [C40_ref_mic (s := s0 + 1) (by simp) (by omega)]
  simp [firstSensor]

/-- **C109 (every noise source).** With the SNR set at the first microphone of the network: at that
microphone the desired signals are, for every noise source, exactly `snr` dB above that source. -/
theorem C109_first_mic {c : Scenario n} {S : List (List (Fin n → ℝ))}
    {N : Option (List (List (Fin n → ℝ)))} (hb : c.basis = .mic 0)
    (hs : ∃ s0 rest, c.nSensors = (s0 + 1) :: rest)
    (h : buildScenario c = .ok (S, N)) (ii : Nat) (hii : ii < c.noise.length) :
    ∃ y nodeN irN ir z zi, S[0]?.bind (·[0]?) = some y ∧ c.irsN[0]? = some nodeN ∧ nodeN[0]? = some irN ∧
      irN[ii]? = some ir ∧ rawSources c = .ok z ∧ z.2[ii]? = some zi ∧
      (energy y ≠ 0 → energy y / energy (lfilter ir zi) = 10 ^ (c.snr / 10)) := by
  obtain ⟨d, z, hd, hz, hr, hS, -⟩ := buildScenario_ok h
  obtain ⟨x, hx⟩ : ∃ x, c.noise[ii]? = some x := ⟨_, List.getElem?_eq_getElem hii⟩
  have hxz : c.noise.zipIdx[ii]? = some (x, ii) := by
    rw [List.getElem?_zipIdx, hx]; simp
  obtain ⟨zi, hzi, hns⟩ := (mapM_get hz).2 ii _ hxz
  obtain ⟨s, g, hs1, hg, rfl⟩ := noiseSource_ok hns
  obtain ⟨r, nodeD, irD, nodeN, irN, ir, h1, h2, h3, h4, h5, h6, h7⟩ := noiseGain_mic hb hg
  rw [refMicOf_zero hs] at h1
  injection h1 with h1
  subst h1
  have h2' := pyGet_ok_zero h2
  have h3' := pyGet_ok_zero h3
  refine ⟨wetSum irD d, nodeN, irN, ir, (d, z), g • s, ?_, pyGet_ok_zero h4, pyGet_ok_zero h5,
    pyGet_ok_nat h6, hr, hzi, fun he => ?_⟩
  · rw [hS, List.getElem?_map, h2']
    simp [h3']
  · exact C41_mic_snr h7 he

/-- **C109 (one noise source).** With one noise source the sensor signals themselves have the asked SNR at
the first microphone. -/
theorem C109_one_source {c : Scenario n} {S : List (List (Fin n → ℝ))}
    {N : Option (List (List (Fin n → ℝ)))} (hb : c.basis = .mic 0)
    (hs : ∃ s0 rest, c.nSensors = (s0 + 1) :: rest) (h : buildScenario c = .ok (S, N))
    {x : Fin n → ℝ} (hx : c.noise = [x]) (hir : ∀ node ∈ c.irsN, ∀ irs ∈ node, irs.length = 1) :
    ∃ y N' v, S[0]?.bind (·[0]?) = some y ∧ N = some N' ∧ N'[0]?.bind (·[0]?) = some v ∧
      (energy y ≠ 0 → energy y / energy v = 10 ^ (c.snr / 10)) := by
  obtain ⟨y, nodeN, irN, ir, z, zi, h1, h2, h3, h4, h5, h6, h7⟩ :=
    C109_first_mic hb hs h 0 (by rw [hx]; simp)
  obtain ⟨d, z', hd, hz, hr, hS, hN⟩ := buildScenario_ok h
  rw [h5] at hr
  injection hr with hr
  subst hr
  rw [hx] at hN
  have hzl : z'.length = 1 := by
    have := (mapM_get hz).1
    simpa [hx] using this
  have hil := hir _ (List.mem_of_getElem? h2) _ (List.mem_of_getElem? h3)
  refine ⟨y, _, _, h1, by rw [hN, if_pos (by simp)], ?_, h7⟩
  rw [List.getElem?_map, h2]
  simp only [Option.map_some, Option.bind_some, List.getElem?_map, h3, Option.some.injEq]
  obtain ⟨w, rfl⟩ := List.length_eq_one_iff.mp hzl
  obtain ⟨v, rfl⟩ := List.length_eq_one_iff.mp hil
  simp only [List.getElem?_cons_zero, Option.some.injEq] at h4 h6
  subst h4 h6
  simp [wetSum]

theorem energy_orth (E : ℝ) (l : List (Fin n → ℝ)) (he : ∀ x ∈ l, energy x = E)
    (ho : l.Pairwise fun x y => ∑ i, x i * y i = 0) : energy l.sum = l.length * E := by
  induction l with
  | nil => simp [energy]
  | cons x l ih =>
    rw [List.pairwise_cons] at ho
    have hcross : ∑ i, x i * l.sum i = 0 := by
      have : ∀ l : List (Fin n → ℝ), (∀ y ∈ l, ∑ i, x i * y i = 0) → ∑ i, x i * l.sum i = 0 := by
        intro l
        induction l with
        | nil => intro _; simp
        | cons y l ih2 =>
          intro h
          simp only [List.sum_cons, Pi.add_apply, mul_add, Finset.sum_add_distrib]
          rw [h y (by simp), ih2 (fun z hz => h z (by simp [hz])), add_zero]
      exact this l ho.1
    have hi := ih (fun y hy => he y (by simp [hy])) ho.2
    unfold energy at hi ⊢
    have : ∑ i, (x :: l).sum i ^ 2 = ∑ i, x i ^ 2 + 2 * ∑ i, x i * l.sum i + ∑ i, l.sum i ^ 2 := by
      rw [Finset.mul_sum, ← Finset.sum_add_distrib, ← Finset.sum_add_distrib]
      refine Finset.sum_congr rfl fun i _ => ?_
      simp only [List.sum_cons, Pi.add_apply]; ring
    rw [this, hcross, hi]
    have := he x (by simp)
    unfold energy at this
    rw [this, List.length_cons]
    push_cast
    ring

/-- **C109 (several noise sources).** If the noise sources, as heard at the first microphone, are orthogonal,
the SNR there is the asked one divided by their number. -/
theorem C109_several {c : Scenario n} {S : List (List (Fin n → ℝ))}
    {N : Option (List (List (Fin n → ℝ)))} (hb : c.basis = .mic 0)
    (hs : ∃ s0 rest, c.nSensors = (s0 + 1) :: rest) (h : buildScenario c = .ok (S, N))
    (hn : c.noise ≠ []) (hir : ∀ node ∈ c.irsN, ∀ irs ∈ node, irs.length = c.noise.length)
    {nodeN : List (List (List ℝ))} {irN : List (List ℝ)} {z : List (Fin n → ℝ) × List (Fin n → ℝ)}
    (h2 : c.irsN[0]? = some nodeN) (h3 : nodeN[0]? = some irN) (h5 : rawSources c = .ok z)
    (ho : (List.zipWith lfilter irN z.2).Pairwise fun x y => ∑ i, x i * y i = 0) :
    ∃ y N' v, S[0]?.bind (·[0]?) = some y ∧ N = some N' ∧ N'[0]?.bind (·[0]?) = some v ∧
      (energy y ≠ 0 → energy y / energy v = 10 ^ (c.snr / 10) / c.noise.length) := by
  obtain ⟨d, z', hd, hz, hr, hS, hN⟩ := buildScenario_ok h
  rw [h5] at hr
  injection hr with hr
  subst hr
  have hlen : 0 < c.noise.length := List.length_pos_iff.mpr hn
  have hzl : z'.length = c.noise.length := by
    have := (mapM_get hz).1
    simpa using this
  have hil := hir _ (List.mem_of_getElem? h2) _ (List.mem_of_getElem? h3)
  obtain ⟨y, -, -, -, -, -, h1, -⟩ := C109_first_mic hb hs h 0 hlen
  refine ⟨y, _, wetSum irN z', h1, by rw [hN, if_pos hlen], ?_, ?_⟩
  · rw [List.getElem?_map, h2]
    simp [h3]
  intro hy
  have hE : ∀ x ∈ List.zipWith lfilter irN z', energy x = energy y / 10 ^ (c.snr / 10) := by
    intro x hx
    obtain ⟨ii, hii⟩ := List.mem_iff_getElem?.mp hx
    have hlt : ii < c.noise.length := by
      have := (List.getElem?_eq_some_iff.mp hii).1
      rw [List.length_zipWith, hil, hzl] at this
      omega
    obtain ⟨y', nodeN', irN', ir, zz, zi, g1, g2, g3, g4, g5, g6, g7⟩ := C109_first_mic hb hs h ii hlt
    rw [h1] at g1; injection g1 with g1; subst g1
    rw [h2] at g2; injection g2 with g2; subst g2
    rw [h3] at g3; injection g3 with g3; subst g3
    rw [h5] at g5; injection g5 with g5; subst g5
    rw [List.getElem?_zipWith, g4, g6] at hii
    injection hii with hii
    subst hii
    have := g7 hy
    have hp : (0 : ℝ) < 10 ^ (c.snr / 10) := by positivity
    have hne : energy (lfilter ir zi) ≠ 0 := by
      intro h0
      rw [h0, div_zero] at this
      linarith
    rw [eq_div_iff hp.ne', ← this, mul_div_assoc', mul_div_cancel_left₀ _ hne]
  have := energy_orth _ _ hE ho
  rw [wetSum, this, List.length_zipWith, hil, hzl, Nat.min_self]
  have hp : (0 : ℝ) < 10 ^ (c.snr / 10) := by positivity
  have hl : (0 : ℝ) < c.noise.length := by exact_mod_cast hlen
  field_simp

/-- **C109, refuted (other microphones).** In a network whose nodes all have the same number, at least two,
of sensors, the SNR cannot be set at any microphone but the first: the run fails. -/
theorem C109_refuted_other_mics {c : Scenario n} {K M m : Nat} (hM : 2 ≤ M) (hm : 0 < m)
    (hb : c.basis = .mic m) (hn : c.nSensors = List.replicate K M) (hx : c.noise ≠ [])
    (hsh : ∀ node ∈ c.irsD, node.length = M) (r) : buildScenario c ≠ .ok r := by
  intro h
  obtain ⟨d, z, hd, hz, -⟩ := buildScenario_ok (S := r.1) (N := r.2) h
  obtain ⟨x, hx0⟩ : ∃ x, c.noise[0]? = some x := by
    cases hc : c.noise with
    | nil => exact absurd hc hx
    | cons x t => exact ⟨x, rfl⟩
  have hxz : c.noise.zipIdx[0]? = some (x, 0) := by
    rw [List.getElem?_zipIdx, hx0]; simp
  obtain ⟨zi, -, hns⟩ := (mapM_get hz).2 0 _ hxz
  obtain ⟨s, g, -, hg, -⟩ := noiseSource_ok hns
  obtain ⟨q, nodeD, irD, -, -, -, h1, h2, h3, -⟩ := noiseGain_mic hb hg
  rw [hn] at h1
  have hmK : m < K := by
    by_contra hle
    have : npWhereEq (sensorToNode (List.replicate K M)) m = [] := by
      rw [List.eq_nil_iff_forall_not_mem]
      intro i hi
      rw [mem_npWhereEq, s2n_getElem?] at hi
      obtain ⟨j, s, hs, -⟩ := hi
      have := (List.getElem?_eq_some_iff.mp hs).1
      rw [List.length_replicate] at this
      omega
    unfold refMicOf at h1
    rw [this] at h1
    cases h1
  rw [C40_ref_mic (s := M) (by simp [hmK]) (by omega)] at h1
  injection h1 with h1
  subst h1
  have hfs : ∀ k, firstSensor (List.replicate K M) k = min k K * M := by
    intro k
    unfold firstSensor
    rw [List.take_replicate, List.sum_replicate, smul_eq_mul]
  have hl : nodeD.length = M := hsh _ (List.mem_of_getElem? (pyGet_ok_nat h2))
  unfold pyGet at h3
  simp only [hfs] at h3
  have hneg : (m : Int) - ((min (min m K * M) K * M : Nat) : Int) + M < 0 := by
    have e : min m K = m := by omega
    rw [e]
    have hge : m + M < min (m * M) K * M := by
      rcases Nat.le_total (m * M) K with hc | hc
      · rw [Nat.min_eq_left hc]
        obtain ⟨a, rfl⟩ : ∃ a, m = a + 1 := ⟨m - 1, by omega⟩
        obtain ⟨b, rfl⟩ : ∃ b, M = b + 2 := ⟨M - 2, by omega⟩
        nlinarith [Nat.zero_le (a * b), Nat.zero_le (a * b * b), Nat.zero_le (b * b)]
      · rw [Nat.min_eq_right hc]
        obtain ⟨a, rfl⟩ : ∃ a, K = m + 1 + a := ⟨K - (m + 1), by omega⟩
        obtain ⟨b, rfl⟩ : ∃ b, M = b + 2 := ⟨M - 2, by omega⟩
        nlinarith [Nat.zero_le (m * b), Nat.zero_le (a * b)]
    push_cast at hge ⊢
    have : ((m + M : Nat) : Int) < ((min (m * M) K * M : Nat) : Int) := by exact_mod_cast hge
    push_cast at this
    omega
  have h4 : (m : Int) - ((min (min m K * M) K * M : Nat) : Int) < 0 := by
    have : (0 : Int) ≤ M := by omega
    linarith
  rw [hl] at h3
  rw [if_pos h4, if_pos hneg] at h3
  cases h3

/-! ### Dry signals -/

theorem meanPow_normalised {x : Fin n → ℝ} (h : npStd x ≠ 0) :
    meanPow (fun i => x i / npStd x) = 1 + (npMean x / npStd x) ^ 2 := by
  have hn : (n : ℝ) ≠ 0 := by
    intro h0
    apply h
    unfold npStd
    rw [h0, div_zero, Real.sqrt_zero]
  have hsq : npStd x ^ 2 = (∑ i, |x i - npMean x| ^ 2) / n := by
    unfold npStd
    rw [Real.sq_sqrt]
    positivity
  have hexp : ∑ i, |x i - npMean x| ^ 2 = ∑ i, x i ^ 2 - n * npMean x ^ 2 := by
    have h1 : ∑ i, x i = n * npMean x := by
      unfold npMean; field_simp
    have : ∑ i, |x i - npMean x| ^ 2 = ∑ i, x i ^ 2 - 2 * npMean x * ∑ i, x i + n * npMean x ^ 2 := by
      rw [Finset.mul_sum, ← Finset.sum_sub_distrib]
      have : (n : ℝ) * npMean x ^ 2 = ∑ _i : Fin n, npMean x ^ 2 := by simp
      rw [this, ← Finset.sum_add_distrib]
      refine Finset.sum_congr rfl fun i _ => ?_
      rw [sq_abs]; ring
    rw [this, h1]; ring
  unfold meanPow
  have e : ∑ i, |x i / npStd x| ^ 2 = (∑ i, x i ^ 2) / npStd x ^ 2 := by
    rw [Finset.sum_div]
    refine Finset.sum_congr rfl fun i _ => ?_
    rw [sq_abs, div_pow]
  have hs2 : ∑ i, x i ^ 2 = n * npStd x ^ 2 + n * npMean x ^ 2 := by
    rw [hsq, hexp]; field_simp; ring
  rw [e, hs2]
  field_simp

/-- **C109 (dry signals).** Sources read from files, of mean zero: every desired source is exactly `snr` dB
above every noise source. In general the ratio is multiplied by the excess of the means. -/
theorem C109_dry {c : Scenario n} {d z : List (Fin n → ℝ)} (hb : c.basis = .dry) (hty : c.ty = .fromFile)
    (h : rawSources c = .ok (d, z)) :
    d.length = c.desired.length ∧ z.length = c.noise.length ∧
    ∀ (j ii : Nat) x w, c.desired[j]? = some x → c.noise[ii]? = some w →
      ∃ y v, d[j]? = some y ∧ z[ii]? = some v ∧
        meanPow y / meanPow v =
          10 ^ (c.snr / 10) * ((1 + (npMean x / npStd x) ^ 2) / (1 + (npMean w / npStd w) ^ 2)) := by
  unfold rawSources at h
  obtain ⟨d', hd, h⟩ := bind_ok_inv h
  obtain ⟨z', hz, h⟩ := bind_ok_inv h
  injection h with h
  injection h with e1 e2
  subst e1 e2
  refine ⟨(mapM_get hd).1, by simpa using (mapM_get hz).1, ?_⟩
  intro j ii x w hx hw
  obtain ⟨y, hy, hy'⟩ := (mapM_get hd).2 j x hx
  obtain ⟨v, hv, hv'⟩ := (mapM_get hz).2 ii (w, ii) (by rw [List.getElem?_zipIdx, hw]; simp)
  obtain ⟨s, g, hs, hg, rfl⟩ := noiseSource_ok hv'
  rw [hty] at hy' hs
  unfold rawSource at hy' hs
  simp only at hy' hs
  by_cases hx0 : npStd x = 0
  · rw [if_pos hx0] at hy'; cases hy'
  by_cases hw0 : npStd w = 0
  · rw [if_pos hw0] at hs; cases hs
  rw [if_neg hx0] at hy'
  rw [if_neg hw0] at hs
  injection hy' with hy'
  injection hs with hs
  unfold noiseGain at hg
  rw [hb] at hg
  injection hg with hg
  subst hy' hs hg
  refine ⟨_, _, hy, hv, ?_⟩
  rw [meanPow_normalised hx0, meanPow_smul, meanPow_normalised hw0]
  have h1 : (0 : ℝ) < 1 + (npMean w / npStd w) ^ 2 := by positivity
  have hd2 : dryGain c.snr ^ 2 = (10 ^ (c.snr / 10))⁻¹ := by
    unfold dryGain
    have h10 : (0 : ℝ) < 10 := by norm_num
    rw [← Real.rpow_natCast, ← Real.rpow_mul h10.le, ← Real.rpow_neg h10.le]
    congr 1
    push_cast
    ring
  rw [hd2]
  field_simp

/-- **C109, refuted (dry signals).** The ratio is not the asked one for random signals, which are not
normalised (for files with other means see C109_dry). -/
theorem C109_refuted_dry : ¬ ∀ (c : Scenario 2) (d z : List (Fin 2 → ℝ)) y v, c.basis = .dry →
    c.ty = .random → rawSources c = .ok (d, z) → d[0]? = some y → z[0]? = some v →
    meanPow y / meanPow v = 10 ^ (c.snr / 10) := by
  intro h
  have := h ⟨[1], [[[[1]]]], [[[[1]]]], .random, .dry, 0, [fun i => if i = 0 then 0 else 1], [fun _ => 1]⟩
    [fun i => if i = 0 then 0 else 1] [dryGain 0 • fun _ => 1] _ _ rfl rfl rfl rfl rfl
  norm_num [meanPow, dryGain, Fin.sum_univ_two] at this

/-! ### Responses without decay time -/

/-- **C109 (exponential decay).** With 'exponential' decay sample `i` of a response is the drawn one times
`exp(-t/τ)`, `t = i/fs` being its time: the first sample is the drawn one, and everything from `τ` seconds on is
smaller by the factor `e` at least. -/
theorem C109_decay {fs tau : ℝ} (hf : 0 < fs) (ht : 0 < tau) {r ir : List ℝ}
    (h : decayIr .exponential fs tau r = .ok ir) :
    ir.length = r.length ∧ ir[0]? = r[0]? ∧ ∀ (i : Nat) x, r[i]? = some x → ∃ v, ir[i]? = some v ∧
      v = x * Real.exp (-(i / fs) / tau) ∧ |v| ≤ |x| ∧ (tau ≤ i / fs → |v| ≤ |x| / Real.exp 1) := by
  injection h with h
  subst h
  refine ⟨by simp, ?_, fun i x hx => ?_⟩
  · cases r <;> simp
  · refine ⟨x * Real.exp (-(i : ℝ) / (tau * fs)), by simp [List.getElem?_zipIdx, hx], ?_, ?_, fun hi => ?_⟩
    · congr 2; field_simp
    · rw [abs_mul, Real.abs_exp]
      refine mul_le_of_le_one_right (abs_nonneg x) (Real.exp_le_one_iff.2 ?_)
      rw [neg_div]
      exact neg_nonpos.2 (by positivity)
    · rw [abs_mul, Real.abs_exp, div_eq_mul_inv |x|, ← Real.exp_neg]
      refine mul_le_mul_of_nonneg_left (Real.exp_le_exp.2 ?_) (abs_nonneg x)
      have : 1 ≤ (i : ℝ) / (tau * fs) := by
        rw [le_div_iff₀ hf] at hi
        rw [le_div_iff₀ (by positivity)]
        linarith
      rw [neg_div]
      linarith

/-- **C109 (Dirac responses).** With 'immediate' decay a sensor hears a source unchanged, up to a gain that
is not negative. -/
theorem C109_dirac {fs tau : ℝ} {r ir : List ℝ} (h : decayIr .immediate fs tau r = .ok ir) :
    ∃ g : ℝ, 0 ≤ g ∧ ∀ x : Fin n → ℝ, lfilter ir x = g • x := by
  cases r with
  | nil => cases h
  | cons a t =>
    injection h with h
    subst h
    refine ⟨|a|, abs_nonneg a, fun x => ?_⟩
    funext i
    unfold lfilter
    rw [Finset.sum_eq_single i]
    · simp
    · intro j _ hj
      by_cases hle : j ≤ i
      · rw [if_pos hle]
        obtain ⟨k, hk⟩ : ∃ k, i.val - j.val = k + 1 := by
          have : j.val ≠ i.val := fun e => hj (Fin.ext e)
          have : j.val ≤ i.val := hle
          exact ⟨i.val - j.val - 1, by omega⟩
        rw [hk, List.getD_cons_succ, List.getD_eq_getElem?_getD, List.getElem?_map]
        cases t[k]? <;> simp
      · rw [if_neg hle]
    · simp

/-! ### When it works, and a concrete scenario -/

theorem scenBind {T U : Type} (x : T) (f : T → Except PyErr U) :
    ((Except.ok x : Except PyErr T) >>= f) = f x := rfl

theorem pyGet_nat_ok {α : Type} {l : List α} {i : Nat} {x : α} (h : l[i]? = some x) : pyGet l i = .ok x := by
  unfold pyGet
  have h0 : ¬ ((i : Int) < 0) := by omega
  simp only [h0, if_false, Int.toNat_natCast, h]

/-- **C109 (total).** Random sources, SNR at the first microphone: the scenario is built if every noise
source can be heard there. -/
theorem C109_total (c : Scenario n) (hb : c.basis = .mic 0) (hty : c.ty = .random)
    (hs : ∃ s0 rest, c.nSensors = (s0 + 1) :: rest) {nodeD nodeN irD irN}
    (h1 : c.irsD[0]? = some nodeD) (h2 : nodeD[0]? = some irD) (h3 : c.irsN[0]? = some nodeN)
    (h4 : nodeN[0]? = some irN)
    (h5 : ∀ (ii : Nat) x, c.noise[ii]? = some x → ∃ ir, irN[ii]? = some ir ∧ energy (lfilter ir x) ≠ 0) :
    ∃ r, buildScenario c = .ok r := by
  have hd : c.desired.mapM (rawSource c.ty) = .ok c.desired := by
    rw [hty]
    generalize c.desired = l
    induction l with
    | nil => rfl
    | cons x l ih => rw [List.mapM_cons, ih]; rfl
  have hz : ∃ z, c.noise.zipIdx.mapM (noiseSource c c.desired) = .ok z := by
    suffices h : ∀ x ∈ c.noise.zipIdx, ∃ y, noiseSource c c.desired x = .ok y ∧ True by
      obtain ⟨z, hz, -⟩ := mapM_ok_of_forall (P := fun _ _ => True) h
      exact ⟨z, hz⟩
    intro x hx
    rw [List.mem_zipIdx_iff_getElem?] at hx
    obtain ⟨ir, hir, he⟩ := h5 _ _ hx
    obtain ⟨g, hg⟩ : ∃ g, noiseGain c c.desired x.2 x.1 = .ok g := by
      unfold noiseGain
      rw [hb]
      simp only [refMicOf_zero hs]
      change ∃ g, (do
        let nodeD ← pyGet c.irsD ((0 : Nat) : Int)
        let irD ← pyGet nodeD ((0 : Nat) : Int)
        let nodeN ← pyGet c.irsN ((0 : Nat) : Int)
        let irN ← pyGet nodeN ((0 : Nat) : Int)
        let ir ← pyGet irN x.2
        micGain (wetSum irD c.desired) (lfilter ir x.1) c.snr) = Except.ok g
      rw [pyGet_nat_ok h1]
      simp only [scenBind]
      rw [pyGet_nat_ok h2]
      simp only [scenBind]
      rw [pyGet_nat_ok h3]
      simp only [scenBind]
      rw [pyGet_nat_ok h4]
      simp only [scenBind]
      rw [pyGet_nat_ok hir]
      simp only [scenBind]
      unfold micGain
      unfold energy at he
      rw [if_neg he]
      split
      · exact ⟨_, rfl⟩
      · exact ⟨_, rfl⟩
    refine ⟨g • x.1, ?_, trivial⟩
    unfold noiseSource
    rw [hty]
    change (noiseGain c c.desired x.2 x.1 >>= fun g => _) = _
    rw [hg]; rfl
  obtain ⟨z, hz⟩ := hz
  unfold buildScenario rawSources
  rw [hd]
  simp only [scenBind]
  rw [hz]
  exact ⟨_, rfl⟩

/-- Two noise sources, one sensor. -/
noncomputable def exScen : Scenario 2 :=
  ⟨[1], [[[[1]]]], [[[[1], [1]]]], .random, .mic 0, 20, [fun _ => 1],
    [fun i => if i = 0 then 1 else 0, fun i => if i = 0 then 0 else 1]⟩

theorem lfilter_one (x : Fin 2 → ℝ) : lfilter [1] x = x := by
  funext i
  fin_cases i <;> simp [lfilter, Fin.sum_univ_two]

/-- It meets the hypotheses of C109_total, C109_first_mic and, since the noises are orthogonal, of
C109_several. -/
example : ∃ S N z, buildScenario exScen = .ok (S, N) ∧ rawSources exScen = .ok z ∧
    (List.zipWith lfilter [[1], [1]] z.2).Pairwise (fun x y => ∑ i, x i * y i = 0) := by
  obtain ⟨r, hr⟩ := C109_total exScen rfl rfl ⟨0, [], rfl⟩ (irN := [[1], [1]]) rfl rfl rfl rfl (by
    intro ii x hx
    rcases ii with _ | _ | ii
    · simp only [exScen, List.getElem?_cons_zero, Option.some.injEq] at hx
      subst hx
      exact ⟨_, rfl, by rw [lfilter_one]; simp [energy]⟩
    · simp only [exScen, List.getElem?_cons_succ, List.getElem?_cons_zero, Option.some.injEq] at hx
      subst hx
      exact ⟨_, rfl, by rw [lfilter_one]; simp [energy]⟩
    · simp [exScen] at hx)
  obtain ⟨d, z, hd, hz, hraw, -⟩ := buildScenario_ok (S := r.1) (N := r.2) hr
  refine ⟨r.1, r.2, _, hr, hraw, ?_⟩
  have hl : z.length = 2 := by simpa [exScen] using (mapM_get hz).1
  obtain ⟨z0, hz0, e0⟩ := (mapM_get hz).2 0 ((fun i => if i = 0 then 1 else 0), 0) rfl
  obtain ⟨z1, hz1, e1⟩ := (mapM_get hz).2 1 ((fun i => if i = 0 then 0 else 1), 1) rfl
  obtain ⟨s, g, hs, -, rfl⟩ := noiseSource_ok e0
  obtain ⟨s', g', hs', -, rfl⟩ := noiseSource_ok e1
  injection hs with hs
  injection hs' with hs'
  subst hs hs'
  obtain ⟨a, b, rfl⟩ := List.length_eq_two.mp hl
  simp only [List.getElem?_cons_zero, List.getElem?_cons_succ, Option.some.injEq] at hz0 hz1
  subst hz0 hz1
  simp [lfilter_one]

example : ∃ ir, decayIr .exponential 16000 (1 / 2) [-2, 3, 1] = .ok ir := ⟨_, rfl⟩

example : ∃ ir, decayIr .immediate 16000 1 [-2, 3, 1] = .ok ir := ⟨_, rfl⟩

end Danse
