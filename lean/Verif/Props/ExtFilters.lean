import Verif.Proofs.ExtFilters
import Mathlib.Analysis.SpecialFunctions.Pow.Real

/-!
# Properties C28, C29, C57: broadcast filters, TI-DANSE normalisation, forgetting factor
-/

set_option linter.unusedSectionVars false

namespace Danse
section
variable {W K T : Type} [Field K] [AddCommGroup W] [Module K W] [Sub T] [LE T] [DecidableLE T]

/-! ## C28 -/

/-- C28: without relaxation, or with sequential updating, the broadcast filter after an update is
the internal filter just computed. -/
theorem C28_tied (c : ExtCfg W K T) (h1 : c.onlyRef = false)
    (h2 : c.oneMic = false ∨ c.noFusion = false) (h3 : c.noRelax = true ∨ c.seq = true)
    (s : ExtSt W T) (l : List (W × Option T)) (w : W) (t : Option T) :
    (extRun c s (l ++ [(w, t)])).ext = w := by
  rw [extRun_snoc]
  unfold extStep
  rw [if_neg (by simp [h1]), if_neg (by rintro ⟨a, b⟩; rcases h2 with h | h <;> simp_all),
    if_pos h3]

/-- C28: with the option to broadcast reference-sensor signals only, the broadcast filter is the
selector of the reference sensor whatever the internal filters. -/
theorem C28_only_reference (c : ExtCfg W K T) (h : c.onlyRef = true) (s : ExtSt W T)
    (l : List (W × Option T)) (hl : l ≠ []) : (extRun c s l).ext = c.refSel := by
  obtain ⟨l', e, rfl⟩ := (List.eq_nil_or_concat l).resolve_left hl
  rw [List.concat_eq_append, extRun_snoc]
  unfold extStep
  rw [if_pos h]

/-- C28: a single-sensor node without fusion keeps its initial broadcast filter. -/
theorem C28_single_sensor (c : ExtCfg W K T) (h : c.onlyRef = false) (h1 : c.oneMic = true)
    (h2 : c.noFusion = true) (s : ExtSt W T) (l : List (W × Option T)) : extRun c s l = s := by
  induction l using List.reverseRecOn with
  | nil => rfl
  | append_singleton l e ih =>
    rw [extRun_snoc, ih]
    unfold extStep
    rw [if_neg (by simp [h]), if_pos ⟨h1, h2⟩]

/-- C28, relaxed: the target is the result of averaging in exactly the internal filters of the
events chosen by the configured minimum interval. -/
theorem C28_target_schedule {c : ExtCfg W K T} (hc : c.Relaxed) (s : ExtSt W T)
    (l : List (W × T)) :
    (extRun c s (l.map fun e => (e.1, some e.2))).target =
      (greedyEvery c.every s.last l).foldl (fun x e => (1 - c.alpha) • x + c.alpha • e.1)
        s.target := by
  induction l generalizing s with
  | nil => rfl
  | cons e l ih =>
    have : extRun c s ((e :: l).map fun e => (e.1, some e.2)) =
        extRun c (extStep c s e.1 (some e.2)) (l.map fun e => (e.1, some e.2)) := rfl
    rw [this, ih]
    obtain ⟨h1, h2, h3, h4⟩ := hc
    conv_rhs => rw [greedyEvery]
    unfold extStep
    rw [if_neg (by simp [h1]), if_neg (by rintro ⟨a, b⟩; rcases h2 with h | h <;> simp_all),
      if_neg (by simp [h3, h4])]
    dsimp only
    by_cases h : c.every ≤ e.2 - s.last
    · rw [if_pos h, if_pos h, List.foldl_cons]
    · rw [if_neg h, if_neg h]

/-- C28: the events so chosen are events of the history, in order, and consecutive ones are at
least the interval apart (the first one from the initial instant). -/
theorem C28_spacing (every last : T) (l : List (W × T)) :
    (greedyEvery every last l).Sublist l ∧
    List.IsChain (fun a b => every ≤ b - a) (last :: (greedyEvery every last l).map (·.2)) := by
  induction l generalizing last with
  | nil => exact ⟨List.Sublist.refl _, by simp [greedyEvery]⟩
  | cons e l ih =>
    unfold greedyEvery
    by_cases h : every ≤ e.2 - last
    · rw [if_pos h]
      refine ⟨(ih e.2).1.cons_cons e, ?_⟩
      rw [List.map_cons, List.isChain_cons_cons]
      exact ⟨h, (ih e.2).2⟩
    · rw [if_neg h]
      exact ⟨(ih last).1.cons e, (ih last).2⟩

end

section
variable {W T : Type} [AddCommGroup W] [Module ℝ W] [Sub T] [LE T] [DecidableLE T]

/-- C28, relaxed: the broadcast filter stays in the convex hull of the initial broadcast filter, the
initial target and the internal filters computed at EARLIER events - the one just computed has no
influence yet. -/
theorem C28_hull {c : ExtCfg W ℝ T} (hc : c.Relaxed) (hb : 0 ≤ c.betaExt) (hb' : c.betaExt ≤ 1)
    (ha : 0 ≤ c.alpha) (ha' : c.alpha ≤ 1) (s : ExtSt W T) (l : List (W × Option T)) :
    (extRun c s l).ext ∈ convexHull ℝ ({s.ext, s.target} ∪ {w | ∃ e ∈ l.dropLast, e.1 = w}) :=
  (extRun_hull hc hb hb' ha ha' s l).2

end

section
variable {W : Type} [NormedAddCommGroup W] [NormedSpace ℝ W]

/-- C28, relaxed: if the internal filter stays the same, no minimum interval is set and time does
not run backwards, the broadcast filter converges to the internal filter. -/
theorem C28_converges {c : ExtCfg W ℝ ℝ} (hc : c.Relaxed) (hb : 0 ≤ c.betaExt)
    (hb' : c.betaExt < 1) (ha : 0 < c.alpha) (ha' : c.alpha ≤ 1) (he : c.every = 0)
    (s : ExtSt W ℝ) (w : W) (t : Nat → ℝ) (ht : Monotone t) (h0 : s.last ≤ t 0) :
    Filter.Tendsto (fun m => (extRun c s ((List.range m).map fun j => (w, some (t j)))).ext)
      Filter.atTop (nhds w) := by
  have hstep : ∀ m, extRun c s ((List.range (m + 1)).map fun j => (w, some (t j))) =
      extStep c (extRun c s ((List.range m).map fun j => (w, some (t j)))) w (some (t m)) := by
    intro m
    rw [List.range_succ, List.map_append, List.map_singleton, extRun_snoc]
  have hlast : ∀ m, (extRun c s ((List.range m).map fun j => (w, some (t j)))).last ≤ t m := by
    intro m
    induction m with
    | zero => exact h0
    | succ m ih =>
      rw [hstep]
      have := ht (Nat.le_succ m)
      obtain ⟨h1, h2, h3, h4⟩ := hc
      unfold extStep
      rw [if_neg (by simp [h1]), if_neg (by rintro ⟨a, b⟩; rcases h2 with h | h <;> simp_all),
        if_neg (by simp [h3, h4])]
      dsimp only
      split
      · exact this
      · exact le_trans ih this
  refine ext_contract (y := fun m => (extRun c s ((List.range m).map fun j =>
    (w, some (t j)))).target) w ?_ ?_ hb hb' ha ha'
  · intro m
    rw [hstep]
    exact (extStep_relaxed hc _ _ _).1
  · intro m
    rw [hstep]
    have hl := hlast m
    obtain ⟨h1, h2, h3, h4⟩ := hc
    unfold extStep
    rw [if_neg (by simp [h1]), if_neg (by rintro ⟨a, b⟩; rcases h2 with h | h <;> simp_all),
      if_neg (by simp [h3, h4])]
    dsimp only
    rw [he, if_pos (by linarith)]

/-- A relaxed configuration over the reals. -/
noncomputable def extDemo : ExtCfg ℝ ℝ ℝ where
  onlyRef := false
  refSel := 1
  oneMic := false
  noFusion := false
  noRelax := false
  seq := false
  betaExt := 1 / 2
  alpha := 1
  every := 0

example : extDemo.Relaxed ∧ 0 ≤ extDemo.betaExt ∧ extDemo.betaExt < 1 ∧ 0 < extDemo.alpha ∧
    extDemo.alpha ≤ 1 ∧ extDemo.every = 0 ∧ Monotone (fun n : Nat => (n : ℝ)) :=
  ⟨⟨rfl, Or.inl rfl, rfl, rfl⟩, by norm_num [extDemo], by norm_num [extDemo], by norm_num [extDemo],
    le_refl _, rfl, Nat.mono_cast⟩

example : greedyEvery (W := Nat) (2 : Int) 0 [(7, 1), (8, 2), (9, 3), (10, 5)] =
    [(8, 2), (10, 5)] := by decide

end

/-! ## C29 -/

section
variable {F n K T : Type} [DecidableEq n] [Field K] [Sub T] [LE T] [DecidableLE T]

/-- C29: the TI-DANSE normalisation acts only on the first node, under sequential updating, at
updates that are not bypassed and late enough; there it sets the coefficient of the in-network
sum to 1 in every bin where it was not zero, leaving every other coefficient as it is. -/
theorem C29_normalised (seq : Bool) (k : Nat) (bypass : Bool) (t last every : T) (lastCh : n)
    (w : F → n → K) :
    (seq = true ∧ k = 0 ∧ bypass = false ∧ every ≤ t - last →
      (∀ f, w f lastCh ≠ 0 →
        (normalizeFilter seq k bypass t last every lastCh w).1 f lastCh = 1) ∧
      (∀ f c, c ≠ lastCh → (normalizeFilter seq k bypass t last every lastCh w).1 f c = w f c) ∧
      (normalizeFilter seq k bypass t last every lastCh w).2 = t) ∧
    (¬ (seq = true ∧ k = 0 ∧ bypass = false ∧ every ≤ t - last) →
      normalizeFilter seq k bypass t last every lastCh w = (w, last)) := by
  unfold normalizeFilter
  constructor
  · intro h
    rw [if_pos h]
    refine ⟨fun f hf => ?_, fun f c hc => if_neg hc, rfl⟩
    dsimp only
    rw [if_pos rfl, div_self hf]
  · intro h
    rw [if_neg h]

/-- C29: normalising twice is normalising once (non-zero coefficients). -/
theorem C29_idempotent (seq : Bool) (k : Nat) (bypass : Bool) (t last last' every : T) (lastCh : n)
    (w : F → n → K) (hw : ∀ f, w f lastCh ≠ 0) (h : every ≤ t - last) (h' : every ≤ t - last') :
    (normalizeFilter seq k bypass t last' every lastCh
      (normalizeFilter seq k bypass t last every lastCh w).1).1 =
    (normalizeFilter seq k bypass t last every lastCh w).1 := by
  unfold normalizeFilter
  by_cases hc : seq = true ∧ k = 0 ∧ bypass = false
  · rw [if_pos ⟨hc.1, hc.2.1, hc.2.2, h'⟩, if_pos ⟨hc.1, hc.2.1, hc.2.2, h⟩]
    funext f c
    dsimp only
    by_cases hcc : c = lastCh
    · simp [hcc, div_self (hw f)]
    · simp [hcc]
  · rw [if_neg (by tauto), if_neg (by tauto)]

end

/-- C29 as one would expect it - the whole filter rescaled, its direction kept - fails: the other
coefficients are not divided. Two channels, filter (1, 2) becomes (1, 1). -/
theorem C29_refuted_direction : ∃ w : Unit → Fin 2 → ℚ, (∀ f, w f 1 ≠ 0) ∧
    ¬ ∃ g : ℚ, ∀ f c, (normalizeFilter true 0 false (2 : ℚ) 1 0 1 w).1 f c = g * w f c := by
  refine ⟨fun _ => ![1, 2], by simp, ?_⟩
  rintro ⟨g, hg⟩
  have h0 := hg () 0
  have h1 := hg () 1
  simp [normalizeFilter] at h0 h1
  rw [← h0] at h1
  norm_num at h1

/-! ## C57 -/

/-- C57: for a positive half-life, sampling frequency and hop the forgetting factor lies strictly
between 0 and 1, and the weight of a frame that lies `t50p` seconds (`t50p * fs / Ns` hops) back is
one half; after `m` hops it is `2^(-m Ns / (t50p fs))`. -/
theorem C57_half_life {t50p fs Ns : ℝ} (ht : 0 < t50p) (hf : 0 < fs) (hN : 0 < Ns) :
    0 < betaFromT50p t50p fs Ns ∧ betaFromT50p t50p fs Ns < 1 ∧
    (betaFromT50p t50p fs Ns) ^ (t50p * fs / Ns) = 1 / 2 ∧
    ∀ m : Nat, (betaFromT50p t50p fs Ns) ^ m = (1 / 2 : ℝ) ^ (m * Ns / (t50p * fs)) := by
  have hx : 0 < t50p * fs / Ns := by positivity
  have hl : Real.log 0.5 < 0 := Real.log_neg (by norm_num) (by norm_num)
  have h12 : (0.5 : ℝ) = 1 / 2 := by norm_num
  unfold betaFromT50p
  refine ⟨Real.exp_pos _, ?_, ?_, ?_⟩
  · rw [Real.exp_lt_one_iff]
    exact div_neg_of_neg_of_pos hl hx
  · rw [← Real.exp_mul, div_mul_cancel₀ _ hx.ne', Real.exp_log (by norm_num)]
    norm_num
  · intro m
    rw [← Real.exp_nat_mul, Real.rpow_def_of_pos (by norm_num), h12]
    congr 1
    field_simp

example : (0 : ℝ) < 2 ∧ (0 : ℝ) < 16000 ∧ (0 : ℝ) < 512 := by norm_num

end Danse
