import Verif.Model.RandomRir
import Mathlib.Tactic.Linarith
import Mathlib.Tactic.Ring
import Mathlib.Tactic.Positivity
import Mathlib.Tactic.NormNum

/-!
# C152: random impulse responses
-/

namespace Danse

theorem rirMapM_get {β : Type} (f : ℕ → Except PyErr β) : ∀ (l : List ℕ) (o : List β), l.mapM f = .ok o →
    o.length = l.length ∧ ∀ (i x : ℕ), l[i]? = some x → ∃ y, f x = .ok y ∧ o[i]? = some y
  | [], o, h => by
    obtain rfl : [] = o := Except.ok.inj h
    exact ⟨rfl, fun i x hx => by simp at hx⟩
  | a :: l, o, h => by
    rw [List.mapM_cons] at h
    cases ha : f a with
    | error e => rw [ha] at h; cases h
    | ok b =>
      cases hl : l.mapM f with
      | error e => rw [ha, hl] at h; cases h
      | ok bs =>
        rw [ha, hl] at h
        obtain rfl : b :: bs = o := Except.ok.inj h
        obtain ⟨h1, h2⟩ := rirMapM_get f l bs hl
        refine ⟨by simp [h1], fun i x hx => ?_⟩
        cases i with
        | zero =>
          obtain rfl : a = x := Option.some.inj hx
          exact ⟨b, ha, rfl⟩
        | succ i => exact h2 i x hx

theorem RandIr.many_get {p : RandIr} {n c : ℕ} {o : List (List ℝ)} (h : p.many n c = .ok o) :
    o.length = n ∧ ∀ i < n, ∃ y, p.one (c + i) = .ok y ∧ o[i]? = some y := by
  obtain ⟨h1, h2⟩ := rirMapM_get _ _ _ h
  exact ⟨by simpa using h1, fun i hi => h2 i i (List.getElem?_range hi)⟩

theorem RandIr.mic_get {p : RandIr} {nD nN c : ℕ} {o : List (List ℝ) × List (List ℝ)} (h : p.mic nD nN c = .ok o) :
    p.many nD c = .ok o.1 ∧ p.many nN (c + nD) = .ok o.2 := by
  unfold RandIr.mic at h
  cases h1 : p.many nD c with
  | error e => rw [h1] at h; cases h
  | ok d =>
    cases h2 : p.many nN (c + nD) with
    | error e => rw [h1, h2] at h; cases h
    | ok n =>
      rw [h1, h2] at h
      obtain rfl : (d, n) = o := Except.ok.inj h
      exact ⟨rfl, rfl⟩

theorem RandIr.all_get {p : RandIr} {nD nN : ℕ} : ∀ {ss : List ℕ} {c : ℕ} {o : List (List (List (List ℝ) × List (List ℝ)))},
    p.all nD nN ss c = .ok o → o.length = ss.length ∧ ∀ (k s : ℕ), ss[k]? = some s →
      ∃ a, o[k]? = some a ∧ a.length = s ∧ ∀ m < s, ∃ x, a[m]? = some x ∧
        p.mic nD nN (c + ((ss.take k).sum + m) * (nD + nN)) = .ok x
  | [], c, o, h => by
    obtain rfl : [] = o := Except.ok.inj h
    exact ⟨rfl, fun k s hs => by simp at hs⟩
  | s0 :: ss, c, o, h => by
    rw [RandIr.all] at h
    cases h1 : p.node nD nN s0 c with
    | error e => rw [h1] at h; cases h
    | ok a0 =>
      cases h2 : p.all nD nN ss (c + s0 * (nD + nN)) with
      | error e => rw [h1, h2] at h; cases h
      | ok r =>
        rw [h1, h2] at h
        obtain rfl : a0 :: r = o := Except.ok.inj h
        obtain ⟨g1, g2⟩ := RandIr.all_get h2
        refine ⟨by simp [g1], fun k s hs => ?_⟩
        cases k with
        | zero =>
          obtain rfl : s0 = s := Option.some.inj hs
          obtain ⟨l1, l2⟩ := rirMapM_get _ _ _ h1
          refine ⟨a0, rfl, by simpa using l1, fun m hm => ?_⟩
          obtain ⟨y, e1, e2⟩ := l2 m m (List.getElem?_range hm)
          exact ⟨y, e2, by simpa using e1⟩
        | succ k =>
          obtain ⟨a, e1, e2, e3⟩ := g2 k s hs
          refine ⟨a, e1, e2, fun m hm => ?_⟩
          obtain ⟨x, f1, f2⟩ := e3 m hm
          refine ⟨x, f1, ?_⟩
          rw [← f2, List.take_succ_cons, List.sum_cons]
          congr 1
          ring

/-- C152 (shape and draws): there is a response for every node, sensor and source, and it is made from a draw of its own: call number
`(sensors before) * (nD + nN) + source`, the desired sources before the noise sources. -/
theorem C152_shape {p : RandIr} {nD nN : ℕ} {ss : List ℕ} {o : List (List (List (List ℝ) × List (List ℝ)))} (h : p.all nD nN ss 0 = .ok o) :
    o.length = ss.length ∧ ∀ (k s : ℕ), ss[k]? = some s → ∃ a, o[k]? = some a ∧ a.length = s ∧ ∀ m < s, ∃ x, a[m]? = some x ∧
      x.1.length = nD ∧ x.2.length = nN ∧
      (∀ i < nD, ∃ y, x.1[i]? = some y ∧ p.one (((ss.take k).sum + m) * (nD + nN) + i) = .ok y) ∧
      ∀ i < nN, ∃ y, x.2[i]? = some y ∧ p.one (((ss.take k).sum + m) * (nD + nN) + nD + i) = .ok y := by
  obtain ⟨h1, h2⟩ := RandIr.all_get h
  refine ⟨h1, fun k s hs => ?_⟩
  obtain ⟨a, e1, e2, e3⟩ := h2 k s hs
  refine ⟨a, e1, e2, fun m hm => ?_⟩
  obtain ⟨x, f1, f2⟩ := e3 m hm
  rw [zero_add] at f2
  obtain ⟨g1, g2⟩ := RandIr.mic_get f2
  obtain ⟨a1, a2⟩ := RandIr.many_get g1
  obtain ⟨b1, b2⟩ := RandIr.many_get g2
  exact ⟨x, f1, a1, b1, fun i hi => let ⟨y, y1, y2⟩ := a2 i hi; ⟨y, y2, y1⟩, fun i hi => let ⟨y, y1, y2⟩ := b2 i hi; ⟨y, y2, y1⟩⟩

/-- C152 (values): a response has `int(duration * fs)` samples; with the uniform distribution their magnitude is at most that of the limits,
whatever the decay, as long as time constant and rate are positive. -/
theorem C152_values {p : RandIr} {c : ℕ} {y : List ℝ} (h : p.one c = .ok y) :
    y.length = ⌊p.duration * p.fs⌋.toNat ∧
      (p.distribution = "uniform" → p.minValue ≤ p.maxValue → 0 ≤ p.tau → 0 ≤ p.fs → (∀ t, 0 ≤ p.u c t ∧ p.u c t ≤ 1) →
        ∀ v ∈ y, |v| ≤ max |p.minValue| |p.maxValue|) := by
  unfold RandIr.one at h
  cases hd : p.draw c with
  | error e => rw [hd] at h; cases h
  | ok r =>
    rw [hd] at h
    change p.decayed r = .ok y at h
    have hr : r.length = p.len := by
      unfold RandIr.draw at hd
      split at hd
      · obtain rfl := Except.ok.inj hd; simp
      · split at hd
        · obtain rfl := Except.ok.inj hd; simp
        · cases hd
    have hy : y.length = r.length ∧ (0 ≤ p.tau → 0 ≤ p.fs → ∀ v ∈ y, v = 0 ∨ ∃ w ∈ r, |v| ≤ |w|) := by
      unfold RandIr.decayed at h
      split at h
      · obtain rfl := Except.ok.inj h
        refine ⟨by simp, fun h1 h2 v hv => ?_⟩
        obtain ⟨x, hx, rfl⟩ := List.mem_map.1 hv
        refine Or.inr ⟨x.1, (List.mem_zipIdx' (x := x.1) (i := x.2) hx).2 ▸ List.getElem_mem _, ?_⟩
        rw [abs_mul, Real.abs_exp]
        have h3 : (0 : ℝ) ≤ p.fs := by exact_mod_cast h2
        have : Real.exp (-(x.2 : ℝ) / (p.tau * p.fs)) ≤ 1 := by
          rw [Real.exp_le_one_iff]
          exact div_nonpos_of_nonpos_of_nonneg (by simp) (mul_nonneg h1 h3)
        exact mul_le_of_le_one_right (abs_nonneg _) this
      · split at h
        · cases r with
          | nil => cases h
          | cons a r =>
            obtain rfl := Except.ok.inj h
            refine ⟨by simp, fun _ _ v hv => ?_⟩
            rcases List.mem_cons.1 hv with rfl | hv
            · exact Or.inr ⟨a, List.mem_cons_self, by simp⟩
            · obtain ⟨_, _, rfl⟩ := List.mem_map.1 hv
              exact Or.inl rfl
        · obtain rfl := Except.ok.inj h
          exact ⟨rfl, fun _ _ v hv => Or.inr ⟨v, hv, le_rfl⟩⟩
    refine ⟨hy.1.trans hr, fun hu hm ht hf hb v hv => ?_⟩
    rcases hy.2 ht hf v hv with rfl | ⟨w, hw, hvw⟩
    · rw [abs_zero]
      exact le_max_of_le_left (abs_nonneg _)
    · refine hvw.trans ?_
      unfold RandIr.draw at hd
      rw [if_pos hu] at hd
      obtain rfl := Except.ok.inj hd
      obtain ⟨t, _, rfl⟩ := List.mem_map.1 hw
      obtain ⟨b1, b2⟩ := hb t
      have c1 : p.minValue ≤ p.minValue + (p.maxValue - p.minValue) * p.u c t := by nlinarith
      have c2 : p.minValue + (p.maxValue - p.minValue) * p.u c t ≤ p.maxValue := by nlinarith
      exact (abs_le_max_abs_abs c1 c2)

/-- C152 (immediate): with the decay `immediate` the response is a gain that is not negative, at time 0. -/
theorem C152_immediate {p : RandIr} {c : ℕ} {y : List ℝ} (hd : p.decay = "immediate") (h : p.one c = .ok y) :
    ∃ g n, 0 ≤ g ∧ y = g :: List.replicate n 0 := by
  unfold RandIr.one at h
  cases hr : p.draw c with
  | error e => rw [hr] at h; cases h
  | ok r =>
    rw [hr] at h
    change p.decayed r = .ok y at h
    unfold RandIr.decayed at h
    rw [hd, if_neg (by decide +kernel), if_pos rfl] at h
    cases r with
    | nil => cases h
    | cons a r =>
      obtain rfl := Except.ok.inj h
      exact ⟨|a|, r.length, abs_nonneg a, by rw [List.map_const']⟩

/-- C152 (exceptions): another distribution raises `UnboundLocalError`; a response shorter than a sample raises `IndexError` if the decay is
`immediate`. -/
theorem C152_errors (p : RandIr) (c : ℕ) :
    (p.distribution ≠ "uniform" → p.distribution ≠ "normal" → p.one c = .error .unboundLocalError) ∧
      (p.distribution = "uniform" → p.decay = "immediate" → p.duration * p.fs < 1 → p.one c = .error .indexError) := by
  constructor
  · intro h1 h2
    unfold RandIr.one RandIr.draw
    rw [if_neg h1, if_neg h2]
    rfl
  · intro h1 h2 h3
    have h0 : p.len = 0 := by
      unfold RandIr.len
      rw [Int.toNat_eq_zero, ← Int.lt_add_one_iff, Int.floor_lt]
      push_cast
      linarith
    unfold RandIr.one RandIr.draw
    rw [if_pos h1, h0]
    change p.decayed [] = _
    unfold RandIr.decayed
    rw [h2, if_neg (by decide +kernel), if_pos rfl]

/-- C152 (refuted: "an unknown decay is refused"): it is no decay. -/
theorem C152_refuted_decay {p : RandIr} (h1 : p.decay ≠ "exponential") (h2 : p.decay ≠ "immediate") (c : ℕ) : p.one c = p.draw c := by
  unfold RandIr.one
  cases p.draw c with
  | error e => rfl
  | ok r =>
    change p.decayed r = _
    unfold RandIr.decayed
    rw [if_neg h1, if_neg h2]

/-- Responses of three samples of which only the first is kept. -/
noncomputable def exRandIr : RandIr :=
  { distribution := "uniform", decay := "immediate", duration := 1 / 2, fs := 6, tau := 1, minValue := -4, maxValue := 4, u := fun c t => (c + t) / 8 }

theorem exRandIr_one (c : ℕ) : exRandIr.one c = .ok [|(c : ℝ) - 4|, 0, 0] := by
  have hl : exRandIr.len = 3 := by
    norm_num [RandIr.len, exRandIr]
    rfl
  unfold RandIr.one RandIr.draw
  rw [if_pos (show exRandIr.distribution = "uniform" from rfl), hl]
  change exRandIr.decayed (List.map (fun t => exRandIr.minValue + (exRandIr.maxValue - exRandIr.minValue) * exRandIr.u c t) (List.range 3)) = _
  unfold RandIr.decayed
  rw [show exRandIr.decay = "immediate" from rfl, if_neg (by decide +kernel), if_pos rfl]
  simp only [List.range_succ, List.range_zero, List.nil_append, List.cons_append, List.map_cons, List.map_nil, exRandIr]
  congr 3
  push_cast
  ring

/-- Two nodes with one and two sensors, a desired and a noise source: the noise response of the second sensor of the second node is made from
call 5. -/
example : ∃ y, exRandIr.all 1 1 [1, 2] 0 = .ok y ∧ (y.getD 1 []).map Prod.snd = [[[|(3 : ℝ) - 4|, 0, 0]], [[|(5 : ℝ) - 4|, 0, 0]]] := by
  simp [RandIr.all, RandIr.node, RandIr.mic, RandIr.many, List.range_succ, exRandIr_one, pure, bind, Except.pure, Except.bind]
  norm_num

/-- Without decay, all random numbers 1/4: hypotheses of `C152_values`. -/
example : ∃ y, ({ exRandIr with decay := "none", u := fun _ _ => 1 / 4 } : RandIr).one 7 = .ok y ∧ y.length = 3 ∧
    ∀ v ∈ y, |v| ≤ max |(-4 : ℝ)| |(4 : ℝ)| := by
  have h : ({ exRandIr with decay := "none", u := fun _ _ => 1 / 4 } : RandIr).one 7 =
      .ok ((List.range exRandIr.len).map fun _ => (-4 : ℝ) + (4 - -4) * (1 / 4)) := by
    rw [C152_refuted_decay (by simp) (by simp)]
    unfold RandIr.draw
    rw [if_pos (by simp [exRandIr])]
    rfl
  have hl : exRandIr.len = 3 := by
    norm_num [RandIr.len, exRandIr]
    rfl
  exact ⟨_, h, by simp [hl], (C152_values h).2 rfl (by norm_num [exRandIr]) (by norm_num [exRandIr]) (by norm_num [exRandIr])
    (by intro t; norm_num)⟩

end Danse
