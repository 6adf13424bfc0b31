import Verif.Proofs.Scm

namespace Danse
section
variable {F n K W T : Type} [Fintype n] [Field K] [StarRing K]

theorem scmRun_snoc (u : Bool) (b : K) (s : Scm F n K) (l : List (Frame F n K × Bool × Bool))
    (e : Frame F n K × Bool × Bool) :
    scmRun u b s (l ++ [e]) = scmUpdate u b (scmRun u b s l) e.1 e.2.1 e.2.2 := by
  unfold scmRun
  rw [List.foldl_append]; rfl

theorem scmRun_right_away (b : K) (s : Scm F n K) (l : List (Frame F n K × Bool × Bool)) :
    (scmRun false b s l).ryy =
      expWeighted b s.ryy ((l.filter fun e => e.2.2).map (·.1)) ∧
    (scmRun false b s l).rnn =
      expWeighted b s.rnn ((l.filter fun e => !e.2.2).map (·.1)) := by
  induction l using List.reverseRecOn with
  | nil => exact ⟨(expWeighted_nil _ _).symm, (expWeighted_nil _ _).symm⟩
  | append_singleton l e ih =>
    rw [scmRun_snoc]
    obtain ⟨y, v1, v2⟩ := e
    obtain ⟨i1, i2⟩ := ih
    simp only [List.filter_append, List.map_append]
    unfold scmUpdate conditionalScm updateCovOnline
    cases v1 <;> cases v2 <;>
      simp only [reduceCtorEq, if_false, if_true, List.filter_cons, List.filter_nil, List.map_cons,
        List.map_nil, List.append_nil, Bool.not_true, Bool.not_false] <;>
      refine ⟨?_, ?_⟩ <;> first | exact i1 | exact i2 | skip
    all_goals
      funext f
      rw [expWeighted_snoc, outerMean_eq]
      first | rw [i1] | rw [i2]

theorem scmRun_counters (u : Bool) (b : K) (s : Scm F n K) (l : List (Frame F n K × Bool × Bool)) :
    (scmRun u b s l).numRyy = s.numRyy + (l.filter fun e => e.2.1).length ∧
    (scmRun u b s l).numRnn = s.numRnn + (l.filter fun e => !e.2.1).length := by
  induction l using List.reverseRecOn with
  | nil => exact ⟨rfl, rfl⟩
  | append_singleton l e ih =>
    rw [scmRun_snoc]
    obtain ⟨y, v1, v2⟩ := e
    obtain ⟨i1, i2⟩ := ih
    simp only [List.filter_append, List.length_append]
    unfold scmUpdate conditionalScm
    cases v1 <;> cases u <;> simp <;> omega

variable [Preorder T] [DecidableLE T]

theorem nodeStep_started (c : NodeCfg F n K W T) (s : NodeSt F n K W) (y : Frame F n K) (vad : Bool)
    (t : T) (b : Bool) :
    (nodeStep c s y vad t b).started =
      checkCov c (scmUpdate c.use1st c.beta s.scm y vad vad) s.started t := by
  unfold nodeStep
  simp only
  split
  · rfl
  · split <;> rfl

theorem nodeStep_i (c : NodeCfg F n K W T) (s : NodeSt F n K W) (y : Frame F n K) (vad : Bool)
    (t : T) (b : Bool) : (nodeStep c s y vad t b).i = s.i + 1 := by
  unfold nodeStep
  simp only
  split
  · rfl
  · split <;> rfl

theorem checkCov_of_started (c : NodeCfg F n K W T) (s : Scm F n K) (t : T) :
    checkCov c s true t = true := by
  unfold checkCov
  split
  · rfl
  · simp

theorem nodeRun_started_mono (c : NodeCfg F n K W T) (s : NodeSt F n K W)
    (l l' : List (UpEv F n K T)) (h : (nodeRun c s l).started = true) :
    (nodeRun c s (l ++ l')).started = true := by
  induction l' using List.reverseRecOn with
  | nil => rw [List.append_nil]; exact h
  | append_singleton l' e ih =>
    rw [← List.append_assoc, nodeRun_snoc, nodeStep_started, ih, checkCov_of_started]

theorem nodeRun_i (c : NodeCfg F n K W T) (s : NodeSt F n K W) (l : List (UpEv F n K T)) :
    (nodeRun c s l).i = s.i + l.length := by
  induction l using List.reverseRecOn with
  | nil => rfl
  | append_singleton l e ih =>
    rw [nodeRun_snoc, nodeStep_i, ih, List.length_append, List.length_singleton, Nat.add_assoc]

theorem framesWith_mono (b : Bool) (l l' : List (UpEv F n K T)) :
    (framesWith b l).length ≤ (framesWith b (l ++ l')).length := by
  unfold framesWith
  simp

/-- A started node has seen enough frames, late enough. -/
theorem nodeRun_started_imp (c : NodeCfg F n K W T) (hb : c.batchInit = false)
    {s : NodeSt F n K W} (h1 : s.scm.numRyy = 0) (h2 : s.scm.numRnn = 0) (h3 : s.started = false)
    (l : List (UpEv F n K T)) (h : (nodeRun c s l).started = true) :
    ∃ l1 e l2, l = l1 ++ e :: l2 ∧
      Fintype.card n < (framesWith true (l1 ++ [e])).length ∧
      Fintype.card n < (framesWith false (l1 ++ [e])).length ∧
      c.startAfter ≤ e.t ∧
      c.valid (nodeRun c s (l1 ++ [e])).scm.rnn (nodeRun c s (l1 ++ [e])).scm.ryy = true := by
  induction l using List.reverseRecOn with
  | nil => exact absurd (h3.symm.trans h) (by simp)
  | append_singleton l e ih =>
    by_cases hs : (nodeRun c s l).started = true
    · obtain ⟨l1, e', l2, rfl, r⟩ := ih hs
      exact ⟨l1, e', l2 ++ [e], by simp, r⟩
    · have hs' : (nodeRun c s l).started = false := by simpa using hs
      refine ⟨l, e, [], rfl, ?_⟩
      obtain ⟨n1, n2, -⟩ := nodeRun_scm c h1 h2 (l ++ [e])
      rw [nodeRun_snoc, nodeStep_scm] at n1 n2
      rw [nodeRun_snoc, nodeStep_started, hs'] at h
      rw [nodeRun_snoc, nodeStep_scm, ← n1, ← n2]
      unfold checkCov at h
      rw [hb] at h
      simp only [reduceCtorEq, if_false, true_and] at h
      split at h
      · rename_i ht
        split at h
        · rename_i hc
          split at h
          · rename_i hv
            exact ⟨hc.1, hc.2, ht, hv⟩
          · cases h
        · cases h
      · cases h

/-- `nUps` grows only at a step at which the node is started. -/
theorem nodeStep_nUps (c : NodeCfg F n K W T) (s : NodeSt F n K W) (y : Frame F n K) (vad : Bool)
    (t : T) (b : Bool) :
    (nodeStep c s y vad t b).nUps = s.nUps +
      if b = false ∧ c.bypassAll = false ∧ (nodeStep c s y vad t b).started = true
      then 1 else 0 := by
  rw [nodeStep_started]
  unfold nodeStep
  simp only
  cases b with
  | true => simp
  | false =>
    simp only [reduceCtorEq, if_false, true_and]
    split <;> rfl

/-- Invariant on the filter array for an initial array constant over the iterations. -/
theorem nodeRun_filter (c : NodeCfg F n K W T) {s : NodeSt F n K W} {w0 : W} (hw : ∀ j, s.w j = w0) (l : List (UpEv F n K T)) :
    (∀ j, (nodeRun c s l).i < j → (nodeRun c s l).w j = w0) ∧
    ((nodeRun c s l).started = false ∨ c.bypassAll = true →
      (nodeRun c s l).w (nodeRun c s l).i = w0) := by
  induction l using List.reverseRecOn with
  | nil => exact ⟨fun j _ => hw j, fun _ => hw _⟩
  | append_singleton l e ih =>
    rw [nodeRun_snoc, nodeStep_i, nodeStep_started]
    have hs : (nodeRun c s l).started = true →
        checkCov c (scmUpdate c.use1st c.beta (nodeRun c s l).scm e.y e.vad e.vad)
          (nodeRun c s l).started e.t = true := by
      intro h; rw [h, checkCov_of_started]
    generalize nodeRun c s l = st at ih hs
    obtain ⟨i1, i2⟩ := ih
    unfold nodeStep
    simp only
    generalize checkCov c (scmUpdate c.use1st c.beta st.scm e.y e.vad e.vad) st.started e.t = b at hs
    cases hb : e.bypass with
    | true =>
      simp only [if_true]
      refine ⟨fun j hj => ?_, fun h => ?_⟩
      · rw [if_neg (by omega)]; exact i1 j (by omega)
      · apply i2
        rcases h with h | h
        · left
          cases hst : st.started with
          | false => rfl
          | true => rw [hs hst] at h; cases h
        · exact Or.inr h
    | false =>
      simp only [reduceCtorEq, if_false]
      split <;> rename_i h'
      · refine ⟨fun j hj => ?_, fun h => ?_⟩
        · dsimp only at hj ⊢
          rw [if_neg (by omega)]; exact i1 j (by omega)
        · rcases h with h | h
          · rw [h'.2] at h; cases h
          · rw [h'.1] at h; cases h
      · exact ⟨fun j hj => i1 j (by omega), fun _ => i1 _ (by omega)⟩

end

section
variable {F n K : Type} [Fintype n] [Field K] [StarRing K]

theorem zip_take_left {α β : Type} (l : List α) (m : List β) :
    l.zip (m.take l.length) = l.zip m := by
  induction l generalizing m with
  | nil => rfl
  | cons a l ih => cases m <;> simp [ih]

theorem sum_filter_map_apply (l : List (Frame F n K × Bool)) (p : Frame F n K × Bool → Bool)
    (f : F) (i j : n) :
    ((((l.filter p).map (·.1)).map fun y : Frame F n K =>
      (Matrix.of fun j k => y f j * star (y f k) : Matrix n n K)).sum) i j =
    (l.map fun q => if p q then q.1 f i * star (q.1 f j) else 0).sum := by
  induction l with
  | nil => rfl
  | cons a l ih =>
    rw [List.filter_cons]
    by_cases h : p a
    · simp only [h, if_true, List.map_cons, List.sum_cons, Matrix.add_apply, ih, Matrix.of_apply]
    · simp only [h, if_false, List.map_cons, List.sum_cons, zero_add, ih, Bool.false_eq_true]

theorem covBatch_ok (frames : List (Frame F n K)) (vad : List Bool)
    (h : frames.length ≤ vad.length) :
    ∃ Ryy Rnn, covBatch frames vad = .ok (Ryy, Rnn) ∧
      ∀ (b : Bool) (f : F) (i j : n),
        (if b then Ryy else Rnn) f i j =
        ((frames.zip vad).map fun p =>
          if p.2 = b then p.1 f i * star (p.1 f j) else 0).sum /
          ((frames.zip vad).countP fun p => p.2 == b : ℕ) := by
  have hz : frames.zip (if vad.length > frames.length then vad.take frames.length else vad) =
      frames.zip vad := by
    split
    · exact zip_take_left _ _
    · rfl
  have hl : (if vad.length > frames.length then vad.take frames.length else vad).length =
      frames.length := by
    split
    · rw [List.length_take]; omega
    · omega
  unfold covBatch
  simp only [hl, ne_eq, not_true_eq_false, if_false, hz]
  refine ⟨_, _, rfl, ?_⟩
  intro b f i j
  cases b
  · simp only [Bool.false_eq_true, if_false, Matrix.smul_apply, sum_filter_map_apply,
      List.length_map, smul_eq_mul, List.countP_eq_length_filter]
    rw [one_div, mul_comm, ← div_eq_mul_inv]
    congr 3
    · funext ⟨a, b⟩
      cases b <;> simp
    · congr 1
      funext q; cases q.2 <;> rfl
  · simp only [if_true, Matrix.smul_apply, sum_filter_map_apply,
      List.length_map, smul_eq_mul, List.countP_eq_length_filter]
    rw [one_div, mul_comm, ← div_eq_mul_inv]
    congr 3
    congr 1
    funext q; cases q.2 <;> rfl

end

section
variable {F n : Type} [Fintype n]
open scoped ComplexOrder

theorem scmUpdate_psd (u : Bool) {β : ℂ} {b : ℝ} (hc : β = (b : ℂ)) (h0 : 0 ≤ b) (h1 : b ≤ 1)
    {s : Scm F n ℂ} (f : F) (hy : (s.ryy f).PosSemidef) (hn : (s.rnn f).PosSemidef)
    (y : Frame F n ℂ) (v w : Bool) :
    ((scmUpdate u β s y v w).ryy f).PosSemidef ∧ ((scmUpdate u β s y v w).rnn f).PosSemidef := by
  have hr : (outerMean y f).PosSemidef := by rw [outerMean_eq]; exact rankOne_posSemidef y f
  subst hc
  have by' := posSemidef_blend h0 h1 hy hr
  have bn := posSemidef_blend h0 h1 hn hr
  unfold scmUpdate conditionalScm updateCovOnline
  cases u <;> cases v <;> cases w <;>
    simp only [reduceCtorEq, if_false, if_true, and_false, and_true] <;>
    refine ⟨?_, ?_⟩ <;> repeat' split
  all_goals first | assumption | skip

end
end Danse
