import Verif.Proofs.DanseCentr5

/-!
# Helper lemmas for C130: errors for another reference channel, and with some of the channels
-/

set_option linter.unusedSectionVars false

namespace Danse
section
variable {K : Type} [Field K] [StarRing K] [DecidableEq K] {C : CDanseCfg K} {y : Nat → List (List K)} {T : Nat}
  {evs : List (ℚ × Nat × EvType)} {a : CDanseSt C}

theorem heardS_restrict {k : Nat} (hvad : ∀ i, C.cvad i = C.D.vad k i)
    (hrot : ∀ l c κ, C.rotC k l c κ = 1) {h : List (CObs K)} (σ : Fin (C.D.dim k) → Fin C.total)
    (hp : ∀ o ∈ h, ∀ c : Fin (C.D.dim k), o.yS[c.val]? = o.yC[(σ c).val]?) :
    C.heardS k h = (C.heardC k h).map fun e => ⟨fun κ c => e.y κ (σ c), e.vad, e.t, e.bypass⟩ := by
  unfold CDanseCfg.heardS CDanseCfg.heardC
  rw [List.map_map]
  apply List.map_congr_left
  rintro ⟨o, i⟩ hoi
  have ho : o ∈ h := List.mem_of_getElem? (List.mem_zipIdx_iff_getElem?.mp hoi)
  simp only [Function.comp]
  congr 1
  · funext κ c
    rw [hrot, mul_one]
    unfold coef
    rw [List.getD_eq_getElem?_getD, List.getD_eq_getElem?_getD, List.getElem?_map, List.getElem?_map, hp o ho c]
  · exact (hvad i).symm

theorem heardLoc_single {k : Nat} {h : List (CObs K)} {h' : List (Obs K)} (hl : h.length = h'.length)
    (hp : ∀ (i : Nat) (o : CObs K) (o' : Obs K), h[i]? = some o → h'[i]? = some o' →
      o'.t = o.t ∧ o'.loc <+: o.yS ∧ o'.loc.length = C.D.M k) :
    C.D.heardLoc k h' = (C.heardS k h).map fun e => ⟨fun κ c => e.y κ (Fin.castAdd _ c), e.vad, e.t, e.bypass⟩ := by
  unfold DanseCfg.heardLoc CDanseCfg.heardS
  rw [List.map_map]
  apply List.ext_getElem?
  intro i
  rw [List.getElem?_map, List.getElem?_map, List.getElem?_zipIdx, List.getElem?_zipIdx]
  by_cases hi : i < h.length
  · obtain ⟨o, ho⟩ : ∃ o, h[i]? = some o := ⟨_, List.getElem?_eq_getElem hi⟩
    obtain ⟨o', ho'⟩ : ∃ o, h'[i]? = some o := ⟨_, List.getElem?_eq_getElem (by omega)⟩
    obtain ⟨ht, ⟨r, hr⟩, hm⟩ := hp i o o' ho ho'
    rw [ho, ho']
    simp only [Option.map_some, Function.comp]
    congr 2
    funext κ c
    unfold coef
    rw [← hr, List.map_append, List.getD_eq_getElem?_getD, List.getD_eq_getElem?_getD]
    simp only [Fin.val_castAdd]
    rw [List.getElem?_append_left (by rw [List.length_map, hm]; exact c.isLt)]
  · rw [List.getElem?_eq_none (by omega), List.getElem?_eq_none (by omega)]
    rfl

/-- At every update after which the run goes on, the channels of the single-sensor observation are channels of the
centralised one. -/
theorem cdanse_places (hc : C.centr = true) (hs : C.ssbc = true) (hN : 0 < C.D.g.N) (hM : ∀ q, (y q).length = C.D.M q)
    (hlen : ∀ q < C.n, ∀ x ∈ y q, C.D.g.N ≤ x.length)
    (hev : ∀ ev ∈ evs, ev.2.1 < C.n ∧ 0 ≤ ⌊ev.1 * C.D.g.fs ev.2.1⌋)
    {k : Nat} (hk : k < C.n) (he : ∀ t ∈ upTimes evs k, 0 ≤ frameEnd C.D.g.bc C.D.g.N C.D.g.Ns t (C.D.g.fs k))
    (hpos : ∀ q < C.n, q ≠ k → 0 < C.D.M q) (h : cdanseRun C y T evs = .ok a) {i : Nat} {o : CObs K}
    (ho : (a.chist k)[i]? = some o) :
    C.D.dim k = C.D.M k + (C.others k).length ∧ ∀ c < C.D.dim k, o.yS[c]? = o.yC[C.place k c]? := by
  have hti : o.t ∈ upTimes evs k := by
    obtain ⟨pre, post, b, rfl, -, -⟩ := cdanse_at h ho
    exact List.mem_of_getElem? upTimes_at
  obtain ⟨f, f1, f2, f3⟩ := cdanse_blocks hc hN hM hlen hev h hk ho (he _ hti)
  have hyS := f3 hs hpos
  have w := cdanseRun_inv _ h
  have hdim : C.D.dim k = C.D.M k + (C.others k).length := by
    have := (w.rowS hs k i (by rw [← w.len k]; exact (List.getElem?_eq_some_iff.mp ho).1)).2 o ho
    rw [← this, hyS, List.length_append, f1, List.length_map]
  refine ⟨hdim, fun c hcd => ?_⟩
  rw [hyS, f2]
  exact blocks_place f1 hk hpos (by omega)

end

section
variable {D : DanseCfg ℂ} {k : Nat}
open Matrix
open scoped ComplexOrder

theorem estErr_at {m : Nat} (l : List (UpEv (Fin D.nb) (Fin m) ℂ ℚ)) (κ : Fin D.nb) (w : Fin m → ℂ) :
    D.estErr k l κ w = D.estErrAt D.g.refSensor k l κ w := rfl

/-- The solution of the normal equations for reference channel `r` has the least estimated error. -/
theorem wiener_best_at {m r : Nat} {β : ℝ} (hβ : D.beta k = (β : ℂ)) {l : List (UpEv (Fin D.nb) (Fin m) ℂ ℚ)} {κ : Fin D.nb}
    (hp : ∀ b, (D.scm k b l κ).PosDef) (href : r < m) {w : Fin m → ℂ}
    (hw : D.scm k true l κ *ᵥ w = (D.scm k true l κ - D.scm k false l κ) *ᵥ Pi.single ⟨r, href⟩ 1)
    (v : Fin m → ℂ) :
    D.estErrAt r k l κ w ≤ D.estErrAt r k l κ v ∧ (D.estErrAt r k l κ v = D.estErrAt r k l κ w → v = w) := by
  have hm : (0 : ℝ) < m := by exact_mod_cast (by omega : 0 < m)
  have e : (fun c : Fin m => if c.val = r then (1 : ℂ) else 0) = Pi.single ⟨r, href⟩ 1 := by
    ext c
    simp [Pi.single_apply, Fin.ext_iff]
  have key : ∀ u, D.estErrAt r k l κ u = m * (qf (D.scm k true l κ - D.scm k false l κ) (Pi.single ⟨r, href⟩ 1 - u) +
      qf (D.scm k false l κ) u) := by
    intro u
    unfold DanseCfg.estErrAt
    simp only [e]
    rw [power_eq hβ, power_eq hβ, power_eq hβ, qf_sub]
    ring
  have hsq := qf_square (hp true).1 (hp false).1 hw v
  have hq : 0 ≤ qf (D.scm k true l κ) (v - w) := (Complex.le_def.mp ((hp true).posSemidef.dotProduct_mulVec_nonneg (v - w))).1
  rw [key, key, hsq]
  constructor
  · exact mul_le_mul_of_nonneg_left (by linarith) hm.le
  · intro heq
    have hz : qf (D.scm k true l κ) (v - w) = 0 := by
      have := mul_left_cancel₀ hm.ne' heq
      linarith
    by_contra hne
    have := (Complex.lt_def.mp ((hp true).dotProduct_mulVec_pos (sub_ne_zero.mpr hne))).1
    unfold qf at hz
    rw [hz] at this
    simp at this

/-- With `use1stFrameAsBasis`, every filter for some of the channels has the error of some filter for all of them. -/
theorem estErrAt_part (hu : D.use1st = true) {m m' r r' : Nat} {l : List (UpEv (Fin D.nb) (Fin m) ℂ ℚ)}
    {l' : List (UpEv (Fin D.nb) (Fin m') ℂ ℚ)} (σ : Fin m' → Fin m) (hr' : r' < m') (hσ : (σ ⟨r', hr'⟩).val = r)
    (hinj : ∀ c, (σ c).val = r → c.val = r')
    (h : l' = l.map fun e => ⟨fun κ c => e.y κ (σ c), e.vad, e.t, e.bypass⟩)
    (hne : ∀ b, framesWith b l ≠ []) (κ : Fin D.nb) (v : Fin m' → ℂ) :
    ∃ u : Fin m → ℂ, D.estErrAt r k l κ u = D.estErrAt r' k l' κ v := by
  let push : (Fin m' → ℂ) → Fin m → ℂ := fun u c => ∑ j, if σ j = c then u j else 0
  have hdot : ∀ (u : Fin m' → ℂ) (y : Fin m → ℂ), star (push u) ⬝ᵥ y = star u ⬝ᵥ fun c => y (σ c) := by
    intro u y
    simp only [dotProduct, push, Pi.star_apply, star_sum, Finset.sum_mul]
    rw [Finset.sum_comm]
    apply Finset.sum_congr rfl
    intro j _
    rw [Finset.sum_eq_single (σ j)]
    · simp
    · intro c _ hc; simp [Ne.symm hc]
    · simp
  have hsub : ∀ u u', push (u - u') = push u - push u' := by
    intro u u'
    funext c
    simp only [push, Pi.sub_apply, ← Finset.sum_sub_distrib]
    apply Finset.sum_congr rfl
    intro j _
    split <;> simp
  have he : push (fun c => if c.val = r' then 1 else 0) = fun c => if c.val = r then 1 else 0 := by
    funext c
    simp only [push]
    by_cases hc : c.val = r
    · rw [if_pos hc, Finset.sum_eq_single ⟨r', hr'⟩]
      · rw [if_pos (Fin.ext (hσ.trans hc.symm)), if_pos rfl]
      · intro j _ hj
        split
        · rename_i h1
          have := hinj j (by rw [h1]; exact hc)
          exact absurd (Fin.ext this) hj
        · rfl
      · simp
    · rw [if_neg hc]
      apply Finset.sum_eq_zero
      intro j _
      split
      · rename_i h1
        rw [if_neg]
        intro h2
        apply hc
        rw [← h1, ← hσ]
        congr 2
        exact Fin.ext h2
      · rfl
  have hf : ∀ b, framesWith b l' = (framesWith b l).map fun y κ c => y κ (σ c) := by
    intro b
    subst h
    unfold framesWith
    rw [List.filter_map, List.map_map, List.map_map]
    rfl
  have havg : ∀ (b : ℝ) (u : Fin m' → ℂ) (fr : List (Frame (Fin D.nb) (Fin m) ℂ)) (p : ℝ),
      avgFrom b κ (push u) p fr = avgFrom b κ u p (fr.map fun y κ c => y κ (σ c)) := by
    intro b u fr
    induction fr with
    | nil => intro p; rfl
    | cons y fr ih =>
      intro p
      change avgFrom b κ _ (b * p + (1 - b) * ‖star (push u) ⬝ᵥ y κ‖ ^ 2) fr = _
      rw [ih, hdot]
      rfl
  have hpow : ∀ b (u : Fin m' → ℂ), D.power k b l κ (push u) = D.power k b l' κ u := by
    intro b u
    unfold DanseCfg.power
    rw [hf b, hu]
    cases hfr : framesWith b l with
    | nil => exact absurd hfr (hne b)
    | cons y fr =>
      simp only [List.map_cons]
      rw [havg, hdot]
  refine ⟨push v, ?_⟩
  unfold DanseCfg.estErrAt
  simp only
  rw [← he, ← hsub, hpow, hpow, hpow]

/-- Positive definite matrices from the first test passed on. -/
theorem posDef_from {m : Nat} {b : ℝ} (h0 : 0 < b) (h1 : b ≤ 1) (hβ : D.beta k = (b : ℂ))
    {l1 l2 : List (UpEv (Fin D.nb) (Fin m) ℂ ℚ)} {κ : Fin D.nb} {v : Bool}
    (hd : (D.scm k v l1 κ).det ≠ 0) (hR : (D.use1st = false ∧ (D.R0 k m κ).PosSemidef) ∨ (D.use1st = true ∧ framesWith v l1 ≠ [])) :
    (D.scm k v (l1 ++ l2) κ).PosDef := by
  unfold DanseCfg.scm at *
  rw [hβ] at *
  have base : (scmOf D.use1st (b : ℂ) (D.R0 k m) (framesWith v l1) κ).PosDef := by
    rw [Matrix.PosSemidef.posDef_iff_det_ne_zero]
    · exact hd
    · exact scmOf_psd D.use1st h0.le h1 κ _ (hR.imp_left (·.2))
  induction l2 using List.reverseRecOn with
  | nil => rwa [List.append_nil]
  | append_singleton l2 e2 ih =>
    rw [← List.append_assoc, framesWith_snoc]
    split
    · rw [scmOf_snoc]
      · exact posDef_blend h0 h1 ih (rankOne_posSemidef _ κ)
      · rcases hR with ⟨hu, _⟩ | ⟨hu, hne⟩
        · exact .inl hu
        · right
          intro h
          have := framesWith_mono v l1 l2
          rw [h] at this
          simp only [List.length_nil, Nat.le_zero_eq, List.length_eq_zero_iff] at this
          exact hne this
    · rw [List.append_nil]; exact ih

end
end Danse

namespace Danse
section
variable {K : Type} [Field K] [StarRing K] [DecidableEq K] {C : CDanseCfg K}

theorem heardC_vads (k : Nat) (h : List (CObs K)) : (C.heardC k h).map (·.vad) = (List.range h.length).map C.cvad := by
  induction h using List.reverseRecOn with
  | nil => rfl
  | append_singleton h o ih =>
    rw [heardC_snoc, List.map_append, ih, List.length_append, List.length_singleton, List.range_succ]
    simp

/-- The start condition with the VAD of the node for all the network. -/
theorem startedC_started {k : Nat} (hvad : ∀ i, C.cvad i = C.D.vad k i) {h : List (CObs K)}
    (hs : C.StartedC k (C.heardC k h)) : C.D.Started k (C.heardC k h) := by
  obtain ⟨l1, e, hp, ht, c1, c2, hv⟩ := hs
  have hvads : (l1 ++ [e]).map (·.vad) = (List.range (l1.length + 1)).map (C.D.vad k) := by
    obtain ⟨r, hr⟩ := hp
    have := congrArg (List.take (l1.length + 1)) (heardC_vads (C := C) k h)
    rw [← List.map_take, ← List.map_take, List.take_range] at this
    rw [show (C.heardC k h).take (l1.length + 1) = l1 ++ [e] by
      rw [← hr, List.take_append_of_le_length (by simp), List.take_of_length_le (by simp)]] at this
    rw [this]
    have hle : l1.length + 1 ≤ h.length := by
      rw [← heardC_length (C := C) (k := k), ← hr]; simp
    rw [min_eq_left hle]
    exact List.map_congr_left fun i _ => hvad i
  have hcount : ∀ b, (framesWith b (l1 ++ [e])).length = ((List.range (l1.length + 1)).filter fun i => C.D.vad k i == b).length := by
    intro b
    unfold framesWith
    rw [List.length_map, show (fun i => C.D.vad k i == b) = (fun v => v == b) ∘ C.D.vad k from rfl,
      ← List.countP_eq_length_filter, ← List.countP_eq_length_filter, ← List.countP_map, ← hvads, List.countP_map]
    rfl
  refine ⟨l1, e, hp, ht, ?_, ?_, hv⟩
  · rw [Fintype.card_fin, hcount]
    simpa using c1
  · rw [Fintype.card_fin, hcount]
    have : (fun i => C.D.vad k i == false) = fun i => !C.D.vad k i := by funext i; cases C.D.vad k i <;> rfl
    rw [this]
    exact c2

end

section
variable {C : CDanseCfg ℂ}
open Matrix
open scoped ComplexOrder

theorem startedC_posDef {k : Nat} {β : ℝ} (h0 : 0 < β) (h1 : β ≤ 1) (hβ : C.D.beta k = (β : ℂ))
    (hv : ∀ m Rnn Ryy, C.D.valid m Rnn Ryy = true → ∀ κ, (Rnn κ).det ≠ 0 ∧ (Ryy κ).det ≠ 0)
    (hsv : C.SoundVad k) (hR : C.D.use1st = true ∨ ∀ m κ, (C.D.R0 k m κ).PosSemidef) {h : List (CObs ℂ)}
    (hs : C.StartedC k (C.heardC k h)) (κ : Fin C.D.nb) (b : Bool) : (C.D.scm k b (C.heardC k h) κ).PosDef := by
  by_cases hu : C.D.use1st = true
  · have hvad := hsv.resolve_left (by rw [hu]; simp)
    have := startedC_started hvad hs
    unfold DanseCfg.scm
    unfold DanseCfg.Started at this
    rw [hβ] at this ⊢
    exact started_posDef h0 h1 κ (fun Rnn Ryy h => hv _ Rnn Ryy h κ) (.inl hu) _ this b
  · obtain ⟨l1, e, ⟨r, hr⟩, -, -, -, hvv⟩ := hs
    rw [← hr]
    refine posDef_from h0 h1 hβ ?_ (.inl ⟨by simpa using hu, (hR.resolve_left hu) _ κ⟩)
    have := hv _ _ _ hvv κ
    cases b
    · exact this.1
    · exact this.2

end
end Danse
