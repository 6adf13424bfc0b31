import Verif.Spec.Dead
import Verif.Proofs.Danse2
import Verif.Proofs.Danse4
import Verif.Proofs.Scale2
import Mathlib.LinearAlgebra.Matrix.ToLinearEquiv

/-!
# Auxiliary facts for C124: redundant channels
-/

namespace Danse
section
variable {F K : Type} [Field K] [StarRing K] {m : Nat}
open Matrix

theorem rankOne_redundant {y : Frame F (Fin m) K} {κ : F} {v : Fin m → K} (h : ∑ c, v c * y κ c = 0) :
    v ᵥ* rankOne y κ = 0 := by
  unfold rankOne
  rw [vecMul_smul, vecMul_vecMulVec]
  have : v ⬝ᵥ y κ = 0 := h
  rw [this]
  simp

theorem sum_vecMul_zero (l : List (Matrix (Fin m) (Fin m) K)) {v : Fin m → K} (h : ∀ A ∈ l, v ᵥ* A = 0) :
    v ᵥ* l.sum = 0 := by
  induction l with
  | nil => simp
  | cons A l ih =>
    rw [List.sum_cons, vecMul_add, h A (List.mem_cons_self ..), ih fun B hB => h B (List.mem_cons_of_mem _ hB), add_zero]

theorem expWeighted_redundant {β : K} {R0 : Cov F (Fin m) K} {l : List (Frame F (Fin m) K)} {κ : F} {v : Fin m → K}
    (h0 : v ᵥ* R0 κ = 0) (h : ∀ y ∈ l, ∑ c, v c * y κ c = 0) : v ᵥ* expWeighted β R0 l κ = 0 := by
  unfold expWeighted
  rw [vecMul_add, vecMul_smul, h0, smul_zero, zero_add]
  refine sum_vecMul_zero _ fun A hA => ?_
  obtain ⟨⟨y, i⟩, hp, rfl⟩ := List.mem_map.mp hA
  have hy : y ∈ l := (List.mem_zipIdx_iff_getElem?.mp hp |> List.mem_of_getElem?)
  rw [vecMul_smul, rankOne_redundant (h y hy), smul_zero]

theorem scmOf_redundant {β : K} {R0 : Cov F (Fin m) K} {l : List (Frame F (Fin m) K)} (hl : l ≠ []) {κ : F}
    {v : Fin m → K} (h : ∀ y ∈ l, ∑ c, v c * y κ c = 0) : v ᵥ* scmOf true β R0 l κ = 0 := by
  cases l with
  | nil => exact absurd rfl hl
  | cons y r =>
    simp only [scmOf, if_true]
    exact expWeighted_redundant (rankOne_redundant (h y (List.mem_cons_self ..)))
      fun z hz => h z (List.mem_cons_of_mem _ hz)

end

section
variable {K : Type} [Field K] [StarRing K] [DecidableEq K] {D : DanseCfg K}
open Matrix

theorem not_started_redundant (hu : D.use1st = true) (hv : D.FullRankTest) {k m : Nat}
    {l : List (UpEv (Fin D.nb) (Fin m) K ℚ)} {b : Bool} {κ : Fin D.nb} {v : Fin m → K} (hr : Redundant l b κ v) :
    ¬ D.Started k l := by
  rintro ⟨l1, e, hp, -, c1, c0, hval⟩
  have hd := hv m _ _ hval κ
  obtain ⟨hv0, hr⟩ := hr
  have key : ∀ {x : Cov (Fin D.nb) (Fin m) K}, (x = scmOf D.use1st (D.beta k) (D.R0 k m) (framesWith b (l1 ++ [e]))) →
      (x κ).det ≠ 0 → False := by
    rintro x rfl hx
    refine hx (exists_vecMul_eq_zero_iff.mp ⟨v, hv0, ?_⟩)
    rw [hu]
    refine scmOf_redundant ?_ fun y hy => ?_
    · intro h0
      cases b
      · rw [h0] at c0; simp at c0
      · rw [h0] at c1; simp at c1
    · obtain ⟨e', he', rfl⟩ := List.mem_map.mp hy
      obtain ⟨h1, h2⟩ := List.mem_filter.mp he'
      exact hr e' (hp.subset h1) (by simpa using h2)
  cases b
  · exact key rfl hd.1
  · exact key rfl hd.2

theorem redundant_prefix {F T : Type} {m : Nat} {l l' : List (UpEv F (Fin m) K T)} {b : Bool} {κ : F} {v : Fin m → K}
    (h : l' <+: l) (hr : Redundant l b κ v) : Redundant l' b κ v := ⟨hr.1, fun e he => hr.2 e (h.subset he)⟩

theorem heard_prefix (k : Nat) (h : List (Obs K)) (i : Nat) : D.heard k (h.take i) <+: D.heard k h := by
  induction h using List.reverseRecOn with
  | nil => simp
  | append_singleton h o ih =>
    rw [heard_snoc]
    by_cases hi : i ≤ h.length
    · rw [List.take_append_of_le_length hi]
      exact ih.trans (List.prefix_append _ _)
    · rw [List.take_of_length_le (by simp; omega), heard_snoc]

theorem heardLoc_prefix (k : Nat) (h : List (Obs K)) (i : Nat) : D.heardLoc k (h.take i) <+: D.heardLoc k h := by
  induction h using List.reverseRecOn with
  | nil => simp
  | append_singleton h o ih =>
    rw [heardLoc_snoc]
    by_cases hi : i ≤ h.length
    · rw [List.take_append_of_le_length hi]
      exact ih.trans (List.prefix_append _ _)
    · rw [List.take_of_length_le (by simp; omega), heardLoc_snoc]

/-- As long as updating does not start, rows stay as they are. -/
theorem frozen_rows {m k n : Nat} {l : Nat → List (UpEv (Fin D.nb) (Fin m) K ℚ)} {w w0 : Nat → List (List K)}
    (hn : ∀ i < n, ¬ D.Started k (l i)) (hc : ∀ j, w0 j = w0 0) (h0 : w 0 = w0 0)
    (hr : ∀ i < n, D.RowOk k (l i) (D.bypass k i) (w i) (w0 (i + 1)) (w (i + 1))) :
    ∀ i ≤ n, D.SameFilter m (w i) (w0 0) := by
  intro i
  induction i with
  | zero => intro _ κ c; rw [h0]
  | succ i ih =>
    intro hi κ c
    obtain ⟨-, r1, r2, -⟩ := hr i (by omega)
    cases hb : D.bypass k i with
    | true => rw [r1 hb κ c, ih (by omega) κ c]
    | false => rw [r2 hb (.inr (hn i (by omega))) κ c, hc]

end

/-! ## Silent channels -/

section
set_option linter.unusedSectionVars false
variable {K : Type} [Field K] [StarRing K] [DecidableEq K]

theorem silent_iff {x : List K} : Silent x ↔ x = scaled 0 x := by
  unfold Silent scaled
  constructor
  · intro h
    conv_lhs => rw [← List.map_id x]
    exact List.map_congr_left fun v hv => by rw [h v hv]; simp
  · intro h v hv
    rw [h] at hv
    obtain ⟨u, -, rfl⟩ := List.mem_map.mp hv
    exact zero_mul u

theorem silent_scaled (x : List K) : Silent (scaled 0 x) := by
  intro v hv
  obtain ⟨u, -, rfl⟩ := List.mem_map.mp hv
  exact zero_mul u

theorem silent_at0 {x : List K} (h : Silent x) (i : Nat) : at0 x i = 0 := by
  rw [silent_iff.mp h, scaled_at0, zero_mul]

variable {D : DanseCfg K} {y : Nat → List (List K)} {T : Nat} {evs : List (ℚ × Nat × EvType)} {a : DanseSt D}

/-- The frame of one sensor in an observation. -/
theorem loc_channel (h : danseRun D y T evs = .ok a) {k c : Nat} {ch : List K} (hc : (y k)[c]? = some ch) {o : Obs K}
    (ho : o ∈ a.run.hist k) : ∃ fr : List K, o.loc[c]? = some fr ∧ ∃ p,
      localChunk ch D.g.N (frameEnd D.g.bc D.g.N D.g.Ns o.t (D.g.fs k)) = .ok (fr, p) := by
  have w := adaptRun_observed (fun _ => rfl) evs (danseRun_adapt evs h).1
  obtain ⟨l, h1, h2⟩ := w.loc k o ho
  obtain ⟨b, hb, hF⟩ := (mapM_get h1).2 c ch hc
  refine ⟨b.1, ?_, b.2, hF⟩
  rw [h2, List.getElem?_map, hb]
  rfl

theorem silent_localChunk {ch fr : List K} {N : Nat} {e : Int} {p} (hs : Silent ch)
    (h : localChunk ch N e = .ok (fr, p)) : Silent fr := by
  rw [silent_iff.mp hs, scaled_localChunk] at h
  cases hc : localChunk ch N e with
  | error _ => rw [hc] at h; cases h
  | ok r =>
    rw [hc] at h
    injection h with h
    injection h with h _
    rw [← h]
    exact silent_scaled _

theorem scaled_localChunk_inv {ch fr fr' : List K} {g : K} {N : Nat} {e : Int} {p p'}
    (h : localChunk ch N e = .ok (fr, p)) (h' : localChunk (scaled g ch) N e = .ok (fr', p')) : fr' = scaled g fr := by
  rw [scaled_localChunk, h] at h'
  injection h' with h'
  injection h' with h' _
  exact h'.symm

theorem coef_silent {chs : List (List K)} {c : Nat} (hs : Silent (chs.getD c [])) (ζ : K) (N : Nat) (cc : K)
    (h : List K) (κ : Nat) : coef (chs.map (analysis ζ N cc h)) κ c = 0 := by
  unfold coef
  rw [List.getD_eq_getElem?_getD, List.getElem?_map]
  rw [List.getD_eq_getElem?_getD] at hs
  cases hc : chs[c]? with
  | none => rfl
  | some x =>
    rw [hc] at hs
    have hs : Silent x := hs
    change at0 (analysis ζ N cc h x) κ = 0
    rw [silent_iff.mp hs, scaled_analysis, scaled_at0, zero_mul]

theorem coef_multiple {chs : List (List K)} {c c' : Nat} {fr : List K} {g : K} (h1 : chs[c]? = some fr)
    (h2 : chs[c']? = some (scaled g fr)) (ζ : K) (N : Nat) (cc : K) (h : List K) (κ : Nat) :
    coef (chs.map (analysis ζ N cc h)) κ c' = g * coef (chs.map (analysis ζ N cc h)) κ c := by
  unfold coef
  rw [List.getD_eq_getElem?_getD, List.getD_eq_getElem?_getD, List.getElem?_map, List.getElem?_map, h1, h2]
  change at0 (analysis ζ N cc h (scaled g fr)) κ = _
  rw [scaled_analysis, scaled_at0]
  rfl

/-- The equation that a silent channel satisfies. -/
theorem sum_single_zero {m : Nat} {c : Fin m} {x : Fin m → K} (h : x c = 0) :
    ∑ j, (Pi.single c 1 : Fin m → K) j * x j = 0 := by
  rw [Finset.sum_eq_single c (fun j _ hj => by simp [hj]) (by simp), Pi.single_eq_same, one_mul, h]

/-- The equation that a channel and a multiple of it satisfy. -/
theorem sum_pair_zero {m : Nat} {c c' : Fin m} {x : Fin m → K} {g : K} (h : x c' = g * x c) :
    ∑ j, (Pi.single c g - Pi.single c' 1 : Fin m → K) j * x j = 0 := by
  simp only [Pi.sub_apply, sub_mul, Finset.sum_sub_distrib]
  rw [Finset.sum_eq_single c (fun j _ hj => by simp [hj]) (by simp),
    Finset.sum_eq_single c' (fun j _ hj => by simp [hj]) (by simp), Pi.single_eq_same, Pi.single_eq_same, h]
  ring

theorem pair_ne_zero {m : Nat} {c c' : Fin m} (hc : c ≠ c') (g : K) :
    (Pi.single c g - Pi.single c' 1 : Fin m → K) ≠ 0 := by
  intro h
  have := congrFun h c'
  simp [Pi.single_apply, hc.symm] at this

/-- What is heard in one frame. -/
theorem mem_heard {k : Nat} {h : List (Obs K)} {e} (he : e ∈ D.heard k h) : ∃ o ∈ h, ∃ i, ∀ (κ : Fin D.nb) (c : Fin (D.dim k)),
    e.y κ c = coef ((o.loc ++ o.z).map (analysis D.g.ζ D.g.N D.g.c D.g.h)) κ c *
      D.rot k ((h.take (i + 1)).map fun o => (o.t, o.flags)) c κ := by
  unfold DanseCfg.heard at he
  obtain ⟨⟨o, i⟩, hp, rfl⟩ := List.mem_map.mp he
  exact ⟨o, List.mem_of_getElem? (List.mem_zipIdx_iff_getElem?.mp hp), i, fun _ _ => rfl⟩

theorem mem_heardLoc {k : Nat} {h : List (Obs K)} {e} (he : e ∈ D.heardLoc k h) : ∃ o ∈ h,
    ∀ (κ : Fin D.nb) (c : Fin (D.M k)), e.y κ c = coef (o.loc.map (analysis D.g.ζ D.g.N D.g.c D.g.h)) κ c := by
  unfold DanseCfg.heardLoc at he
  obtain ⟨⟨o, i⟩, hp, rfl⟩ := List.mem_map.mp he
  exact ⟨o, List.mem_of_getElem? (List.mem_zipIdx_iff_getElem?.mp hp), fun _ _ => rfl⟩

theorem getElem?_append_some {α : Type} {l l' : List α} {c : Nat} {x : α} (h : l[c]? = some x) : (l ++ l')[c]? = some x := by
  rw [List.getElem?_append_left (List.getElem?_eq_some_iff.mp h).1, h]

/-- Filters of a node that hears a redundant channel stay as they are. -/
theorem danseRun_frozen (h : danseRun D y T evs = .ok a) (hu : D.use1st = true) (hv : D.FullRankTest) {k : Nat} :
    ((∃ b κ v, Redundant (D.heard k (a.run.hist k)) b κ v) → (∀ j, D.g.wInt k j = D.g.wInt k 0) →
      ∀ i ≤ evUps evs k, D.SameFilter (D.dim k) (a.run.cfg.wInt k i) (D.g.wInt k 0)) ∧
    ((∃ b κ v, Redundant (D.heardLoc k (a.run.hist k)) b κ v) → (∀ j, D.g.wLoc k j = D.g.wLoc k 0) →
      ∀ i ≤ evUps evs k, D.SameFilter (D.M k) (a.run.cfg.wLoc k i) (D.g.wLoc k 0)) := by
  obtain ⟨w, -⟩ := adaptRun_written (fun _ => rfl) evs (danseRun_adapt evs h).1
  obtain ⟨e1, e2, e3⟩ := w.old k 0 (.inl rfl)
  constructor
  · rintro ⟨b, κ, v, hr⟩ hc
    exact frozen_rows (fun i _ => not_started_redundant hu hv (redundant_prefix (heard_prefix k _ (i + 1)) hr)) hc e1
      fun i hi => (danseRun_rowOk h k i hi).1
  · rintro ⟨b, κ, v, hr⟩ hc
    exact frozen_rows (fun i _ => not_started_redundant hu hv (redundant_prefix (heardLoc_prefix k _ (i + 1)) hr)) hc e3
      fun i hi => (danseRun_rowOk h k i hi).2

end
end Danse
