import Verif.Proofs.Stoi
import Verif.Spec.Stoi

/-! # Lemmas for the intelligibility score: kept frames -/

namespace Danse

theorem frameEnergy_eq (x : List ℝ) (i : Nat) : l2norm (hannFrame 256 x i) = frameEnergy x i := by
  unfold l2norm hannFrame frameEnergy
  rw [List.map_map, ← List.sum_toFinset _ List.nodup_range, List.toFinset_range]
  congr 1
  refine Finset.sum_congr rfl fun t _ => ?_
  simp only [Function.comp, hannAt]
  norm_num

theorem mem_frameStarts (l i : Nat) : i ∈ frameStarts l 256 128 ↔ ∃ k, i = 128 * k ∧ 128 * k + 256 < l := by
  unfold frameStarts
  rw [List.mem_map]
  constructor
  · rintro ⟨k, hk, rfl⟩
    rw [List.mem_range] at hk
    exact ⟨k, Nat.mul_comm _ _, by omega⟩
  · rintro ⟨k, rfl, hk⟩
    exact ⟨k, by rw [List.mem_range]; omega, Nat.mul_comm _ _⟩

theorem frameEnergy_nonneg (x : List ℝ) (i : Nat) : 0 ≤ frameEnergy x i := Real.sqrt_nonneg _

theorem db_lt {a b : ℝ} (ha : 0 < a) (hb : 0 < b) :
    20 * Real.logb 10 a - 40 - 20 * Real.logb 10 b < 0 ↔ a < 100 * b := by
  have h100 : Real.logb 10 100 = 2 := by
    rw [show (100 : ℝ) = 10 ^ (2 : ℝ) by norm_num]
    exact Real.logb_rpow (by norm_num) (by norm_num)
  have h : Real.logb 10 (100 * b) = 2 + Real.logb 10 b := by
    rw [Real.logb_mul (by norm_num) hb.ne', h100]
  rw [← Real.logb_lt_logb_iff (b := 10) (by norm_num) ha (by positivity), h]
  constructor <;> intro h <;> linarith

/-- The kept frames are the audible ones, in order. -/
theorem keptStarts_ok {eps : ℝ} (he : 0 < eps) {x : List ℝ} (hx : 256 < x.length) :
    ∃ st, keptStarts eps 40 256 128 x = .ok st ∧ st.Nodup ∧
      ∀ i, i ∈ st ↔ ∃ k, i = 128 * k ∧ Audible eps x k := by
  classical
  unfold keptStarts
  simp only
  cases hm : ((frameStarts x.length 256 128).map fun i =>
      20 * Real.logb 10 (l2norm (hannFrame 256 x i) + eps)).max? with
  | none =>
    rw [List.max?_eq_none_iff, List.map_eq_nil_iff] at hm
    have : 0 ∈ frameStarts x.length 256 128 := (mem_frameStarts _ _).mpr ⟨0, rfl, by omega⟩
    rw [hm] at this
    cases this
  | some m =>
    refine ⟨_, rfl, ?_, ?_⟩
    · refine List.Nodup.filter _ ?_
      unfold frameStarts
      exact List.nodup_range.map fun a b h => by simpa using h
    · intro i
      rw [List.max?_eq_some_iff] at hm
      obtain ⟨hmem, hmax⟩ := hm
      rw [List.mem_map] at hmem
      obtain ⟨j, hj, hjm⟩ := hmem
      rw [List.mem_filter, mem_frameStarts, decide_eq_true_eq]
      have key : ∀ u v : Nat, 20 * Real.logb 10 (l2norm (hannFrame 256 x u) + eps) - 40 -
          20 * Real.logb 10 (l2norm (hannFrame 256 x v) + eps) < 0 ↔
          frameEnergy x u + eps < 100 * (frameEnergy x v + eps) := by
        intro u v
        rw [frameEnergy_eq, frameEnergy_eq]
        exact db_lt (add_pos_of_nonneg_of_pos (frameEnergy_nonneg _ _) he)
          (add_pos_of_nonneg_of_pos (frameEnergy_nonneg _ _) he)
      constructor
      · rintro ⟨⟨k, rfl, hk⟩, h⟩
        refine ⟨k, rfl, hk, fun k' hk' => ?_⟩
        rw [← key]
        have := hmax _ (List.mem_map_of_mem ((mem_frameStarts _ _).mpr ⟨k', rfl, hk'⟩))
        linarith
      · rintro ⟨k, rfl, hk, h⟩
        refine ⟨⟨k, rfl, hk⟩, ?_⟩
        obtain ⟨k', rfl, hk'⟩ := (mem_frameStarts _ _).mp hj
        rw [← hjm, key]
        exact h k' hk'

theorem mem_audible {eps : ℝ} {x : List ℝ} {k : Nat} : k ∈ audible eps x ↔ Audible eps x k := by
  classical
  unfold audible
  rw [Finset.mem_filter, Finset.mem_range]
  exact ⟨And.right, fun h => ⟨by have := h.1; omega, h⟩⟩

theorem kept_card {eps : ℝ} {x : List ℝ} {st : List Nat} (hn : st.Nodup)
    (hst : ∀ i, i ∈ st ↔ ∃ k, i = 128 * k ∧ Audible eps x k) : st.length = (audible eps x).card := by
  classical
  have : st.toFinset = (audible eps x).image (128 * ·) := by
    ext i
    rw [List.mem_toFinset, hst, Finset.mem_image]
    constructor
    · rintro ⟨k, rfl, hk⟩; exact ⟨k, mem_audible.mpr hk, rfl⟩
    · rintro ⟨k, hk, rfl⟩; exact ⟨k, rfl, mem_audible.mp hk⟩
  rw [← List.toFinset_card_of_nodup hn, this, Finset.card_image_of_injective _ fun a b h => by simpa using h]

theorem keptStarts_short {eps dyn : ℝ} {x : List ℝ} (hx : x.length ≤ 256) :
    keptStarts eps dyn 256 128 x = .error .valueError := by
  have h : frameStarts x.length 256 128 = [] := by
    rw [← List.length_eq_zero_iff, frameStarts_length]
    omega
  unfold keptStarts
  rw [h]
  rfl

theorem audible_ne {eps : ℝ} (he : 0 < eps) {x : List ℝ} (hx : 256 < x.length) :
    0 < (audible eps x).card := by
  obtain ⟨k, hk, hmax⟩ := Finset.exists_max_image
    ((Finset.range x.length).filter fun k => 128 * k + 256 < x.length) (fun k => frameEnergy x (128 * k))
    ⟨0, by rw [Finset.mem_filter, Finset.mem_range]; omega⟩
  rw [Finset.mem_filter, Finset.mem_range] at hk
  refine Finset.card_pos.mpr ⟨k, mem_audible.mpr ⟨hk.2, fun k' hk' => ?_⟩⟩
  have := hmax k' (by rw [Finset.mem_filter, Finset.mem_range]; omega)
  have := frameEnergy_nonneg x (128 * k)
  linarith

/-- The number of STFT frames after removing the silent ones. -/
theorem stft_count {n : Nat} (hn : 0 < n) :
    (frameStarts ((n - 1) * 128 + 256) 256 128).length = n - 1 := by
  rw [frameStarts_length]
  omega

/-- The score, in terms of the kept frames. -/
theorem stoi_eq {c : StoiCfg} {x y : List ℝ} (hxy : x.length = y.length) {st : List Nat}
    (hst : keptStarts c.eps 40 256 128 (c.at10k x) = .ok st) :
    stoiAnyFs c x y =
      (let xs := olaFrames 256 128 (st.map (hannFrame 256 (c.at10k x)))
       let ys := olaFrames 256 128 (st.map (hannFrame 256 (c.at10k y)))
       if (frameStarts xs.length 256 128).length < 30 then .ok 1e-5
       else do
        let xg := segmentsOf 30 512 256 128 c.bands xs
        let yg := segmentsOf 30 512 256 128 c.bands ys
        if c.extended then do
          let xn ← normSegments c.eps c.noiseX xg
          let yn ← normSegments c.eps c.noiseY yg
          .ok (((xn.zip yn).map fun (a, b) => ∑ j, ∑ m, a j m * b j m / 30).sum / xn.length)
        else
          .ok (((xg.zip yg).map fun (a, b) => plainSegment c.eps (10 ^ ((15 : ℝ) / 20)) a b).sum /
            (xg.length * 15))) := by
  have h : removeSilent c.eps 40 256 128 (c.at10k x) (c.at10k y) =
      .ok (olaFrames 256 128 (st.map (hannFrame 256 (c.at10k x))),
        olaFrames 256 128 (st.map (hannFrame 256 (c.at10k y)))) := by
    unfold removeSilent
    rw [hst]
    rfl
  unfold stoiAnyFs
  rw [if_neg (not_not.mpr hxy)]
  show (removeSilent c.eps 40 256 128 (c.at10k x) (c.at10k y) >>= _) = _
  rw [h]
  rfl

theorem normSegments_length {J N : Nat} {eps : ℝ} {noise : Nat → Seg J N × Seg J N} {l r : List (Seg J N)}
    (h : normSegments eps noise l = .ok r) : r.length = l.length := (normSegments_unit h).1

/-- Two signals with the same samples in a frame give the same frame. -/
theorem hannFrame_congr {x y : List ℝ} {i : Nat} (h : ∀ t < 256, x.getD (i + t) 0 = y.getD (i + t) 0) :
    hannFrame 256 x i = hannFrame 256 y i := by
  unfold hannFrame
  refine List.map_congr_left fun t ht => ?_
  rw [h t (List.mem_range.mp ht)]

theorem rowNormalize_err {J N : Nat} {eps : ℝ} {r x : Seg J N} {e : PyErr}
    (h : rowNormalize eps r x = .error e) : e = .nan := by
  unfold rowNormalize at h
  simp only at h
  split at h
  · injection h with h; exact h.symm
  · cases h

theorem rowColNormalize_err {J N : Nat} {eps : ℝ} {r1 r2 x : Seg J N} {e : PyErr}
    (h : rowColNormalize eps r1 r2 x = .error e) : e = .nan := by
  unfold rowColNormalize at h
  cases h1 : rowNormalize eps r1 x with
  | error e1 =>
    rw [h1] at h
    injection h with h
    rw [← h]; exact rowNormalize_err h1
  | ok a =>
    rw [h1] at h
    cases h2 : rowNormalize eps (fun m j => r2 j m) (fun m j => a j m) with
    | error e2 =>
      have h' : (rowNormalize eps (fun m j => r2 j m) (fun m j => a j m) >>= fun b =>
        (Except.ok fun j m => b m j : Except PyErr (Seg J N))) = .error e := h
      rw [h2] at h'
      injection h' with h'
      rw [← h']; exact rowNormalize_err h2
    | ok b =>
      have h' : (rowNormalize eps (fun m j => r2 j m) (fun m j => a j m) >>= fun b =>
        (Except.ok fun j m => b m j : Except PyErr (Seg J N))) = .error e := h
      rw [h2] at h'
      cases h'

theorem mapM_err {α β : Type} {f : α → Except PyErr β} {e : PyErr} : ∀ {l : List α},
    l.mapM f = .error e → ∃ a ∈ l, f a = .error e := by
  intro l
  induction l with
  | nil => intro h; cases h
  | cons a l ih =>
    intro h
    rw [List.mapM_cons] at h
    cases ha : f a with
    | error e' =>
      rw [ha] at h
      injection h with h
      exact ⟨a, List.mem_cons_self, by rw [ha, h]⟩
    | ok b =>
      rw [ha] at h
      cases hl : l.mapM f with
      | error e' =>
        have h' : (l.mapM f >>= fun r => (pure (b :: r) : Except PyErr (List β))) = .error e := h
        rw [hl] at h'
        injection h' with h'
        obtain ⟨a', ha', hf⟩ := ih (by rw [hl, h'])
        exact ⟨a', List.mem_cons_of_mem _ ha', hf⟩
      | ok r =>
        have h' : (l.mapM f >>= fun r => (pure (b :: r) : Except PyErr (List β))) = .error e := h
        rw [hl] at h'
        cases h'

theorem normSegments_err {J N : Nat} {eps : ℝ} {noise : Nat → Seg J N × Seg J N} {l : List (Seg J N)}
    {e : PyErr} (h : normSegments eps noise l = .error e) : e = .nan := by
  obtain ⟨a, _, ha⟩ := mapM_err h
  exact rowColNormalize_err ha

theorem sum_div_list {α : Type} (l : List α) (f : α → ℝ) (a : ℝ) :
    (l.map f).sum / a = (l.map fun p => f p / a).sum := by
  induction l with
  | nil => simp
  | cons p l ih =>
    rw [List.map_cons, List.map_cons, List.sum_cons, List.sum_cons, ← ih, add_div]

theorem zip_self {α : Type} (l : List α) : ∀ p ∈ l.zip l, p.1 = p.2 := by
  induction l with
  | nil => intro p hp; cases hp
  | cons a l ih =>
    intro p hp
    rw [List.zip_cons_cons, List.mem_cons] at hp
    rcases hp with rfl | hp
    · rfl
    · exact ih p hp

theorem rowColNormalize_scale {J N : Nat} {g : ℝ} (hg : 0 < g) (eps : ℝ) (r1 r2 x : Seg J N) :
    rowColNormalize eps (fun j m => g * r1 j m) r2 (fun j m => g * x j m) =
      rowColNormalize eps r1 r2 x := by
  unfold rowColNormalize
  rw [rowNormalize_scale hg]

theorem segmentsOf_scale {J : Nat} {g : ℝ} (hg : 0 < g) (N nfft win hop : Nat) (bands : Fin J → List Nat)
    (x : List ℝ) : segmentsOf N nfft win hop bands (x.map (g * ·)) =
      (segmentsOf N nfft win hop bands x).map fun s j m => g * s j m := by
  unfold segmentsOf
  simp only [List.length_map, List.map_map]
  refine List.map_congr_left fun s _ => ?_
  funext j m
  simp only [Function.comp]
  rw [bandAmp_scale hg]

theorem normSegments_scale {J N : Nat} {g : ℝ} (hg : 0 < g) (eps : ℝ) (noise : Nat → Seg J N × Seg J N)
    (l : List (Seg J N)) :
    normSegments eps (fun i => (fun j m => g * (noise i).1 j m, (noise i).2))
      (l.map fun s j m => g * s j m) = normSegments eps noise l := by
  unfold normSegments
  rw [List.zipIdx_map, List.mapM_map]
  refine congrArg (fun f => List.mapM f l.zipIdx) ?_
  funext p
  exact rowColNormalize_scale hg eps _ _ _

/-- The dither can be such that no row and no column is constant. -/
theorem rowNormalize_some {J N : Nat} {eps : ℝ} (he : 0 < eps) (hN : 2 ≤ N) (x : Seg J N) :
    ∃ r a, rowNormalize eps r x = .ok a := by
  classical
  refine ⟨fun j m => ((if m.val = 0 then 1 else 0) - x j m) / eps, ?_⟩
  unfold rowNormalize
  simp only
  have ha : ∀ j m, x j m + eps * (((if m.val = 0 then (1 : ℝ) else 0) - x j m) / eps) =
      if m.val = 0 then 1 else 0 := by
    intro j m
    rw [mul_div_cancel₀ _ he.ne']; ring
  have hz : ¬ ∃ j : Fin J, ∑ m : Fin N, (x j m + eps * (((if m.val = 0 then (1 : ℝ) else 0) - x j m) / eps) -
      (∑ i : Fin N, (x j i + eps * (((if i.val = 0 then (1 : ℝ) else 0) - x j i) / eps))) / N) ^ 2 = 0 := by
    rintro ⟨j, hj⟩
    simp only [ha] at hj
    rw [Finset.sum_eq_zero_iff_of_nonneg fun _ _ => sq_nonneg _] at hj
    have h0 := hj ⟨0, by omega⟩ (Finset.mem_univ _)
    have h1 := hj ⟨1, by omega⟩ (Finset.mem_univ _)
    rw [sq_eq_zero_iff] at h0 h1
    rw [if_pos rfl] at h0
    rw [if_neg (by simp)] at h1
    linarith
  rw [if_neg hz]
  exact ⟨_, rfl⟩

theorem rowColNormalize_some {J N : Nat} {eps : ℝ} (he : 0 < eps) (hJ : 2 ≤ J) (hN : 2 ≤ N) (x : Seg J N) :
    ∃ r : Seg J N × Seg J N, ∃ a, rowColNormalize eps r.1 r.2 x = .ok a := by
  obtain ⟨r1, a, h1⟩ := rowNormalize_some he hN x
  obtain ⟨r2, b, h2⟩ := rowNormalize_some he hJ (fun (m : Fin N) (j : Fin J) => a j m)
  refine ⟨(r1, fun j m => r2 m j), fun j m => b m j, ?_⟩
  unfold rowColNormalize
  show (rowNormalize eps r1 x >>= _) = _
  rw [h1]
  show (rowNormalize eps r2 (fun m j => a j m) >>= _) = _
  rw [h2]
  rfl

theorem normSegments_some {J N : Nat} {eps : ℝ} (he : 0 < eps) (hJ : 2 ≤ J) (hN : 2 ≤ N)
    (l : List (Seg J N)) : ∃ noise r, normSegments eps noise l = .ok r := by
  have h : ∀ s : Seg J N, ∃ r : Seg J N × Seg J N, ∃ a, rowColNormalize eps r.1 r.2 s = .ok a :=
    fun s => rowColNormalize_some he hJ hN s
  choose f a hf using h
  refine ⟨fun i => f (l.getD i fun _ _ => 0), l.map a, ?_⟩
  unfold normSegments
  have : ∀ p ∈ l.zipIdx, rowColNormalize eps (f (l.getD p.2 fun _ _ => 0)).1
      (f (l.getD p.2 fun _ _ => 0)).2 p.1 = .ok (a p.1) := by
    rintro ⟨s, i⟩ hp
    rw [List.mem_zipIdx_iff_getElem?] at hp
    have : (l.getD i fun _ _ => 0) = s := by
      rw [List.getD_eq_getElem?_getD, hp]; rfl
    simp only [this]
    exact hf s
  rw [show l.map a = l.zipIdx.map fun p => a p.1 by
    conv_lhs => rw [← List.zipIdx_map_fst 0 l, List.map_map]
    rfl]
  generalize l.zipIdx = z at this
  induction z with
  | nil => rfl
  | cons p z ih =>
    rw [List.mapM_cons]
    show (rowColNormalize eps (f (l.getD p.2 fun _ _ => 0)).1
      (f (l.getD p.2 fun _ _ => 0)).2 p.1 >>= _) = _
    rw [this p List.mem_cons_self, ih fun q hq => this q (List.mem_cons_of_mem _ hq)]
    rfl

end Danse
