import Verif.Proofs.Layout2

/-!
# C96: arrays of sensors

`dr` holds the random draws. All statements hold for any rotation that is drawn.
-/

namespace Danse
open Matrix

theorem sameDist_map {f : Pt → Pt} (h : ∀ p q, ptDist (f p) (f q) = ptDist p q) (l : List Pt) : SameDist l (l.map f) := by
  refine ⟨by simp, fun i j p q p' q' h1 h2 h3 h4 => ?_⟩
  rw [List.getElem?_map, h1] at h3
  rw [List.getElem?_map, h2] at h4
  injection h3 with h3
  injection h4 with h4
  rw [← h3, ← h4, h]

/-- C96 (a): a linear array has the asked number of sensors, all on a line, centred at the node; two
neighbours on the line are `Mk / (Mk - 1)` times the asked distance apart, and no sensor is further from
the node than `Mk / 2` times that distance. -/
theorem C96_linear (dr : ArrayDraws) (hR : Orthogonal dr.lin) (node : Pt) {Mk : Nat} (hM : 2 ≤ Mk) {sep : ℝ}
    (hs : 0 ≤ sep) : ∃ pts, generateArrayPos dr node Mk "linear" sep false = .ok (some pts) ∧ pts.length = Mk ∧
      meanPt pts = node ∧
      (∀ (i j : Nat) (p q : Pt), pts[i]? = some p → pts[j]? = some q → ptDist p q = |(i : ℝ) - j| * (Mk / (Mk - 1) * sep)) ∧
      ∀ p ∈ pts, ptDist p node ≤ Mk * sep / 2 := by
  have h2 : (2 : ℝ) ≤ Mk := by exact_mod_cast hM
  have h1 : (0 : ℝ) < Mk - 1 := by linarith
  have hlen : (linearArray dr.lin node Mk sep).length = Mk := by
    unfold linearArray
    simp [linspace_length]
  refine ⟨_, rfl, hlen, ?_, ?_, ?_⟩
  · have hne : (linspace (0 : ℝ) (Mk * sep) Mk).map (fun v => (![v, 0, 0] : Pt)) ≠ [] := by
      intro h
      have := congrArg List.length h
      rw [List.length_map, linspace_length] at this
      simp at this
      omega
    have := meanPt_affine dr.lin hne node
    rw [List.map_map] at this
    have hm : meanPt ((linspace (0 : ℝ) (Mk * sep) Mk).map fun v => (![v, 0, 0] : Pt)) =
        ![(linspace (0 : ℝ) (Mk * sep) Mk).sum / (linspace (0 : ℝ) (Mk * sep) Mk).length, 0, 0] := by
      unfold meanPt
      rw [List.length_map]
      funext i
      rw [List.map_map]
      fin_cases i
      · have : ((fun x : Pt => x 0) ∘ fun v : ℝ => (![v, 0, 0] : Pt)) = id := by funext v; rfl
        simp only [Fin.zero_eta, this, List.map_id]
        rfl
      · have : ((fun x : Pt => x 1) ∘ fun v : ℝ => (![v, 0, 0] : Pt)) = fun _ => 0 := by funext v; rfl
        simp only [Fin.mk_one, this]
        simp
      · have : ((fun x : Pt => x 2) ∘ fun v : ℝ => (![v, 0, 0] : Pt)) = fun _ => 0 := by funext v; rfl
        simp only [Fin.reduceFinMk, this]
        simp
    rw [hm] at this
    refine Eq.trans (congrArg meanPt ?_) this
    unfold linearArray
    apply List.map_congr_left
    intro v _
    have e : (![v, 0, 0] : Pt) - ![(linspace (0 : ℝ) (Mk * sep) Mk).sum / (linspace (0 : ℝ) (Mk * sep) Mk).length, 0, 0] =
        ![v - (linspace (0 : ℝ) (Mk * sep) Mk).sum / (linspace (0 : ℝ) (Mk * sep) Mk).length, 0, 0] := by
      funext i
      fin_cases i <;> simp
    simp only [Function.comp_apply, e]
  · intro i j p q hp hq
    have hi : i < Mk := by
      rw [← hlen]; exact (List.getElem?_eq_some_iff.mp hp).1
    have hj : j < Mk := by
      rw [← hlen]; exact (List.getElem?_eq_some_iff.mp hq).1
    rw [linearArray_get hM hi] at hp
    rw [linearArray_get hM hj] at hq
    injection hp with hp
    injection hq with hq
    subst hp hq
    rw [ptDist_eq_norm3, add_sub_add_right_eq_sub, ← Matrix.mulVec_sub, norm3_orth hR]
    have e : (![((i : ℝ) - (Mk - 1) / 2) * (Mk / (Mk - 1) * sep), 0, 0] : Pt) -
        ![((j : ℝ) - (Mk - 1) / 2) * (Mk / (Mk - 1) * sep), 0, 0] = ![((i : ℝ) - j) * (Mk / (Mk - 1) * sep), 0, 0] := by
      funext i
      fin_cases i
      · simp; ring
      · simp
      · simp
    rw [e, norm3_axis, abs_mul, abs_of_nonneg (by positivity : 0 ≤ (Mk : ℝ) / (Mk - 1) * sep)]
  · intro p hp
    obtain ⟨i, hi, rfl⟩ := List.mem_iff_getElem.mp hp
    have hi' : i < Mk := by rw [← hlen]; exact hi
    have h := linearArray_get (R := dr.lin) (node := node) (sep := sep) hM hi'
    rw [List.getElem?_eq_getElem hi] at h
    injection h with h
    rw [h, ptDist_eq_norm3, add_sub_cancel_right, norm3_orth hR, norm3_axis, abs_mul,
      abs_of_nonneg (by positivity : 0 ≤ (Mk : ℝ) / (Mk - 1) * sep)]
    have hab : |(i : ℝ) - (Mk - 1) / 2| ≤ (Mk - 1) / 2 := by
      have hi2 : (i : ℝ) + 1 ≤ Mk := by exact_mod_cast hi'
      have : (0 : ℝ) ≤ i := by positivity
      rw [abs_le]
      constructor <;> linarith
    calc |(i : ℝ) - (Mk - 1) / 2| * (Mk / (Mk - 1) * sep) ≤ (Mk - 1) / 2 * (Mk / (Mk - 1) * sep) := by gcongr
      _ = Mk * sep / 2 := by field_simp

/-- C96 (b), refuted: that neighbouring sensors of a linear array are `micSep` apart. -/
theorem C96_linear_spacing_refuted (dr : ArrayDraws) (hR : Orthogonal dr.lin) (node : Pt) {Mk : Nat} (hM : 2 ≤ Mk)
    {sep : ℝ} (hs : 0 < sep) : ∃ pts p q, generateArrayPos dr node Mk "linear" sep false = .ok (some pts) ∧
      pts[0]? = some p ∧ pts[1]? = some q ∧ ptDist p q = Mk / (Mk - 1) * sep ∧ sep < ptDist p q := by
  obtain ⟨pts, h1, h2, _, h4, _⟩ := C96_linear dr hR node hM hs.le
  refine ⟨pts, pts[0], pts[1], h1, List.getElem?_eq_getElem _, List.getElem?_eq_getElem _, ?_⟩
  have h := h4 0 1 _ _ (List.getElem?_eq_getElem (by omega)) (List.getElem?_eq_getElem (by omega))
  have e : ptDist pts[0] pts[1] = Mk / (Mk - 1) * sep := by
    rw [h]; norm_num
  refine ⟨e, ?_⟩
  rw [e]
  have h2' : (2 : ℝ) ≤ Mk := by exact_mod_cast hM
  have : 1 < (Mk : ℝ) / (Mk - 1) := by
    rw [lt_div_iff₀ (by linarith)]
    linarith
  nlinarith

/-- C96 (c): with the geometry 'radius', the sensors are within half the asked radius of the node in each
coordinate, and so within that radius. -/
theorem C96_radius (dr : ArrayDraws) (node : Pt) {Mk : Nat} {radius : ℝ}
    (hd : ∀ r ∈ dr.rad, ∀ i, 0 ≤ r i ∧ r i ≤ radius) {pts : List Pt}
    (h : generateArrayPos dr node Mk "radius" radius false = .ok (some pts)) :
    pts.length = Mk ∧ ∀ p ∈ pts, (∀ i, |p i - node i| ≤ radius / 2) ∧ ptDist p node ≤ radius := by
  have h' : radiusArray node radius Mk dr.rad = some pts := by
    have : generateArrayPos dr node Mk "radius" radius false = .ok (radiusArray node radius Mk dr.rad) := rfl
    rw [this] at h
    injection h
  obtain ⟨h1, h2⟩ := radiusArray_spec h'
  refine ⟨h1, fun p hp => ?_⟩
  obtain ⟨r, hr, _, rfl⟩ := h2 p hp
  have hb : ∀ i, |r i + node i - radius / 2 - node i| ≤ radius / 2 := by
    intro i
    obtain ⟨a, b⟩ := hd r hr i
    rw [abs_le]
    constructor <;> linarith
  have h0 : 0 ≤ radius := (hd r hr 0).1.trans (hd r hr 0).2
  refine ⟨hb, ?_⟩
  rw [ptDist_eq_norm3, norm3_three]
  apply Real.sqrt_le_iff.mpr
  refine ⟨h0, ?_⟩
  have hsq : ∀ i, (r i + node i - radius / 2 - node i) ^ 2 ≤ (radius / 2) ^ 2 := fun i =>
    sq_le_sq.mpr ((hb i).trans (le_abs_self _))
  have a0 := hsq 0
  have a1 := hsq 1
  have a2 := hsq 2
  simp only [Pi.sub_apply]
  nlinarith [sq_nonneg radius]

/-- C96 (d): a grid array of at most 27 sensors: the first one is at the node, all are within the asked
distance of it in each coordinate, the first seven within that distance, and no two are closer. -/
theorem C96_grid (dr : ArrayDraws) (node : Pt) {Mk : Nat} (hM : Mk ≤ 27) {sep : ℝ} (hs : 0 ≤ sep) :
    ∃ pts, generateArrayPos dr node Mk "grid3d" sep false = .ok (some pts) ∧ pts.length = Mk ∧
      (0 < Mk → pts[0]? = some node) ∧ Apart sep pts ∧ (∀ p ∈ pts, ∀ i, |p i - node i| ≤ sep) ∧
      ∀ (i : Nat) (p : Pt), i < 7 → pts[i]? = some p → ptDist p node ≤ sep := by
  have e : generateArrayPos dr node Mk "grid3d" sep false = .ok (some ((gridOrder.take Mk).map (gridPt node sep))) := by
    have : generateArrayPos dr node Mk "grid3d" sep false =
        ((gridArray node Mk sep).map some).map fun o => o := rfl
    rw [this, gridArray_eq hM]
    rfl
  obtain ⟨o1, o2, o3⟩ := gridOrder_spec
  refine ⟨_, e, by rw [List.length_map, List.length_take, o2]; omega, fun h0 => ?_, ?_, ?_, ?_⟩
  · have : (gridOrder.take Mk)[0]? = some 13 := by
      rw [List.getElem?_take_of_lt h0]; decide
    rw [List.getElem?_map, this, Option.map_some]
    congr 1
    funext i
    fin_cases i <;> simp [gridPt]
  · unfold Apart
    rw [List.pairwise_map]
    have hnd : (gridOrder.take Mk).Pairwise (· ≠ ·) := (List.take_sublist Mk gridOrder).nodup o1
    exact hnd.imp fun {a b} h => (le_abs_self sep).trans (gridPt_apart h)
  · intro p hp i
    obtain ⟨n, hn, rfl⟩ := List.mem_map.mp hp
    have := gridPt_box (node := node) (d := sep) (o3 n (List.mem_of_mem_take hn)) i
    rwa [abs_of_nonneg hs] at this
  · intro i p hi hp
    rw [List.getElem?_map] at hp
    have hiM : i < Mk := by
      by_contra hc
      rw [List.getElem?_eq_none (by rw [List.length_take]; omega)] at hp
      cases hp
    rw [List.getElem?_take_of_lt hiM] at hp
    have key : ∀ n ∈ atomicIdx, ptDist (gridPt node sep n) node ≤ sep := by
      intro n hn
      rw [ptDist_eq_norm3, norm3_three]
      apply Real.sqrt_le_iff.mpr
      refine ⟨hs, ?_⟩
      have e0 : (gridPt node sep n - node) 0 = (((n / 3 % 3 : Nat) : ℝ) - 1) * sep := by simp [gridPt]
      have e1 : (gridPt node sep n - node) 1 = (((n / 9 : Nat) : ℝ) - 1) * sep := by simp [gridPt]
      have e2 : (gridPt node sep n - node) 2 = (((n % 3 : Nat) : ℝ) - 1) * sep := by simp [gridPt]
      rw [e0, e1, e2]
      clear e0 e1 e2
      simp only [atomicIdx, List.mem_cons, List.not_mem_nil, or_false] at hn
      rcases hn with rfl | rfl | rfl | rfl | rfl | rfl | rfl <;> norm_num <;> positivity
    have hmem : ∃ n ∈ atomicIdx, gridOrder[i]? = some n := by
      interval_cases i <;> exact ⟨_, by decide, rfl⟩
    obtain ⟨n, hn, hg⟩ := hmem
    rw [hg] at hp
    injection hp with hp
    rw [← hp]
    exact key n hn

/-- C96 (e): more than 27 sensors in a grid array, and unknown geometries, are errors. -/
theorem C96_errors (dr : ArrayDraws) (node : Pt) (Mk : Nat) (sep : ℝ) (randRot : Bool) :
    (27 < Mk → generateArrayPos dr node Mk "grid3d" sep randRot = .error .indexError) ∧
    ∀ geom, geom ∉ ["linear", "radius", "grid3d"] →
      generateArrayPos dr node Mk geom sep randRot = .error .valueError := by
  constructor
  · intro h
    have : generateArrayPos dr node Mk "grid3d" sep randRot =
        ((gridArray node Mk sep).map some).map fun o => if randRot then o.map (rotateAround dr.fin) else o := rfl
    rw [this, gridArray_err h]
    rfl
  · intro geom hg
    simp only [List.mem_cons, List.not_mem_nil, or_false, not_or] at hg
    unfold generateArrayPos arrayPos
    rw [if_neg hg.1, if_neg hg.2.1, if_neg hg.2.2]
    rfl

/-- C96 (f): the random rotation at the end keeps the distances between the sensors and their centre. -/
theorem C96_random_rotation (dr : ArrayDraws) (hR : Orthogonal dr.fin) (node : Pt) (Mk : Nat) (geom : String)
    (sep : ℝ) {pts : List Pt} (h : generateArrayPos dr node Mk geom sep true = .ok (some pts)) :
    ∃ pts', generateArrayPos dr node Mk geom sep false = .ok (some pts') ∧ SameDist pts' pts ∧
      (pts' ≠ [] → meanPt pts = meanPt pts') := by
  have e : ∀ b, generateArrayPos dr node Mk geom sep b = (generateArrayPos dr node Mk geom sep false).map
      fun o => if b then o.map (rotateAround dr.fin) else o := by
    intro b
    unfold generateArrayPos
    cases arrayPos dr node Mk geom sep <;> rfl
  rw [e true] at h
  cases h1 : generateArrayPos dr node Mk geom sep false with
  | error x => rw [h1] at h; cases h
  | ok o =>
    rw [h1] at h
    cases o with
    | none => cases h
    | some pts' =>
      have h2 : rotateAround dr.fin pts' = pts := by
        injection h with h
        injection h
      subst h2
      refine ⟨pts', rfl, sameDist_map (fun p q => ptDist_orth hR _ _ _ _) _, fun hne => ?_⟩
      exact meanPt_affine dr.fin hne _

/-- C96 (g): turning an array towards a target vector (`rotate_array_yx`) keeps all the distances between
the points and the distances to the target, and takes points at the same height to points in a plane
perpendicular to the target vector; without a target vector, the centre is kept. -/
theorem C96_turn {pts out : List Pt} {target : Option Pt} (h : rotateArrayYx pts target = .ok out) :
    SameDist pts out ∧ (pts ≠ [] → target = none → meanPt out = meanPt pts) ∧
      ∀ (i j : Nat) (p q p' q' : Pt), pts[i]? = some p → pts[j]? = some q → out[i]? = some p' → out[j]? = some q' →
        ptDist p' (target.getD (meanPt pts)) = ptDist p (target.getD (meanPt pts)) ∧
        ∑ c, (p' c - q' c) * target.getD (meanPt pts) c = norm3 (target.getD (meanPt pts)) * (p 2 - q 2) := by
  unfold rotateArrayYx at h
  simp only at h
  by_cases h0 : target.getD (meanPt pts) 0 = 0 ∧ target.getD (meanPt pts) 1 = 0
  · rw [if_pos h0] at h; cases h
  · rw [if_neg h0] at h
    injection h with h
    subst h
    have hR : Orthogonal (yxMatrix (target.getD (meanPt pts))) := by
      obtain ⟨w, _, hM, h1, h2⟩ := yxMatrix_turn h0
      rw [hM]
      exact turn_orth h1 h2
    refine ⟨sameDist_map (fun p q => ptDist_orth hR _ _ _ _) _, fun hne ht => ?_, ?_⟩
    · subst ht
      exact meanPt_affine _ hne _
    · intro i j p q p' q' h1 h2 h3 h4
      rw [List.getElem?_map, h1] at h3
      rw [List.getElem?_map, h2] at h4
      injection h3 with h3
      injection h4 with h4
      subst h3 h4
      generalize target.getD (meanPt pts) = t at *
      constructor
      · have := ptDist_orth hR p t t t
        rw [sub_self, Matrix.mulVec_zero, zero_add] at this
        exact this
      · have := yx_plane h0 (p - q)
        rw [Pi.sub_apply] at this
        rw [← this]
        refine Finset.sum_congr rfl fun c _ => ?_
        have hsub := Matrix.mulVec_sub (yxMatrix t) (p - t) (q - t)
        rw [show p - t - (q - t) = p - q by abel] at hsub
        rw [hsub]
        simp only [Pi.add_apply, Pi.sub_apply]
        ring

/-- C96 (h): it fails, with NaN coordinates, exactly when the target is on the vertical axis through the
origin: also when the target is already straight above, so that no rotation is needed. -/
theorem C96_turn_nan (pts : List Pt) (target : Option Pt) :
    (target.getD (meanPt pts) 0 = 0 ∧ target.getD (meanPt pts) 1 = 0 → rotateArrayYx pts target = .error .nan) ∧
    (¬ (target.getD (meanPt pts) 0 = 0 ∧ target.getD (meanPt pts) 1 = 0) → ∃ out, rotateArrayYx pts target = .ok out) := by
  unfold rotateArrayYx
  simp only
  exact ⟨fun h => if_pos h, fun h => ⟨_, if_neg h⟩⟩

/-- Rotations are orthogonal: the hypothesis of `C96_linear` and `C96_random_rotation` is met by a quarter
turn. -/
example : Orthogonal !![0, -1, 0; 1, 0, 0; 0, 0, 1] := by
  unfold Orthogonal
  ext i j
  fin_cases i <;> fin_cases j <;> simp [Matrix.mul_apply, Fin.sum_univ_three]

/-- The geometry 'radius' rejects the first draw and accepts the second one. -/
example : generateArrayPos ⟨1, [![2, 2, 2], ![1 / 2, 0, 1]], 1⟩ ![3, 3, 3] 1 "radius" 2 false =
    .ok (some [![5 / 2, 2, 3]]) := by
  have h1 : ¬ Real.sqrt (2 ^ 2 + 2 ^ 2 + 2 ^ 2) ≤ 2 := by
    rw [Real.sqrt_le_left (by norm_num)]; norm_num
  have h2 : Real.sqrt ((1 / 2) ^ 2 + 0 ^ 2 + 1 ^ 2) ≤ 2 := by
    rw [Real.sqrt_le_left (by norm_num)]; norm_num
  have h : radiusDraw 2 [![2, 2, 2], ![1 / 2, 0, 1]] = some (![1 / 2, 0, 1], []) := by
    unfold radiusDraw
    rw [if_neg (by simpa using h1)]
    unfold radiusDraw
    rw [if_pos (by simpa using h2)]
  show (Except.ok (radiusArray ![3, 3, 3] 2 1 [![2, 2, 2], ![1 / 2, 0, 1]]) : Except PyErr _) = _
  unfold radiusArray
  rw [h]
  simp only [radiusArray, Option.bind_eq_bind, Option.bind_some, Option.pure_def, Except.ok.injEq, Option.some.injEq,
    List.cons.injEq, and_true]
  funext i
  fin_cases i <;> norm_num

/-- The hypotheses of `C96_turn` are met: an array around a centre that is not above the origin. -/
example : ∃ out, rotateArrayYx [![1, 1, 2], ![3, 1, 2]] none = .ok out := by
  refine (C96_turn_nan _ _).2 ?_
  simp [meanPt]

/-- A circle that is already perpendicular to the target gives NaN. -/
example : rotateArrayYx [![1, 0, 2], ![-1, 0, 2]] none = .error .nan := by
  refine (C96_turn_nan _ _).1 ?_
  simp [meanPt]

end Danse
