import Verif.Proofs.Layout3
import Verif.Props.Layout
import Mathlib.Analysis.SpecialFunctions.Trigonometric.Bounds

/-!
# C97: where sensors and sources are in the room
-/

namespace Danse
open Matrix

/-! ## Points on a line -/

/-- C97 (a): the points that are returned are as many as asked and on the line; the first one keeps the
distance to the walls, all of them do without a minimum spacing, and with a minimum spacing no two points
are closer than that. -/
theorem C97_line {draws : Nat → ℝ} {az el m xo yo : ℝ} {rd : Pt} {n : Nat} {sp : Option ℝ} {pts : List Pt}
    (h : randomPointsOnLine draws az el m rd xo yo n sp = .ok (some pts)) :
    pts.length = n ∧ (∀ p ∈ pts, ∃ j, p = linePoint az el xo yo (draws j)) ∧
      (∀ p, pts[0]? = some p → InBox rd m p) ∧
      (∀ s, sp = some s → s ≤ 0 → ∀ p ∈ pts, InBox rd m p) ∧
      ∀ s, sp = some s → 0 < s → Apart s pts := by
  obtain ⟨new, e, l, h1, h2, h3, h4, _⟩ := linePoints_spec h
  rw [List.nil_append] at e
  subst e
  exact ⟨l, h1, h2 rfl, h4, fun s hs h0 => h3 s hs h0 List.Pairwise.nil⟩

/-- C97 (b), refuted: that all the points are in the room. With a minimum spacing, a point that is drawn
again because it is too close to another one may be anywhere on the line. -/
theorem C97_line_refuted : ∃ draws az el m rd xo yo n sp pts p,
    randomPointsOnLine draws az el m rd xo yo n sp = .ok (some pts) ∧ p ∈ pts ∧ ∃ i, rd i < p i := by
  have hP : ∀ r, linePoint 0 0 1 1 r = ![1, 1, r] := by
    intro r
    unfold linePoint
    simp
  have hin : ¬ nearWall ![2, 2, 2] (1 / 2) ![1, 1, 1] := by
    rw [not_nearWall]
    intro i
    fin_cases i <;> norm_num
  refine ⟨fun j => if j < 2 then 1 else 10, 0, 0, 1 / 2, ![2, 2, 2], 1, 1, 2, some 1, [![1, 1, 1], ![1, 1, 10]], ![1, 1, 10],
    ?_, by simp, 2, by show (2 : ℝ) < 10; norm_num⟩
  unfold randomPointsOnLine
  simp only [hP]
  have d0 : ∀ pos left, pos < 2 → drawUntil (fun j : Nat => (![1, 1, if j < 2 then 1 else 10] : Pt))
      (fun p => ¬ nearWall ![2, 2, 2] (1 / 2) p) (left + 1) pos = some (![1, 1, 1], pos + 1, left) := by
    intro pos left hp
    unfold drawUntil
    rw [if_pos hp, if_pos hin]
  have hd1 : ptDist ![1, 1, 1] ![1, 1, 1] = 0 := by
    rw [ptDist_eq_norm3, sub_self, norm3_three]
    simp
  have hd2 : ptDist ![1, 1, 1] ![1, 1, 10] = 9 := by
    rw [ptDist_eq_norm3, norm3_three]
    have e0 : (![1, 1, 1] - ![1, 1, 10] : Pt) 0 = 0 := by simp
    have e1 : (![1, 1, 1] - ![1, 1, 10] : Pt) 1 = 0 := by simp
    have e2 : (![1, 1, 1] - ![1, 1, 10] : Pt) 2 = -9 := by
      show (1 : ℝ) - 10 = -9
      norm_num
    rw [e0, e1, e2, show (0 : ℝ) ^ 2 + 0 ^ 2 + (-9) ^ 2 = 9 ^ 2 by norm_num, Real.sqrt_sq (by norm_num)]
  have n0 : nextPoint (fun j : Nat => (![1, 1, if j < 2 then 1 else 10] : Pt)) ![2, 2, 2] (1 / 2) (some 1) 1000 [] 0 =
      .ok (some (![1, 1, 1], 1)) := by
    unfold nextPoint
    rw [d0 0 999 (by decide)]
    simp
  have n1 : nextPoint (fun j : Nat => (![1, 1, if j < 2 then 1 else 10] : Pt)) ![2, 2, 2] (1 / 2) (some 1) 1000
      [![1, 1, 1]] 1 = .ok (some (![1, 1, 10], 3)) := by
    unfold nextPoint
    rw [d0 1 999 (by decide)]
    simp only
    rw [if_neg (by simp), if_pos ⟨by norm_num, ![1, 1, 1], by simp, by rw [hd1]; norm_num⟩]
    have d1 : drawUntil (fun j : Nat => (![1, 1, if j < 2 then 1 else 10] : Pt))
        (fun p => ¬ ∃ b ∈ [(![1, 1, 1] : Pt)], ptDist b p < 1) (998 + 1) (1 + 1) = some (![1, 1, 10], 3, 998) := by
      unfold drawUntil
      have e : (![1, 1, if 1 + 1 < 2 then 1 else 10] : Pt) = ![1, 1, 10] := by simp
      rw [e, if_pos (by
        push Not
        intro b hb
        rw [List.mem_singleton.mp hb, hd2]
        norm_num)]
    rw [d1]
  unfold linePoints
  rw [n0]
  show (do
    match ← nextPoint _ _ _ _ _ [![1, 1, 1]] 1 with
    | none => .ok none
    | some (p, pos) => linePoints _ _ _ _ _ 0 ([![1, 1, 1]] ++ [p]) pos) = _
  rw [n1]
  rfl

/-- C97 (c), refuted: that two or more points can be asked for with the default spacing `None`. -/
theorem C97_line_default_refuted (draws : Nat → ℝ) (az el m xo yo : ℝ) (rd : Pt) {n : Nat} (hn : 2 ≤ n) (pts : List Pt) :
    randomPointsOnLine draws az el m rd xo yo n none ≠ .ok (some pts) := by
  intro h
  obtain ⟨new, e, l, _, _, _, _, h5⟩ := linePoints_spec h
  rw [List.nil_append] at e
  subst e
  rcases h5 rfl with h | h <;> omega

/-! ## Spinning-top layouts -/

/-- C97 (d): a spinning-top layout that is returned, with one desired and one noise source, keeps all the
sensors and both sources at the asked distance from the walls. -/
theorem C97_spinning_top {c : SpinCfg} {dr : Nat → SpinDraws} {sensors desired noise : List Pt}
    (h : c.layout dr = .ok (sensors, desired, noise)) (h1 : c.nDesired = 1) (h2 : c.nNoise = 1) :
    (∀ p ∈ sensors, InBox c.rd c.minDist p) ∧ (∀ p ∈ desired, InBox c.rd c.minDist p) ∧
      ∀ p ∈ noise, InBox c.rd c.minDist p := by
  obtain ⟨j, hj⟩ := SpinCfg.search_ok h
  obtain ⟨e1, e2, e3⟩ := SpinCfg.attempt_ok hj
  obtain ⟨s1, s2, s3, s4, s5⟩ := layoutRejected_false e3
  have l1 := (C97_line e1).1
  have l2 := (C97_line e2).1
  rw [h1] at l1
  rw [h2] at l2
  obtain ⟨p, rfl⟩ := List.length_eq_one_iff.mp l1
  obtain ⟨q, rfl⟩ := List.length_eq_one_iff.mp l2
  refine ⟨s1, fun x hx i => ⟨s2 x hx i, ?_⟩, fun x hx i => ⟨s3 x hx i, ?_⟩⟩
  · rw [List.mem_singleton.mp hx]
    exact anyBeyond_one s4 i i
  · rw [List.mem_singleton.mp hx]
    exact anyBeyond_one s5 i i

/-- C97 (e): the sensors of a spinning-top layout always keep that distance. -/
theorem C97_spinning_top_sensors {c : SpinCfg} {dr : Nat → SpinDraws} {sensors desired noise : List Pt}
    (h : c.layout dr = .ok (sensors, desired, noise)) : ∀ p ∈ sensors, InBox c.rd c.minDist p := by
  obtain ⟨j, hj⟩ := SpinCfg.search_ok h
  exact (layoutRejected_false (SpinCfg.attempt_ok hj).2.2).1

/-- C97 (f), refuted: that a spinning-top layout can have any number of sources. With a number of desired or
of noise sources other than one and three there is never a layout, whatever is drawn. -/
theorem C97_spinning_top_sources_refuted {c : SpinCfg}
    (h : (c.nDesired ≠ 1 ∧ c.nDesired ≠ 3) ∨ (c.nNoise ≠ 1 ∧ c.nNoise ≠ 3)) (dr : Nat → SpinDraws) :
    ∃ e, c.layout dr = .error e := by
  cases hl : c.layout dr with
  | error e => exact ⟨e, rfl⟩
  | ok l =>
    exfalso
    obtain ⟨sensors, desired, noise⟩ := l
    obtain ⟨j, hj⟩ := SpinCfg.search_ok hl
    obtain ⟨e1, e2, e3⟩ := SpinCfg.attempt_ok hj
    obtain ⟨_, _, _, s4, s5⟩ := layoutRejected_false e3
    have l1 := (C97_line e1).1
    have l2 := (C97_line e2).1
    rcases h with h | h
    · rcases anyBeyond_length s4 with h' | h' <;> omega
    · rcases anyBeyond_length s5 with h' | h' <;> omega

/-- C97 (g), refuted: that the check of a layout with three sources detects those that are outside the
room: the coordinates of source `j` are all compared with the dimension `j` of the room. -/
theorem C97_three_sources_refuted (sensors noise : List Pt) {rd : Pt} {m : ℝ} (hm : 0 ≤ m) (h01 : rd 0 = rd 1)
    (h02 : rd 0 + m < rd 2) (hm0 : 2 * m ≤ rd 0)
    (hs : ∀ p ∈ sensors, InBox rd m p) (hn : noise.length = 3)
    (hno : ∀ (j : Fin 3) p, noise[j.val]? = some p → ∀ i, m ≤ p i ∧ p i ≤ rd j - m) :
    ∃ desired, layoutRejected rd m sensors desired noise = .ok false ∧ ∃ p ∈ desired, rd 0 < p 0 := by
  classical
  set a : Pt := fun _ => m with ha
  set b : Pt := fun _ => rd 2 - m with hb
  have c1 : decide (∃ p ∈ sensors, ∃ i, p i > rd i - m) = false := by
    rw [decide_eq_false_iff_not]
    push Not
    exact fun p hp i => (hs p hp i).2
  have below : ∀ {pts : List Pt}, (∀ p ∈ pts, ∀ i, m ≤ p i) → anyBelow m pts = false := by
    intro pts h
    unfold anyBelow
    rw [decide_eq_false_iff_not]
    push Not
    exact h
  have beyond : ∀ {pts : List Pt}, pts.length = 3 → (∀ (j : Fin 3) p, pts[j.val]? = some p → ∀ i, p i ≤ rd j - m) →
      anyBeyond rd m pts = .ok false := by
    intro pts h3 h
    unfold anyBeyond
    rw [if_neg (by omega), if_pos h3]
    congr 1
    rw [decide_eq_false_iff_not]
    push Not
    intro i j
    have hj : j.val < pts.length := by omega
    rw [List.getD_eq_getElem?_getD, List.getElem?_eq_getElem hj, Option.getD_some]
    exact h j _ (List.getElem?_eq_getElem hj) i
  refine ⟨[a, a, b], ?_, b, by simp, by simp only [hb]; linarith⟩
  unfold layoutRejected
  rw [c1, below fun p hp i => (hs p hp i).1, if_neg (by simp), beyond rfl, below, beyond hn fun j p hp i => (hno j p hp i).2,
    below]
  · rfl
  · intro p hp i
    obtain ⟨j, hj, rfl⟩ := List.mem_iff_getElem.mp hp
    exact (hno ⟨j, by omega⟩ _ (List.getElem?_eq_getElem hj) i).1
  · intro p hp i
    simp only [List.mem_cons, List.not_mem_nil, or_false] at hp
    rcases hp with rfl | rfl | rfl <;> simp only [ha, hb] <;> linarith
  · intro j p hp i
    fin_cases j <;> simp at hp <;> subst hp <;> simp only [ha, hb] <;> simp <;> linarith

/-- C97 (h), refuted: that the sources of a vertical spinning top are above each other. The direction that
is drawn in each attempt replaces the vertical one: distinct sources have distinct `x` and `y`. -/
theorem C97_vertical_refuted {c : SpinCfg} {dr : Nat → SpinDraws}
    (hdr : ∀ i, Real.pi / 8 ≤ (dr i).az ∧ (dr i).az ≤ Real.pi / 2 - Real.pi / 8 ∧
      Real.pi / 8 ≤ (dr i).el ∧ (dr i).el ≤ Real.pi / 2 - Real.pi / 8)
    {sensors : List Pt} {p q : Pt} (h : c.layout dr = .ok (sensors, [p], [q])) (hne : p ≠ q) :
    p 0 ≠ q 0 ∧ p 1 ≠ q 1 := by
  obtain ⟨j, hj⟩ := SpinCfg.search_ok h
  obtain ⟨e1, e2, _⟩ := SpinCfg.attempt_ok hj
  obtain ⟨a, ha⟩ := (C97_line e1).2.1 p (by simp)
  obtain ⟨b, hb⟩ := (C97_line e2).2.1 q (by simp)
  obtain ⟨z1, z2, z3, z4⟩ := hdr j
  have hpi := Real.pi_pos
  have hc : 0 < Real.cos (dr j).az := Real.cos_pos_of_mem_Ioo ⟨by linarith, by linarith⟩
  have hsa : 0 < Real.sin (dr j).az := Real.sin_pos_of_pos_of_lt_pi (by linarith) (by linarith)
  have hse : 0 < Real.sin (dr j).el := Real.sin_pos_of_pos_of_lt_pi (by linarith) (by linarith)
  generalize (dr j).rDesired a = r at ha
  generalize (dr j).rNoise b = s at hb
  have hrs : r ≠ s := by
    rintro rfl
    exact hne (ha.trans hb.symm)
  subst ha hb
  unfold linePoint
  constructor
  · intro he
    apply hrs
    have he : r * Real.cos (dr j).az * Real.sin (dr j).el + 0 = s * Real.cos (dr j).az * Real.sin (dr j).el + 0 := he
    rw [add_zero, add_zero, mul_assoc, mul_assoc] at he
    exact mul_right_cancel₀ (mul_pos hc hse).ne' he
  · intro he
    apply hrs
    have he : r * Real.sin (dr j).az * Real.sin (dr j).el + 0 = s * Real.sin (dr j).az * Real.sin (dr j).el + 0 := he
    rw [add_zero, add_zero, mul_assoc, mul_assoc] at he
    exact mul_right_cancel₀ (mul_pos hsa hse).ne' he

/-- C97 (p), refuted: that a vertical spinning top can be laid out. The circle of nodes is put on the floor:
with linear arrays, without wiggle and with a positive distance to the walls there is never a layout. -/
theorem C97_vertical_never_refuted {c : SpinCfg} (hr : c.random = false) (hg : c.geom = "linear") (hw : c.wiggle = 0)
    (hm : 0 < c.minDist) (hs : 0 ≤ c.micSep) {k Mk : Nat} (hk : c.nSensors[k]? = some Mk) (h2 : 2 ≤ Mk) (dr : Nat → SpinDraws)
    (hlin : ∀ i, Orthogonal ((dr i).arr k).lin) (hfin : ∀ i, Orthogonal ((dr i).arr k).fin) :
    ∃ e, c.layout dr = .error e := by
  cases hl : c.layout dr with
  | error e => exact ⟨e, rfl⟩
  | ok l =>
    exfalso
    obtain ⟨sensors, desired, noise⟩ := l
    obtain ⟨j, hj⟩ := SpinCfg.search_ok hl
    have hin := (layoutRejected_false (SpinCfg.attempt_ok hj).2.2).1
    obtain ⟨q, pts, hq, hp, hmem⟩ := SpinCfg.attempt_vertical hr hw hj hk
    rw [hg] at hp
    obtain ⟨pts', h1, h3, h4⟩ := C96_random_rotation _ (hfin j) q Mk "linear" c.micSep hp
    obtain ⟨pts'', g1, g2, g3, _⟩ := C96_linear _ (hlin j) q h2 hs
    rw [g1] at h1
    injection h1 with h1
    injection h1 with h1
    subst h1
    have hne : pts'' ≠ [] := by
      rintro rfl
      simp at g2
      omega
    have hmean := congrFun (h4 hne) 2
    rw [g3, hq] at hmean
    have hlen : pts.length = Mk := by rw [← h3.1, g2]
    have hsum : (pts.map (· 2)).sum = 0 := by
      unfold meanPt at hmean
      rw [div_eq_zero_iff] at hmean
      rcases hmean with h | h
      · exact h
      · rw [hlen] at h
        have : (Mk : ℝ) ≠ 0 := by exact_mod_cast (by omega : Mk ≠ 0)
        exact absurd h this
    have hge : ∀ l : List Pt, (∀ p ∈ l, c.minDist ≤ p 2) → l.length * c.minDist ≤ (l.map (· 2)).sum := by
      intro l
      induction l with
      | nil => intro _; simp
      | cons a l ih =>
        intro h
        have h1 := h a (by simp)
        have h2 := ih fun p hp => h p (by simp [hp])
        simp only [List.length_cons, List.map_cons, List.sum_cons]
        push_cast
        linarith
    have := hge pts fun p hp => (hin p (hmem p hp) 2).1
    rw [hsum, hlen] at this
    have h0 : (0 : ℝ) < Mk := by exact_mod_cast (by omega : 0 < Mk)
    nlinarith [mul_pos h0 hm]

/-- The distance between two neighbouring array centres on the circle. -/
theorem circle_dist (centre : Pt) {r : ℝ} (hr : 0 ≤ r) {n : Nat} (hn : 1 ≤ n) (k : Nat) :
    ptDist (circlePoint centre r n k) (circlePoint centre r n (k + 1)) = 2 * r * Real.sin (Real.pi / n) := by
  have hn' : (1 : ℝ) ≤ n := by exact_mod_cast hn
  have hsin : 0 ≤ Real.sin (Real.pi / n) := by
    apply Real.sin_nonneg_of_nonneg_of_le_pi (by positivity)
    rw [div_le_iff₀ (by linarith)]
    nlinarith [Real.pi_pos]
  rw [ptDist_eq_norm3, norm3_three]
  rw [← Real.sqrt_sq (by positivity : 0 ≤ 2 * r * Real.sin (Real.pi / n))]
  congr 1
  have e0 : (circlePoint centre r n k - circlePoint centre r n (k + 1)) 0 =
      r * (Real.cos (k * (2 * Real.pi / n)) - Real.cos ((k + 1 : Nat) * (2 * Real.pi / n))) := by
    unfold circlePoint
    simp
    ring
  have e1 : (circlePoint centre r n k - circlePoint centre r n (k + 1)) 1 =
      r * (Real.sin (k * (2 * Real.pi / n)) - Real.sin ((k + 1 : Nat) * (2 * Real.pi / n))) := by
    unfold circlePoint
    simp
    ring
  have e2 : (circlePoint centre r n k - circlePoint centre r n (k + 1)) 2 = 0 := by
    unfold circlePoint
    simp
  rw [e0, e1, e2, Real.cos_sub_cos, Real.sin_sub_sin]
  have h1 : ((k : ℝ) * (2 * Real.pi / n) - (k + 1 : Nat) * (2 * Real.pi / n)) / 2 = -(Real.pi / n) := by
    push_cast
    ring
  rw [h1, Real.sin_neg]
  have := Real.sin_sq_add_cos_sq (((k : ℝ) * (2 * Real.pi / n) + (k + 1 : Nat) * (2 * Real.pi / n)) / 2)
  linear_combination (4 * r ^ 2 * Real.sin (Real.pi / n) ^ 2) * this

/-- C97 (i): neighbouring array centres on the circle are `2 r sin(π / n)` apart for `n` nodes on a circle of
radius `r`: at least `r` for two to six nodes. -/
theorem C97_circle (centre : Pt) {r : ℝ} (hr : 0 ≤ r) {n : Nat} (h2 : 2 ≤ n) (h6 : n ≤ 6) (k : Nat) :
    r ≤ ptDist (circlePoint centre r n k) (circlePoint centre r n (k + 1)) := by
  rw [circle_dist centre hr (by omega)]
  have hn2 : (2 : ℝ) ≤ n := by exact_mod_cast h2
  have hn6 : (n : ℝ) ≤ 6 := by exact_mod_cast h6
  have hpi := Real.pi_pos
  have h : Real.sin (Real.pi / 6) ≤ Real.sin (Real.pi / n) := by
    apply Real.sin_le_sin_of_le_of_le_pi_div_two
    · linarith
    · exact div_le_div_of_nonneg_left hpi.le (by norm_num) hn2
    · exact div_le_div_of_nonneg_left hpi.le (by linarith) hn6
  rw [Real.sin_pi_div_six] at h
  nlinarith

/-- C97 (j), refuted: that `spinTop_minInterNodeDist`, which is used as the least radius, is a least distance
between the nodes: with seven or more nodes, neighbours on a circle of that radius are closer. -/
theorem C97_inter_node_refuted (centre : Pt) {r : ℝ} (hr : 0 < r) {n : Nat} (h7 : 7 ≤ n) (k : Nat) :
    ptDist (circlePoint centre r n k) (circlePoint centre r n (k + 1)) < r := by
  rw [circle_dist centre hr.le (by omega)]
  have hn7 : (7 : ℝ) ≤ n := by exact_mod_cast h7
  have hpi := Real.pi_pos
  have h : Real.sin (Real.pi / n) < Real.sin (Real.pi / 6) := by
    apply Real.sin_lt_sin_of_lt_of_le_pi_div_two
    · have : 0 < Real.pi / n := by positivity
      linarith
    · linarith
    · exact div_lt_div_of_pos_left hpi (by norm_num) (by linarith)
  rw [Real.sin_pi_div_six] at h
  nlinarith

/-! ## Random layouts -/

/-- C97 (k): sources and array centres of a random layout keep the asked distance from the walls. -/
theorem C97_random {rd : Pt} {m : ℝ} {u : Pt} (hu : ∀ i, 0 ≤ u i ∧ u i ≤ 1) (hm : ∀ i, 2 * m ≤ rd i) :
    InBox rd m (uniformPoint rd m u) := by
  intro i
  obtain ⟨h0, h1⟩ := hu i
  have := hm i
  unfold uniformPoint
  constructor <;> nlinarith

/-- C97 (l): the sensors of a random layout are off that by at most the inter-sensor distance, for grid
arrays. -/
theorem C97_random_sensors {rd : Pt} {m sep : ℝ} (hs : 0 ≤ sep) {nS : List Nat} (h27 : ∀ Mk ∈ nS, Mk ≤ 27) {u : Nat → Pt}
    (hu : ∀ k i, 0 ≤ u k i ∧ u k i ≤ 1) (hm : ∀ i, 2 * m ≤ rd i) (dr : Nat → ArrayDraws) :
    ∃ arrays : List (List Pt), randomSensors false rd m nS "grid3d" sep u dr = .ok (some arrays) ∧
      arrays.map List.length = nS ∧ ∀ pts ∈ arrays, ∀ p ∈ pts, InBox rd (m - sep) p := by
  have key : ∀ (l : List Nat) (o : Nat), (∀ Mk ∈ l, Mk ≤ 27) → ∃ arrays : List (List Pt),
      ((l.zipIdx o).mapM fun (x : Nat × Nat) => generateArrayPos (dr x.2) (uniformPoint rd m (u x.2)) x.1 "grid3d" sep false) =
        .ok (arrays.map some) ∧ arrays.map List.length = l ∧ ∀ pts ∈ arrays, ∀ p ∈ pts, InBox rd (m - sep) p := by
    intro l
    induction l with
    | nil => intro o _; exact ⟨[], rfl, rfl, by simp⟩
    | cons Mk l ih =>
      intro o h
      obtain ⟨arrays, h1, h2, h3⟩ := ih (o + 1) fun x hx => h x (by simp [hx])
      obtain ⟨pts, g1, g2, _, _, g5, _⟩ := C96_grid (dr o) (uniformPoint rd m (u o)) (h Mk (by simp)) hs
      refine ⟨pts :: arrays, ?_, by simp [g2, h2], ?_⟩
      · rw [List.zipIdx_cons, List.mapM_cons, h1]
        simp only
        rw [g1]
        rfl
      · intro x hx
        rcases List.mem_cons.mp hx with rfl | hx
        · intro p hp i
          have a := abs_le.mp (g5 p hp i)
          have b := C97_random (hu o) hm i
          constructor <;> linarith [a.1, a.2, b.1, b.2]
        · exact h3 x hx
  obtain ⟨arrays, h1, h2, h3⟩ := key nS 0 h27
  refine ⟨arrays, ?_, h2, h3⟩
  unfold randomSensors
  simp only [Bool.false_eq_true, if_false]
  rw [h1]
  have : (arrays.map some).mapM id = some arrays := by
    clear h1 h2 h3
    induction arrays with
    | nil => rfl
    | cons a l ih => rw [List.map_cons, List.mapM_cons, ih]; rfl
  show Except.ok ((arrays.map some).mapM id) = _
  rw [this]

/-- C97 (m), refuted: that the sensors are in the room. When the distance to the walls is less than the
inter-sensor distance, a centre close to a wall has sensors behind that wall. -/
theorem C97_random_sensors_refuted {rd : Pt} {m sep : ℝ} (hm : m < sep) (dr : Nat → ArrayDraws) {Mk : Nat}
    (hM : 2 ≤ Mk) (h27 : Mk ≤ 27) : ∃ u : Nat → Pt, (∀ k i, 0 ≤ u k i ∧ u k i < 1) ∧
      ∃ pts, randomSensors false rd m [Mk] "grid3d" sep u dr = .ok (some [pts]) ∧ ∃ p ∈ pts, p 1 < 0 := by
  refine ⟨fun _ _ => 0, fun _ _ => ⟨le_rfl, zero_lt_one⟩, ?_⟩
  have e : generateArrayPos (dr 0) (uniformPoint rd m fun _ => 0) Mk "grid3d" sep false =
      .ok (some ((gridOrder.take Mk).map (gridPt (uniformPoint rd m fun _ => 0) sep))) := by
    have : generateArrayPos (dr 0) (uniformPoint rd m fun _ => 0) Mk "grid3d" sep false =
        ((gridArray (uniformPoint rd m fun _ => 0) Mk sep).map some).map fun o => o := rfl
    rw [this, gridArray_eq h27]
    rfl
  refine ⟨(gridOrder.take Mk).map (gridPt (uniformPoint rd m fun _ => 0) sep), ?_, gridPt (uniformPoint rd m fun _ => 0) sep 4,
    ?_, ?_⟩
  · unfold randomSensors
    simp only [Bool.false_eq_true, if_false, List.zipIdx_cons, List.zipIdx_nil, List.mapM_cons, List.mapM_nil]
    rw [e]
    rfl
  · refine List.mem_map_of_mem (List.mem_iff_getElem?.mpr ⟨1, ?_⟩)
    rw [List.getElem?_take_of_lt (by omega)]
    decide
  · simp [gridPt, uniformPoint]
    linarith

/-! ## Impulse responses -/

/-- C97 (n): each node gets the impulse responses of its own sensors, in their order: those from the desired
sources and those from the noise sources, when there are noise sources. -/
theorem C97_rirs {α : Type} {rir : List (List α)} {nS : List Nat} {nD nN : Nat} (hl : rir.length = nS.sum)
    (hrow : ∀ row ∈ rir, row.length = nD + nN) (hN : 0 < nN) : ∃ D N,
      rirsPerNode rir (sensorToNode nS) nS.length nD nN = .ok (D, N) ∧ D.length = nS.length ∧ N.length = nS.length ∧
      ∀ (k s : Nat), nS[k]? = some s →
        D[k]? = some (((rir.drop (firstSensor nS k)).take s).map (·.take nD)) ∧
        N[k]? = some (((rir.drop (firstSensor nS k)).take s).map (·.drop nD)) := by
  unfold rirsPerNode
  have ho := owners_eq (sensorToNode nS) rir 0 (by rw [s2n_length, hl]; omega)
  rw [List.drop_zero] at ho
  refine ⟨_, _, by rw [ho]; rfl, by simp, by simp, ?_⟩
  intro k s hk
  have hklt : k < nS.length := (List.getElem?_eq_some_iff.mp hk).1
  have hend : firstSensor nS k + s ≤ rir.length := by
    rw [hl]
    have h := congrArg List.sum (List.take_append_drop (k + 1) nS)
    rw [List.sum_append, List.take_add_one, hk, List.sum_append] at h
    simp at h
    unfold firstSensor
    omega
  have hrows : (((sensorToNode nS).zip rir).filter fun x => decide (x.1 = k)).map (·.2) =
      (rir.drop (firstSensor nS k)).take s := by
    rw [zip_filter_where k _ _ 0 (by rw [s2n_length, hl])]
    have := npWhereEq_s2n hk
    unfold npWhereEq at this
    rw [this]
    simpa using range_filterMap_block rir _ _ hend
  rw [List.getElem?_map, List.getElem?_map, List.getElem?_map, List.getElem?_map, List.getElem?_range hklt]
  simp only [Option.map_some, hrows]
  refine ⟨trivial, ?_⟩
  congr 1
  apply List.map_congr_left
  intro row hr
  have hr' := hrow row (List.mem_of_mem_drop (List.mem_of_mem_take hr))
  unfold pySlice pySliceBound
  simp only
  rw [if_pos (by omega : -(nN : Int) < 0), if_neg (by omega : ¬ (row.length : Int) < 0)]
  have e1 : (-(nN : Int) + row.length).toNat = nD := by omega
  have e2 : min (row.length : Int).toNat row.length = row.length := by omega
  rw [e1, e2, List.take_of_length_le (by simp)]

/-- C97 (o), refuted: that without noise sources there are no noise responses: a node then gets the
responses of its desired sources as noise responses. -/
theorem C97_no_noise_refuted {α : Type} {rir : List (List α)} {nS : List Nat} {nD : Nat} (hl : rir.length = nS.sum)
    {D N : List (List (List α))} (h : rirsPerNode rir (sensorToNode nS) nS.length nD 0 = .ok (D, N))
    {k s : Nat} (hk : nS[k]? = some s) : N[k]? = some ((rir.drop (firstSensor nS k)).take s) := by
  unfold rirsPerNode at h
  have ho := owners_eq (sensorToNode nS) rir 0 (by rw [s2n_length, hl]; omega)
  rw [List.drop_zero] at ho
  rw [ho] at h
  injection h with h
  injection h with _ h
  subst h
  have hklt : k < nS.length := (List.getElem?_eq_some_iff.mp hk).1
  have hend : firstSensor nS k + s ≤ rir.length := by
    rw [hl]
    have h := congrArg List.sum (List.take_append_drop (k + 1) nS)
    rw [List.sum_append, List.take_add_one, hk, List.sum_append] at h
    simp at h
    unfold firstSensor
    omega
  have hrows : (((sensorToNode nS).zip rir).filter fun x => decide (x.1 = k)).map (·.2) =
      (rir.drop (firstSensor nS k)).take s := by
    rw [zip_filter_where k _ _ 0 (by rw [s2n_length, hl])]
    have := npWhereEq_s2n hk
    unfold npWhereEq at this
    rw [this]
    simpa using range_filterMap_block rir _ _ hend
  rw [List.getElem?_map, List.getElem?_map, List.getElem?_range hklt]
  simp only [Option.map_some, hrows]
  refine congrArg some ?_
  refine (List.map_congr_left fun row _ => ?_).trans (List.map_id _)
  unfold pySlice pySliceBound
  simp
  rw [if_neg (by omega : ¬ (row.length : Int) < 0)]

/-- Two nodes with one and two sensors, one desired and two noise sources. -/
example : rirsPerNode [[1, 2, 3], [4, 5, 6], [7, 8, 9]] (sensorToNode [1, 2]) 2 1 2 =
    .ok ([[[1]], [[4], [7]]], [[[2, 3]], [[5, 6], [8, 9]]]) := by decide

/-- The same room without noise sources. -/
example : rirsPerNode [[1], [4], [7]] (sensorToNode [1, 2]) 2 1 0 = .ok ([[[1]], [[4], [7]]], [[[1]], [[4], [7]]]) := by decide

/-! ## A concrete layout -/

/-- A room of 4 m in each direction, one node with one sensor, one desired and one noise source. -/
noncomputable def exSpin : SpinCfg where
  random := false
  rd := ![4, 4, 4]
  minDist := 0
  minSpacing := some 0
  minInterNode := some 1
  nDesired := 1
  nNoise := 1
  nSensors := [1]
  geom := "grid3d"
  micSep := 1 / 10
  wiggle := 0

/-- The draws: sources at 1 m and 2 m along the line, the circle centred at 1 m. -/
noncomputable def exSpinDraws : SpinDraws where
  xOffset := 0
  yOffset := 0
  az := Real.pi / 4
  el := Real.pi / 4
  rDesired := fun _ => 1
  rNoise := fun _ => 2
  rCentre := fun _ => 1
  u := 0
  wig := fun _ => 0
  arr := fun _ => { lin := 1, rad := [], fin := 1 }

theorem exSpin_line (x : ℝ) : linePoint (Real.pi / 4) (Real.pi / 4) 0 0 x = ![x / 2, x / 2, x * (Real.sqrt 2 / 2)] := by
  have h : Real.sqrt 2 * Real.sqrt 2 = 2 := Real.mul_self_sqrt (by norm_num)
  unfold linePoint
  rw [Real.cos_pi_div_four, Real.sin_pi_div_four]
  congr 1
  · linear_combination (x / 4) * h
  · congr 1
    linear_combination (x / 4) * h

theorem exSpin_bound {x : ℝ} (h0 : 0 ≤ x) (h2 : x ≤ 2) (i : Fin 3) :
    0 ≤ (![x / 2, x / 2, x * (Real.sqrt 2 / 2)] : Pt) i ∧ (![x / 2, x / 2, x * (Real.sqrt 2 / 2)] : Pt) i ≤ 4 := by
  have a : 0 ≤ Real.sqrt 2 := Real.sqrt_nonneg 2
  have b : Real.sqrt 2 ≤ 2 := by
    rw [Real.sqrt_le_left (by norm_num)]
    norm_num
  fin_cases i
  · show 0 ≤ x / 2 ∧ x / 2 ≤ 4
    constructor <;> linarith
  · show 0 ≤ x / 2 ∧ x / 2 ≤ 4
    constructor <;> linarith
  · show 0 ≤ x * (Real.sqrt 2 / 2) ∧ x * (Real.sqrt 2 / 2) ≤ 4
    constructor <;> nlinarith

theorem exSpin_draw {x : ℝ} (h0 : 0 ≤ x) (h2 : x ≤ 2) (sp : Option ℝ) :
    randomPointsOnLine (fun _ => x) (Real.pi / 4) (Real.pi / 4) 0 ![4, 4, 4] 0 0 1 sp =
      .ok (some [![x / 2, x / 2, x * (Real.sqrt 2 / 2)]]) := by
  have hin : ¬ nearWall ![4, 4, 4] 0 ![x / 2, x / 2, x * (Real.sqrt 2 / 2)] := by
    rw [not_nearWall]
    intro i
    have e : (![4, 4, 4] : Pt) i = 4 := by fin_cases i <;> rfl
    rw [e, sub_zero]
    exact exSpin_bound h0 h2 i
  have hd : drawUntil (fun _ => ![x / 2, x / 2, x * (Real.sqrt 2 / 2)]) (fun p => ¬ nearWall ![4, 4, 4] 0 p) 1000 0 =
      some (![x / 2, x / 2, x * (Real.sqrt 2 / 2)], 1, 999) := by
    show drawUntil _ _ (999 + 1) 0 = _
    unfold drawUntil
    rw [if_pos hin]
  unfold randomPointsOnLine
  simp only [exSpin_line]
  unfold linePoints nextPoint
  rw [hd]
  rfl

/-- The layout that is found: the hypotheses of (d), (e) and (h) are met. -/
theorem exSpin_layout : exSpin.layout (fun _ => exSpinDraws) = .ok ([![3 / 2, 1 / 2, 0]],
    [![1 / 2, 1 / 2, 1 * (Real.sqrt 2 / 2)]], [![2 / 2, 2 / 2, 2 * (Real.sqrt 2 / 2)]]) := by
  have hgrid : ∀ q : Pt, generateArrayPos { lin := 1, rad := [], fin := 1 } q 1 "grid3d" (1 / 10) true = .ok (some [q]) := by
    intro q
    have e : generateArrayPos { lin := 1, rad := [], fin := 1 } q 1 "grid3d" (1 / 10) true =
        ((gridArray q 1 (1 / 10)).map some).map fun o => o.map (rotateAround 1) := rfl
    rw [e, gridArray_eq (by norm_num)]
    have g : (gridOrder.take 1).map (gridPt q (1 / 10)) = [q] := by
      have : gridOrder.take 1 = [13] := by decide
      rw [this]
      simp only [List.map_cons, List.map_nil]
      congr 1
      funext i
      fin_cases i <;> simp [gridPt]
    rw [g]
    simp [Except.map, rotateAround]
  have rej : layoutRejected ![4, 4, 4] 0 [![3 / 2, 1 / 2, 0]] [![1 / 2, 1 / 2, 1 * (Real.sqrt 2 / 2)]]
      [![2 / 2, 2 / 2, 2 * (Real.sqrt 2 / 2)]] = .ok false := by
    have e : ∀ i, (![4, 4, 4] : Pt) i = 4 := by intro i; fin_cases i <;> rfl
    have s : ∀ i, 0 ≤ (![3 / 2, 1 / 2, 0] : Pt) i ∧ (![3 / 2, 1 / 2, 0] : Pt) i ≤ 4 := by
      intro i
      fin_cases i <;> norm_num
    unfold layoutRejected anyBeyond anyBelow
    simp only [List.length_singleton, if_true, List.mem_singleton, exists_eq_left, e, sub_zero]
    rw [decide_eq_false (by push Not; exact fun i => (s i).2), decide_eq_false (by push Not; exact fun i => (s i).1),
      decide_eq_false (by push Not; exact fun i _ => (exSpin_bound (by norm_num) (by norm_num) i).2),
      decide_eq_false (by push Not; exact fun i => (exSpin_bound (by norm_num) (by norm_num) i).1),
      decide_eq_false (by push Not; exact fun i _ => (exSpin_bound (by norm_num) (by norm_num) i).2),
      decide_eq_false (by push Not; exact fun i => (exSpin_bound (by norm_num) (by norm_num) i).1)]
    rfl
  have att : exSpin.attempt exSpinDraws = .ok (some ([![3 / 2, 1 / 2, 0]],
      [![1 / 2, 1 / 2, 1 * (Real.sqrt 2 / 2)]], [![2 / 2, 2 / 2, 2 * (Real.sqrt 2 / 2)]])) := by
    have d1 := exSpin_draw (x := 1) (by norm_num) (by norm_num) (some 0)
    have d2 := exSpin_draw (x := 2) (by norm_num) (by norm_num) (some 0)
    have c : circlePoint ![(1 : ℝ) / 2, 1 / 2, 0] 1 1 0 = ![3 / 2, 1 / 2, 0] := by
      funext i
      fin_cases i
      · norm_num [circlePoint]
      · norm_num [circlePoint]
      · rfl
    have hr : ∀ rMax : ℝ, (if rMax < 1 then 1 else 1 + 0 * (rMax - 1)) = (1 : ℝ) := by
      intro rMax
      split <;> ring
    unfold SpinCfg.attempt
    show (randomPointsOnLine (fun _ => 1) (Real.pi / 4) (Real.pi / 4) 0 ![4, 4, 4] 0 0 1 (some 0) >>= _) = _
    rw [d1]
    show (randomPointsOnLine (fun _ => 2) (Real.pi / 4) (Real.pi / 4) 0 ![4, 4, 4] 0 0 1 (some 0) >>= _) = _
    rw [d2]
    show (randomPointsOnLine (fun _ => 1) (Real.pi / 4) (Real.pi / 4) 0 ![4, 4, 4] 0 0 1 (some 0) >>= _) = _
    rw [d1]
    have e : exSpin.random = false := rfl
    have e' : exSpin.wiggle = 0 := rfl
    simp only [bind, Except.bind, e, e', Bool.false_eq_true, if_false, ne_eq, not_true_eq_false]
    have h1 : exSpin.rMin = 1 := rfl
    have h2 : exSpinDraws.u = 0 := rfl
    have h3 : exSpin.nSensors = [1] := rfl
    have h4 : exSpin.micSep = 1 / 10 := rfl
    have h5 : exSpin.geom = "grid3d" := rfl
    have h6 : ∀ k, exSpinDraws.arr k = { lin := 1, rad := [], fin := 1 } := fun _ => rfl
    simp only [h1, h2, hr, h3, h4, h5, h6, hgrid, List.zipIdx_cons, List.zipIdx_nil, List.mapM_cons, List.mapM_nil,
      List.length_singleton]
    show (layoutRejected ![4, 4, 4] 0 [circlePoint ![(1 : ℝ) / 2, 1 / 2, 0] 1 1 0] _ _).bind _ = _
    rw [c, rej]
    show Except.ok (some ([circlePoint ![(1 : ℝ) / 2, 1 / 2, 0] 1 1 0], _, _)) = _
    rw [c]
  show exSpin.search _ (999 + 1) 0 = _
  unfold SpinCfg.search
  rw [att]
  rfl

example : (∀ p ∈ [(![3 / 2, 1 / 2, 0] : Pt)], InBox exSpin.rd exSpin.minDist p) ∧
    (![1 / 2, 1 / 2, 1 * (Real.sqrt 2 / 2)] : Pt) 0 ≠ (![2 / 2, 2 / 2, 2 * (Real.sqrt 2 / 2)] : Pt) 0 :=
  ⟨C97_spinning_top_sensors exSpin_layout, (C97_vertical_refuted (dr := fun _ => exSpinDraws)
    (fun _ => by have := Real.pi_pos; simp only [exSpinDraws]; refine ⟨?_, ?_, ?_, ?_⟩ <;> linarith) exSpin_layout
    (fun h => by have := congrFun h 0; norm_num at this)).1⟩

/-- The hypotheses of (g): a room of 4 m by 4 m by 5 m. -/
example : ∃ desired, layoutRejected ![4, 4, 5] (1 / 2) [![1, 1, 1]] desired [![1, 1, 1], ![1, 1, 1], ![1, 1, 1]] = .ok false ∧
    ∃ p ∈ desired, (![4, 4, 5] : Pt) 0 < p 0 := by
  apply C97_three_sources_refuted
  · norm_num
  · rfl
  · show (4 : ℝ) + 1 / 2 < 5
    norm_num
  · show (2 : ℝ) * (1 / 2) ≤ 4
    norm_num
  · intro p hp i
    rw [List.mem_singleton.mp hp]
    fin_cases i <;> norm_num
  · rfl
  · intro j p hp i
    have e : p = ![1, 1, 1] := by fin_cases j <;> simpa using hp.symm
    subst e
    fin_cases i <;> fin_cases j <;> norm_num

end Danse
