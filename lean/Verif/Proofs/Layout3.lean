import Verif.Proofs.Layout2
import Verif.Proofs.Config
import Verif.Proofs.Py

/-!
# Lemmas for C97: layouts
-/

namespace Danse
open Matrix

theorem not_nearWall {rd : Pt} {m : ℝ} {p : Pt} : ¬ nearWall rd m p ↔ InBox rd m p := by
  unfold nearWall InBox
  push Not
  exact forall_congr' fun i => ⟨fun h => ⟨h.2, h.1⟩, fun h => ⟨h.2, h.1⟩⟩

theorem drawUntil_spec {P : Nat → Pt} {stop : Pt → Prop} : ∀ {left pos p pos' left'},
    drawUntil P stop left pos = some (p, pos', left') → stop p ∧ ∃ j, pos ≤ j ∧ p = P j := by
  intro left
  induction left with
  | zero => intro pos p pos' left' h; cases h
  | succ left ih =>
    intro pos p pos' left' h
    unfold drawUntil at h
    by_cases hs : stop (P pos)
    · rw [if_pos hs] at h
      injection h with h
      injection h with h1 _
      exact ⟨h1 ▸ hs, pos, le_rfl, h1.symm⟩
    · rw [if_neg hs] at h
      obtain ⟨h1, j, h2, h3⟩ := ih h
      exact ⟨h1, j, by omega, h3⟩

/-- What is known of the next point. -/
theorem nextPoint_spec {P : Nat → Pt} {rd : Pt} {m : ℝ} {sp : Option ℝ} {maxIter : Nat} {before : List Pt}
    {pos : Nat} {p : Pt} {pos' : Nat} (h : nextPoint P rd m sp maxIter before pos = .ok (some (p, pos'))) :
    (∃ j, p = P j) ∧ (before = [] → InBox rd m p) ∧ (∀ s, sp = some s → ∀ b ∈ before, 0 < s → s ≤ ptDist b p) ∧
      (∀ s, sp = some s → s ≤ 0 → InBox rd m p) ∧ (before ≠ [] → sp ≠ none) := by
  unfold nextPoint at h
  cases h1 : drawUntil P (fun p => ¬ nearWall rd m p) maxIter pos with
  | none => rw [h1] at h; simp at h
  | some r =>
    obtain ⟨p1, pos1, left1⟩ := r
    rw [h1] at h
    simp only at h
    obtain ⟨hin, j, _, hj⟩ := drawUntil_spec h1
    rw [not_nearWall] at hin
    by_cases hb : before = []
    · rw [if_pos hb] at h
      injection h with h
      injection h with h
      injection h with h _
      subst h
      refine ⟨⟨j, hj⟩, fun _ => hin, ?_, fun _ _ _ => hin, fun h => absurd hb h⟩
      intro s _ b hbm
      rw [hb] at hbm
      cases hbm
    · rw [if_neg hb] at h
      cases sp with
      | none => cases h
      | some s =>
        simp only at h
        by_cases hc : s > 0 ∧ ∃ b ∈ before, ptDist b p1 < s
        · rw [if_pos hc] at h
          cases h2 : drawUntil P (fun p => ¬ ∃ b ∈ before, ptDist b p < s) left1 pos1 with
          | none => rw [h2] at h; simp at h
          | some r2 =>
            obtain ⟨p2, pos2, left2⟩ := r2
            rw [h2] at h
            injection h with h
            injection h with h
            injection h with h _
            subst h
            obtain ⟨hfar, j2, _, hj2⟩ := drawUntil_spec h2
            push Not at hfar
            refine ⟨⟨j2, hj2⟩, fun h => absurd h hb, ?_, ?_, fun _ => by simp⟩
            · intro s' hs' b hbm _
              injection hs' with hs'
              exact hs' ▸ hfar b hbm
            · intro s' hs' h0
              injection hs' with hs'
              have := hc.1
              linarith
        · rw [if_neg hc] at h
          injection h with h
          injection h with h
          injection h with h _
          subst h
          refine ⟨⟨j, hj⟩, fun _ => hin, ?_, fun _ _ _ => hin, fun _ => by simp⟩
          intro s' hs' b hbm h0
          injection hs' with hs'
          subst hs'
          by_contra hlt
          exact hc ⟨h0, b, hbm, lt_of_not_ge hlt⟩

theorem linePoints_spec {P : Nat → Pt} {rd : Pt} {m : ℝ} {sp : Option ℝ} {maxIter : Nat} :
    ∀ {n : Nat} {before : List Pt} {pos : Nat} {pts : List Pt},
    linePoints P rd m sp maxIter n before pos = .ok (some pts) →
      ∃ new, pts = before ++ new ∧ new.length = n ∧ (∀ p ∈ new, ∃ j, p = P j) ∧
        (before = [] → ∀ p, new[0]? = some p → InBox rd m p) ∧
        (∀ s, sp = some s → 0 < s → Apart s before → Apart s pts) ∧
        (∀ s, sp = some s → s ≤ 0 → ∀ p ∈ new, InBox rd m p) ∧
        (sp = none → pts.length ≤ 1 ∨ n = 0) := by
  intro n
  induction n with
  | zero =>
    intro before pos pts h
    injection h with h
    injection h with h
    subst h
    exact ⟨[], by simp, rfl, by simp, by simp, fun _ _ _ h => h, by simp, fun _ => .inr rfl⟩
  | succ n ih =>
    intro before pos pts h
    unfold linePoints at h
    obtain ⟨o, h1, h2⟩ := bind_ok_inv h
    cases o with
    | none => simp at h2
    | some r =>
      obtain ⟨p, pos'⟩ := r
      simp only at h2
      obtain ⟨a1, a2, a3, a4, a5⟩ := nextPoint_spec h1
      obtain ⟨new, e, l, b1, b2, b3, b4, b5⟩ := ih h2
      refine ⟨p :: new, by rw [e]; simp, by simp [l], ?_, ?_, ?_, ?_, ?_⟩
      · intro q hq
        rcases List.mem_cons.mp hq with rfl | hq
        · exact a1
        · exact b1 q hq
      · intro hb q hq
        simp at hq
        exact hq ▸ a2 hb
      · intro s hs h0 hap
        refine b3 s hs h0 ?_
        unfold Apart at hap ⊢
        rw [List.pairwise_append]
        refine ⟨hap, by simp, fun b hb q hq => ?_⟩
        simp at hq
        exact hq ▸ a3 s hs b hb h0
      · intro s hs h0 q hq
        rcases List.mem_cons.mp hq with rfl | hq
        · exact a4 s hs h0
        · exact b4 s hs h0 q hq
      · intro hs
        by_cases hb : before = []
        · rcases b5 hs with h | rfl
          · exact .inl h
          · left
            have : new = [] := List.length_eq_zero_iff.mp l
            rw [e, hb, this]
            simp
        · exact absurd hs (a5 hb)

theorem anyBelow_false {m : ℝ} {pts : List Pt} (h : anyBelow m pts = false) : ∀ p ∈ pts, ∀ i, m ≤ p i := by
  unfold anyBelow at h
  rw [decide_eq_false_iff_not] at h
  push Not at h
  exact h

/-- What the check of a layout guarantees. -/
theorem layoutRejected_false {rd : Pt} {m : ℝ} {sensors desired noise : List Pt}
    (h : layoutRejected rd m sensors desired noise = .ok false) :
    (∀ p ∈ sensors, InBox rd m p) ∧ (∀ p ∈ desired, ∀ i, m ≤ p i) ∧ (∀ p ∈ noise, ∀ i, m ≤ p i) ∧
      anyBeyond rd m desired = .ok false ∧ anyBeyond rd m noise = .ok false := by
  classical
  unfold layoutRejected at h
  by_cases h1 : (decide (∃ p ∈ sensors, ∃ i, p i > rd i - m) || anyBelow m sensors) = true
  · rw [if_pos h1] at h; cases h
  rw [if_neg h1] at h
  rw [Bool.or_eq_true, not_or] at h1
  obtain ⟨h1, h1'⟩ := h1
  have h1' := Bool.not_eq_true _ ▸ h1'
  obtain ⟨b1, e1, h⟩ := bind_ok_inv h
  cases b1 with
  | true => simp at h
  | false =>
    rw [if_neg (by simp)] at h
    by_cases h2 : anyBelow m desired = true
    · rw [if_pos h2] at h; cases h
    rw [if_neg h2] at h
    obtain ⟨b2, e2, h⟩ := bind_ok_inv h
    cases b2 with
    | true => simp at h
    | false =>
      rw [if_neg (by simp)] at h
      injection h with h
      refine ⟨fun p hp i => ⟨?_, ?_⟩, anyBelow_false (by simpa using h2), anyBelow_false h, e1, e2⟩
      · exact anyBelow_false (by simpa using h1') p hp i
      · rw [decide_eq_true_eq] at h1
        push Not at h1
        exact h1 p hp i

theorem anyBeyond_length {rd : Pt} {m : ℝ} {pts : List Pt} {b : Bool} (h : anyBeyond rd m pts = .ok b) :
    pts.length = 1 ∨ pts.length = 3 := by
  unfold anyBeyond at h
  split_ifs at h with h1 h2
  · exact .inl h1
  · exact .inr h2

theorem anyBeyond_one {rd : Pt} {m : ℝ} {p : Pt} (h : anyBeyond rd m [p] = .ok false) (i j : Fin 3) : p i ≤ rd j - m := by
  unfold anyBeyond at h
  rw [if_pos List.length_singleton] at h
  injection h with h
  rw [decide_eq_false_iff_not] at h
  push Not at h
  exact h p (by simp) i j

/-- What is known of an attempt that is accepted. -/
theorem SpinCfg.attempt_ok {c : SpinCfg} {dr : SpinDraws} {sensors desired noise : List Pt}
    (h : c.attempt dr = .ok (some (sensors, desired, noise))) :
    randomPointsOnLine dr.rDesired dr.az dr.el dr.xOffset c.rd 0 0 c.nDesired c.minSpacing = .ok (some desired) ∧
    randomPointsOnLine dr.rNoise dr.az dr.el dr.xOffset c.rd 0 0 c.nNoise c.minSpacing = .ok (some noise) ∧
    layoutRejected c.rd c.minDist sensors desired noise = .ok false := by
  unfold SpinCfg.attempt at h
  obtain ⟨o1, e1, h⟩ := bind_ok_inv h
  cases o1 with
  | none => simp at h
  | some d =>
    simp only at h
    obtain ⟨o2, e2, h⟩ := bind_ok_inv h
    cases o2 with
    | none => simp at h
    | some nz =>
      simp only at h
      obtain ⟨o3, e3, h⟩ := bind_ok_inv h
      cases o3 with
      | none => simp at h
      | some cs =>
        simp only at h
        obtain ⟨arrays, e4, h⟩ := bind_ok_inv h
        have key : ∀ s, ((layoutRejected c.rd c.minDist s d nz >>= fun b =>
            if b = true then .ok none else .ok (some (s, d, nz))) : Except PyErr (Option (List Pt × List Pt × List Pt))) =
              .ok (some (sensors, desired, noise)) →
            d = desired ∧ nz = noise ∧ layoutRejected c.rd c.minDist sensors desired noise = .ok false := by
          intro s h
          obtain ⟨b, e6, h⟩ := bind_ok_inv h
          cases b with
          | true => simp at h
          | false =>
            rw [if_neg (by simp)] at h
            injection h with h
            injection h with h
            injection h with h1 h
            injection h with h2 h3
            subst h1 h2 h3
            exact ⟨rfl, rfl, e6⟩
        have fin : d = desired ∧ nz = noise ∧ layoutRejected c.rd c.minDist sensors desired noise = .ok false := by
          split at h
          · obtain ⟨s, e5, h⟩ := bind_ok_inv h
            exact key s h
          · exact key _ h
        obtain ⟨rfl, rfl, h⟩ := fin
        exact ⟨e1, e2, h⟩

theorem SpinCfg.search_ok {c : SpinCfg} {dr : Nat → SpinDraws} {l : List Pt × List Pt × List Pt} :
    ∀ {n i : Nat}, c.search dr n i = .ok l → ∃ j, c.attempt (dr j) = .ok (some l) := by
  intro n
  induction n with
  | zero => intro i h; cases h
  | succ n ih =>
    intro i h
    unfold SpinCfg.search at h
    obtain ⟨o, e, h⟩ := bind_ok_inv h
    cases o with
    | none => exact ih h
    | some l' =>
      injection h with h
      subst h
      exact ⟨i, e⟩

/-- The sensors of an accepted attempt of a vertical layout without wiggle. -/
theorem SpinCfg.attempt_vertical {c : SpinCfg} {dr : SpinDraws} {sensors desired noise : List Pt}
    (hr : c.random = false) (hw : c.wiggle = 0)
    (h : c.attempt dr = .ok (some (sensors, desired, noise))) {Mk k : Nat} (hk : c.nSensors[k]? = some Mk) :
    ∃ q pts, q 2 = 0 ∧ generateArrayPos (dr.arr k) q Mk c.geom c.micSep true = .ok (some pts) ∧
      ∀ p ∈ pts, p ∈ sensors := by
  unfold SpinCfg.attempt at h
  obtain ⟨o1, e1, h⟩ := bind_ok_inv h
  cases o1 with
  | none => simp at h
  | some d =>
    simp only at h
    obtain ⟨o2, e2, h⟩ := bind_ok_inv h
    cases o2 with
    | none => simp at h
    | some nz =>
      simp only at h
      obtain ⟨o3, e3, h⟩ := bind_ok_inv h
      cases o3 with
      | none => simp at h
      | some cs =>
        simp only [hr, hw, Bool.false_eq_true, if_false, ne_eq, not_true_eq_false] at h
        obtain ⟨arrays, e4, h⟩ := bind_ok_inv h
        obtain ⟨fl, e5, h⟩ := bind_ok_inv h
        injection e5 with e5
        subst e5
        obtain ⟨b, e6, h⟩ := bind_ok_inv h
        cases b with
        | true => simp at h
        | false =>
          rw [if_neg (by simp)] at h
          injection h with h
          injection h with h
          injection h with h1 h
          have hf := mapM_ok_forall₂ e4
          have hklt : k < c.nSensors.length := (List.getElem?_eq_some_iff.mp hk).1
          have hka : k < arrays.length := by
            rw [← hf.length_eq]; simpa using hklt
          have := (List.forall₂_iff_get.mp hf).2 k (by simpa using hklt) hka
          have hg : c.nSensors[k] = Mk := (List.getElem?_eq_some_iff.mp hk).2
          simp only [List.get_eq_getElem, List.getElem_zipIdx, hg, Nat.zero_add] at this
          obtain ⟨o, e5, this⟩ := bind_ok_inv this
          cases o with
          | none => cases this
          | some pts =>
            injection this with this
            refine ⟨_, pts, ?_, e5, ?_⟩
            · simp [circlePoint]
            · intro p hp
              rw [← h1]
              exact List.mem_flatten.mpr ⟨pts, by rw [this]; exact List.getElem_mem _, hp⟩

/-! ## Impulse responses per node -/

theorem owners_eq {α : Type} (s2n : List Nat) : ∀ (r : List α) (off : Nat), s2n.length = off + r.length →
    ((r.zipIdx off).mapM fun (x : α × Nat) => (do
      let o ← pyGet s2n (x.2 : Int)
      .ok (o, x.1) : Except PyErr (Nat × α))) = .ok ((s2n.drop off).zip r) := by
  intro r
  induction r with
  | nil => intro off _; simp; rfl
  | cons y r ih =>
    intro off h
    have hlt : off < s2n.length := by simp at h; omega
    have e : pyGet s2n (off : Int) = .ok s2n[off] := by
      unfold pyGet
      simp only
      rw [if_neg (by omega), if_neg (by omega), Int.toNat_natCast, List.getElem?_eq_getElem hlt]
    rw [List.zipIdx_cons, List.mapM_cons, ih (off + 1) (by simp at h; omega), e, List.drop_eq_getElem_cons hlt]
    rfl

theorem zip_filter_where {α : Type} (k : Nat) : ∀ (a : List Nat) (r : List α) (off : Nat), a.length = r.length →
    ((a.zip r).filter fun x => decide (x.1 = k)).map (·.2) =
      ((a.zipIdx off).filterMap fun (x, i) => if x = k then some i else none).filterMap fun i => r[i - off]? := by
  intro a
  induction a with
  | nil => intro r off _; simp
  | cons x a ih =>
    intro r off hl
    cases r with
    | nil => simp at hl
    | cons y r =>
      have := ih r (off + 1) (by simpa using hl)
      have hge : ∀ i ∈ ((a.zipIdx (off + 1)).filterMap fun (x, i) => if x = k then some i else none),
          (y :: r)[i - off]? = r[i - (off + 1)]? := by
        intro i hi
        obtain ⟨⟨x', i'⟩, hm, he⟩ := List.mem_filterMap.mp hi
        simp only at he
        split_ifs at he
        injection he with he
        subst he
        have hi' : off + 1 ≤ i' := by
          rw [List.mem_zipIdx_iff_le_and_getElem?_sub] at hm
          exact hm.1
        have : i' - off = (i' - (off + 1)) + 1 := by omega
        rw [this, List.getElem?_cons_succ]
      rw [List.zip_cons_cons, List.zipIdx_cons]
      by_cases hx : x = k
      · rw [List.filter_cons_of_pos (by simpa using hx), List.map_cons, this,
          List.filterMap_cons_some (b := off) (by simp [hx]), List.filterMap_cons_some (b := y) (by simp)]
        congr 1
        exact List.filterMap_congr fun i hi => (hge i hi).symm
      · rw [List.filter_cons_of_neg (by simpa using hx), this, List.filterMap_cons_none (by simp [hx])]
        exact List.filterMap_congr fun i hi => (hge i hi).symm

theorem range_filterMap_block {α : Type} (r : List α) (a s : Nat) (h : a + s ≤ r.length) :
    ((List.range s).map (a + ·)).filterMap (fun i => r[i]?) = (r.drop a).take s := by
  induction s with
  | zero => simp
  | succ s ih =>
    rw [List.range_succ, List.map_append, List.filterMap_append, ih (by omega), List.take_add_one]
    congr 1
    simp only [List.map_cons, List.map_nil, List.getElem?_drop]
    rw [List.filterMap_cons, List.getElem?_eq_getElem (by omega : a + s < r.length)]
    rfl

end Danse
