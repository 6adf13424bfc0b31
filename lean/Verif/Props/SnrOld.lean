import Verif.Model.SnrOld
import Verif.Spec.SnrOld
import Mathlib.Tactic.Linarith
import Mathlib.Tactic.FieldSimp
import Mathlib.Tactic.Ring
import Mathlib.Tactic.Positivity
import Mathlib.Tactic.NormNum

/-!
# C151: SNR from the voice activity
-/

namespace Danse

open Finset

theorem selWhere_sum (b : Bool) (g : ℝ → ℝ) : ∀ (x : List ℝ) (v : List Bool),
    ((selWhere x v b).map g).sum = ∑ t ∈ range x.length, if v[t]? = some b then g (x.getD t 0) else 0
  | [], v => by simp [selWhere]
  | a :: x, [] => by simp [selWhere]
  | a :: x, c :: v => by
    have ih := selWhere_sum b g x v
    rw [List.length_cons, sum_range_succ']
    simp only [List.getElem?_cons_succ, List.getD_cons_succ, List.getElem?_cons_zero, List.getD_cons_zero, ← ih, Option.some.injEq]
    unfold selWhere
    by_cases h : c = b
    · simp [List.zip_cons_cons, h, add_comm]
    · simp [List.zip_cons_cons, h]

theorem selWhere_length (b : Bool) (x : List ℝ) (v : List Bool) :
    ((selWhere x v b).length : ℝ) = ((range x.length).filter (fun t => v[t]? = some b)).card := by
  have h := selWhere_sum b (fun _ => 1) x v
  rw [List.map_const', List.sum_replicate, nsmul_eq_mul, mul_one] at h
  rw [h, ← sum_filter, sum_const, nsmul_eq_mul, mul_one]

theorem meanPower_where (x : List ℝ) (v : List Bool) (b : Bool) : meanPower (selWhere x v b) = powerWhere x v b := by
  unfold meanPower powerWhere
  rw [selWhere_sum, selWhere_length, sum_filter]

theorem flags_count : ∀ v : List Bool, v.count true + v.count false = v.length
  | [] => rfl
  | b :: v => by
    have ih := flags_count v
    cases b <;> simp <;> omega

theorem oldSnr_both {x : List ℝ} {vad : List Bool} (hl : vad.length = x.length) (ht : true ∈ vad) (hf : false ∈ vad) :
    oldSnr x vad = .ok (snrOfPowers (powerWhere x vad true) (powerWhere x vad false)) := by
  have h1 : 0 < vad.count true := List.count_pos_iff.2 ht
  have h2 : 0 < vad.count false := List.count_pos_iff.2 hf
  have h3 := flags_count vad
  unfold oldSnr
  simp only [hl, lt_irrefl, if_false]
  rw [if_pos ⟨h1, by omega⟩]
  simp only [if_true, meanPower_where]

/-- C151: where the flags say both, the value is `20 log10` of the power of the speech (power when active minus power when not) over that of the
noise. -/
theorem C151_value {x : List ℝ} {vad : List Bool} (hl : vad.length = x.length) (ht : true ∈ vad) (hf : false ∈ vad)
    (hn : 0 < powerWhere x vad false) :
    (powerWhere x vad false < powerWhere x vad true →
      oldSnr x vad = .ok (.num (20 * Real.logb 10 ((powerWhere x vad true - powerWhere x vad false) / powerWhere x vad false)))) ∧
    (powerWhere x vad true ≤ powerWhere x vad false → oldSnr x vad = .ok .negInf) := by
  rw [oldSnr_both hl ht hf]
  unfold snrOfPowers
  constructor
  · intro h
    rw [if_neg (by linarith), if_neg hn.ne', if_neg (by linarith)]
  · intro h
    rcases h.lt_or_eq with h | h
    · rw [if_pos (by linarith)]
    · rw [if_neg (by linarith), if_neg hn.ne', if_pos (by linarith)]

/-- C151 (refuted: "a ratio in dB"): a speech power of `10 ^ (r / 10)` times the noise, which is `r` dB, gives `2 r`. -/
theorem C151_refuted_db {x : List ℝ} {vad : List Bool} (hl : vad.length = x.length) (ht : true ∈ vad) (hf : false ∈ vad)
    (hn : 0 < powerWhere x vad false) {r : ℝ}
    (hr : powerWhere x vad true - powerWhere x vad false = (10 : ℝ) ^ (r / 10) * powerWhere x vad false) :
    oldSnr x vad = .ok (.num (2 * r)) := by
  have hp : (0 : ℝ) < (10 : ℝ) ^ (r / 10) := by positivity
  have h0 : 0 < (10 : ℝ) ^ (r / 10) * powerWhere x vad false := mul_pos hp hn
  rw [(C151_value hl ht hf hn).1 (by linarith), hr, mul_div_assoc, div_self hn.ne', mul_one, Real.logb_rpow (by norm_num) (by norm_num)]
  congr 2
  ring

theorem powerWhere_scale (c : ℝ) (x : List ℝ) (v : List Bool) (b : Bool) :
    powerWhere (x.map (c * ·)) v b = c ^ 2 * powerWhere x v b := by
  unfold powerWhere
  rw [List.length_map, mul_div_assoc', mul_sum]
  congr 1
  apply sum_congr rfl
  intro t ht
  have h : t < x.length := by simpa using (mem_filter.1 ht).1
  simp [List.getD_eq_getElem?_getD, List.getElem?_eq_getElem h]
  ring

theorem snrOfPowers_scale {k : ℝ} (hk : 0 < k) (s n : ℝ) : snrOfPowers (k * s) (k * n) = snrOfPowers s n := by
  unfold snrOfPowers
  have h1 : k * s - k * n = k * (s - n) := by ring
  rw [h1]
  simp only [mul_neg_iff, hk, hk.le.not_gt, mul_eq_zero, hk.ne', true_and, false_and, or_false, false_or,
    mul_div_mul_left _ _ hk.ne']

/-- C151 (scale): the value does not depend on the level of the recording. -/
theorem C151_scale {c : ℝ} (hc : c ≠ 0) (x : List ℝ) (vad : List Bool) : oldSnr (x.map (c * ·)) vad = oldSnr x vad := by
  unfold oldSnr
  simp only [List.length_map, meanPower_where, powerWhere_scale, snrOfPowers_scale (pow_pos (abs_pos.2 hc) 2 |>.trans_eq (sq_abs c))]

/-- C151 (flags): flags after the end of the recording are ignored; flags that are too few raise `IndexError` if they say both, and only one
kind of flags gives an infinite value whatever the recording. -/
theorem C151_flags (x : List ℝ) (vad : List Bool) :
    (∀ extra, vad.length = x.length → oldSnr x (vad ++ extra) = oldSnr x vad) ∧
      (vad.length < x.length → true ∈ vad → false ∈ vad → oldSnr x vad = .error .indexError) ∧
      (vad.length ≤ x.length → true ∉ vad → oldSnr x vad = .ok .negInf) ∧
      (vad.length ≤ x.length → vad ≠ [] → false ∉ vad → oldSnr x vad = .ok .posInf) := by
  have h3 := flags_count vad
  refine ⟨fun extra h => ?_, fun h ht hf => ?_, fun h ht => ?_, fun h hne hf => ?_⟩
  · have e : (if x.length < (vad ++ extra).length then (vad ++ extra).take x.length else vad ++ extra) = vad := by
      by_cases he : extra = []
      · subst he
        simp [h]
      · have : 0 < extra.length := List.length_pos_iff.2 he
        rw [if_pos (by simp; omega), ← h, List.take_left]
    have e' : (if x.length < vad.length then vad.take x.length else vad) = vad := if_neg (by omega)
    unfold oldSnr
    rw [e, e']
  · have h1 : 0 < vad.count true := List.count_pos_iff.2 ht
    have h2 : 0 < vad.count false := List.count_pos_iff.2 hf
    unfold oldSnr
    rw [if_neg (by omega : ¬ x.length < vad.length)]
    simp only []
    rw [if_pos ⟨h1, by omega⟩, if_neg (by omega)]
  · have h1 : vad.count true = 0 := List.count_eq_zero.2 ht
    unfold oldSnr
    rw [if_neg (by omega : ¬ x.length < vad.length)]
    simp only [h1, lt_irrefl, false_and, if_false, if_true]
  · have h1 : vad.count false = 0 := List.count_eq_zero.2 hf
    have h2 : 0 < vad.length := List.length_pos_iff.2 hne
    unfold oldSnr
    rw [if_neg (by omega : ¬ x.length < vad.length)]
    simp only []
    rw [if_neg (by omega), if_neg (by omega)]

/-- C151 (orientation): for an array that is not square it does not matter whether the channels are rows or columns; there is one value per
channel. -/
theorem C151_orientation {rows cols : ℕ} (h : rows ≠ cols) (y : ℕ → ℕ → ℝ) (vad : List Bool) :
    snrOldAll rows cols y vad = snrOldAll cols rows (fun i j => y j i) vad := by
  unfold snrOldAll
  rcases Nat.lt_or_gt_of_ne h with h | h
  · rw [if_pos h, if_neg (by omega)]
  · rw [if_neg (by omega), if_pos h]

/-- C151 (channels): there is one value per channel, the smaller of the two sizes being that of the channels. -/
theorem C151_channels {rows cols : ℕ} {y : ℕ → ℕ → ℝ} {vad : List Bool} {out : List OldSnr} (h : snrOldAll rows cols y vad = .ok out) :
    out.length = min rows cols := by
  have key : ∀ (f : ℕ → Except PyErr OldSnr) (l : List ℕ) (o : List OldSnr), l.mapM f = .ok o → o.length = l.length := by
    intro f l
    induction l with
    | nil =>
      intro o ho
      obtain rfl : [] = o := Except.ok.inj ho
      rfl
    | cons a l ih =>
      intro o ho
      rw [List.mapM_cons] at ho
      cases ha : f a with
      | error e => rw [ha] at ho; cases ho
      | ok b =>
        cases hl : l.mapM f with
        | error e => rw [ha, hl] at ho; cases ho
        | ok bs =>
          rw [ha, hl] at ho
          obtain rfl : b :: bs = o := Except.ok.inj ho
          simp [ih bs hl]
  unfold snrOldAll at h
  by_cases hc : cols > rows
  · rw [if_pos hc] at h
    rw [key _ _ _ h, List.length_range]
    omega
  · rw [if_neg hc] at h
    rw [key _ _ _ h, List.length_range]
    omega

/-- Speech of power 9 over noise of power 1. -/
example : oldSnr [1, 3, -1, 3] [false, true, false, true] = .ok (.num (20 * Real.logb 10 8)) := by
  have p1 : powerWhere [1, 3, -1, 3] [false, true, false, true] true = 9 := by
    rw [← meanPower_where]; norm_num [meanPower, selWhere]
  have p2 : powerWhere [1, 3, -1, 3] [false, true, false, true] false = 1 := by
    rw [← meanPower_where]; norm_num [meanPower, selWhere]
  rw [(C151_value (by simp) (by simp) (by simp) (by rw [p2]; norm_num)).1 (by rw [p1, p2]; norm_num), p1, p2]
  norm_num

/-- Two channels of three samples, as rows or as columns; the second is silent where the flag is off: two values. -/
example : ∃ out, snrOldAll 3 2 (fun t c => if c = 0 then t else if t = 1 then 0 else 2) [true, false, true] = .ok out ∧ out.length = 2 := by
  unfold snrOldAll
  rw [if_neg (by omega)]
  simp only [List.range_succ, List.range_zero, List.nil_append, List.cons_append, List.mapM_cons, List.mapM_nil, List.map_cons, List.map_nil]
  rw [oldSnr_both (by rfl) (by simp) (by simp), oldSnr_both (by rfl) (by simp) (by simp)]
  exact ⟨_, rfl, rfl⟩

/-- Silent noise: the speech power over zero is infinite; no sound at all: not a number. -/
example : oldSnr [0, 2] [false, true] = .ok .posInf ∧ oldSnr [0, 0] [false, true] = .ok .nan := by
  constructor <;> norm_num [oldSnr, meanPower, selWhere, snrOfPowers]

end Danse
