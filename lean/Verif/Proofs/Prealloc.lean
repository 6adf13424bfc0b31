import Verif.Model.Prealloc
import Verif.Model.BatchSig
import Verif.Spec.Prealloc
import Verif.Spec.Vad
import Verif.Proofs.Async
import Verif.Proofs.Total3
import Verif.Proofs.TIRun9

/-! # Helper lemmas: the rows of a run -/

namespace Danse

theorem le_ceil_mul (N Ns : Nat) (h : 0 < Ns) : N ≤ ⌈(N : ℚ) / Ns⌉₊ * Ns := by
  have h1 : (N : ℚ) / Ns ≤ ⌈(N : ℚ) / Ns⌉₊ := Nat.le_ceil _
  have h2 : (0 : ℚ) < Ns := by exact_mod_cast h
  rw [div_le_iff₀ h2] at h1
  exact_mod_cast h1

theorem ceil_mul_lt (N Ns : Nat) (h : 0 < Ns) : ⌈(N : ℚ) / Ns⌉₊ * Ns < N + Ns := by
  have h1 : (⌈(N : ℚ) / Ns⌉₊ : ℚ) < (N : ℚ) / Ns + 1 := Nat.ceil_lt_add_one (by positivity)
  have h2 : (0 : ℚ) < Ns := by exact_mod_cast h
  have h3 : (⌈(N : ℚ) / Ns⌉₊ : ℚ) * Ns < ((N : ℚ) / Ns + 1) * Ns := by gcongr
  rw [add_mul, div_mul_cancel₀ _ h2.ne', one_mul] at h3
  exact_mod_cast h3

theorem ceil_mul_of_dvd {N Ns : Nat} (h : 0 < Ns) (hd : Ns ∣ N) : ⌈(N : ℚ) / Ns⌉₊ * Ns = N := by
  obtain ⟨c, rfl⟩ := hd
  have h2 : (Ns : ℚ) ≠ 0 := by positivity
  push_cast
  rw [mul_div_cancel_left₀ _ h2, Nat.ceil_natCast, Nat.mul_comm]

theorem allocIter_ok {n N Ns : Nat} (hNs : 0 < Ns) (h : N ≤ n) : allocIter n N Ns = .ok (numIter n N Ns) := by
  unfold allocIter numIter
  rw [if_neg (by omega)]
  congr 1
  have : (n : Int) - N = ((n - N : Nat) : Int) := by omega
  rw [this, Int.tdiv_eq_ediv_of_nonneg (by omega)]
  push_cast
  rfl

/-- Filling the rows `T`, `T + 1`, ... of an array. -/
theorem set_filled {α : Type} (f : Nat → α) (x : α) {T B : Nat} (h : T < B) :
    ((List.range T).map f ++ List.replicate (B - T) x).set T (f T) =
      (List.range (T + 1)).map f ++ List.replicate (B - (T + 1)) x := by
  have e : B - T = (B - (T + 1)) + 1 := by omega
  rw [e, List.replicate_succ, List.set_append_right _ _ (by simp), List.range_succ, List.map_append]
  simp

section
variable {α β : Type} {k : Nat} {upd : Nat → α} {frm : Nat → β} {vad : List Bool}

/-- The rows after `T` updates. -/
def filledRows (upd : Nat → α) (frm : Nat → β) (vad : List Bool) (w0 : α) (f0 : β) (B T : Nat) : NodeRows α β :=
  ⟨T, w0 :: ((List.range T).map upd ++ List.replicate (B - T) w0),
    (List.range T).map frm ++ List.replicate (B - T) f0, vad.take T⟩

theorem rowsStep_filled (w0 : α) (f0 : β) {B T : Nat} (hB : B ≤ vad.length) (hT : T < B)
    {ev : ℚ × Nat × EvType} (hev : ev.2.1 = k ∧ ev.2.2 = .up) :
    rowsStep k upd frm vad (filledRows upd frm vad w0 f0 B T) ev =
      .ok (filledRows upd frm vad w0 f0 B (T + 1)) := by
  unfold rowsStep
  rw [if_pos hev]
  have h1 : setRow (filledRows upd frm vad w0 f0 B T).frames T (frm T) =
      .ok (filledRows upd frm vad w0 f0 B (T + 1)).frames := by
    unfold setRow
    rw [if_pos (by simp only [filledRows, List.length_append, List.length_map, List.length_range,
      List.length_replicate]; omega)]
    exact congrArg _ (set_filled frm f0 hT)
  have h2 : setRow (filledRows upd frm vad w0 f0 B T).filt (T + 1) (upd T) =
      .ok (filledRows upd frm vad w0 f0 B (T + 1)).filt := by
    unfold setRow
    rw [if_pos (by simp only [filledRows, List.length_cons, List.length_append, List.length_map,
      List.length_range, List.length_replicate]; omega)]
    simp only [filledRows, List.set_cons_succ]
    rw [set_filled upd w0 hT]
  have h3 : pyGet vad (T : Int) = .ok (vad[T]'(by omega)) := by
    unfold pyGet
    simp only
    rw [if_neg (by omega), if_neg (by omega), Int.toNat_natCast, List.getElem?_eq_getElem (by omega)]
  show (do
    let frames ← setRow (filledRows upd frm vad w0 f0 B T).frames T (frm T)
    let v ← pyGet vad (T : Int)
    let filt ← setRow (filledRows upd frm vad w0 f0 B T).filt (T + 1) (upd T)
    Except.ok (NodeRows.mk (T + 1) filt frames ((filledRows upd frm vad w0 f0 B T).vads ++ [v]))) = _
  rw [h1, h2, h3]
  simp only [bind, Except.bind]
  simp only [filledRows]
  congr 2
  rw [List.take_add_one, List.getElem?_eq_getElem (by omega)]
  rfl

theorem rows_fold (w0 : α) (f0 : β) {B : Nat} (hB : B ≤ vad.length) :
    ∀ (evs : List (ℚ × Nat × EvType)) (T : Nat), T + evUps evs k ≤ B →
      evs.foldlM (rowsStep k upd frm vad) (filledRows upd frm vad w0 f0 B T) =
        .ok (filledRows upd frm vad w0 f0 B (T + evUps evs k)) := by
  intro evs
  induction evs with
  | nil => intro T _; rfl
  | cons ev evs ih =>
    intro T hT
    rw [List.foldlM_cons]
    by_cases hc : ev.2.1 = k ∧ ev.2.2 = .up
    · have e : evUps (ev :: evs) k = evUps evs k + 1 := by
        unfold evUps
        rw [List.countP_cons_of_pos (by simpa using hc)]
      rw [e] at hT ⊢
      rw [rowsStep_filled w0 f0 hB (by omega) hc]
      show evs.foldlM _ _ = _
      rw [ih (T + 1) (by omega)]
      congr 2
      omega
    · have e : evUps (ev :: evs) k = evUps evs k := by
        unfold evUps
        rw [List.countP_cons_of_neg (by simpa using hc)]
      rw [e] at hT ⊢
      have e2 : rowsStep k upd frm vad (filledRows upd frm vad w0 f0 B T) ev =
          .ok (filledRows upd frm vad w0 f0 B T) := by
        unfold rowsStep; rw [if_neg hc]
      rw [e2]
      exact ih T hT

theorem nodeRows_filled (w0 : α) (f0 : β) {n N Ns : Nat} (hNs : 0 < Ns) (hn : N ≤ n)
    {evs : List (ℚ × Nat × EvType)} (hB : numIter n N Ns ≤ vad.length) (hT : evUps evs k ≤ numIter n N Ns) :
    nodeRows k upd frm vad w0 f0 n N Ns evs =
      .ok (filledRows upd frm vad w0 f0 (numIter n N Ns) (evUps evs k)) := by
  have h0 : evs.foldlM (rowsStep k upd frm vad) (filledRows upd frm vad w0 f0 (numIter n N Ns) 0) = _ :=
    rows_fold w0 f0 hB evs 0 (by omega)
  unfold nodeRows allocRows
  rw [allocIter_ok hNs hn]
  simp only [bind, Except.bind]
  rw [if_neg (by omega), if_neg (by omega)]
  simp only
  have e : ((numIter n N Ns : Int) + 1).toNat = numIter n N Ns + 1 := by omega
  rw [e, Int.toNat_natCast, List.replicate_succ]
  rw [Nat.zero_add] at h0
  rw [← h0]
  congr 1

end

theorem batch_fold {α : Type} (upd : Nat → α) (w0 : α) {B : Nat} : ∀ T, T ≤ B →
    (List.range T).foldlM (fun f i => setRow f (i + 1) (upd i)) (w0 :: List.replicate B w0) =
      .ok (w0 :: ((List.range T).map upd ++ List.replicate (B - T) w0)) := by
  intro T
  induction T with
  | zero => intro _; rfl
  | succ T ih =>
    intro hT
    rw [List.range_succ, List.foldlM_append, ih (by omega)]
    have h1 : setRow (w0 :: ((List.range T).map upd ++ List.replicate (B - T) w0)) (T + 1) (upd T) =
        .ok (w0 :: ((List.range (T + 1)).map upd ++ List.replicate (B - (T + 1)) w0)) := by
      unfold setRow
      rw [if_pos (by simp; omega), List.set_cons_succ, set_filled upd w0 hT]
    simp only [bind, Except.bind, List.foldlM_cons, List.foldlM_nil]
    rw [h1, List.range_succ]
    rfl

/-- Times of the events of a schedule, from what it delivers. -/
theorem delivered_times {out : List (Instant ℚ)} (h1 : (out.map (·.t)).Pairwise (· < ·))
    (h3 : (delivered out).Nodup) (k : Nat) (ty : EvType) {ts : List ℚ} (hts : ts.Pairwise (· < ·))
    (hmem : ∀ t, (t, k, ty) ∈ delivered out ↔ t ∈ ts) :
    ((flatEvents out).filterMap fun ev => if ev.2.1 = k ∧ ev.2.2 = ty then some ev.1 else none) = ts := by
  have hd : flatEvents out = delivered out := rfl
  rw [hd]
  apply sorted_ext _ hts
  · intro t
    rw [List.mem_filterMap, ← hmem t]
    constructor
    · rintro ⟨⟨t', k', ty'⟩, hm, he⟩
      simp only at he
      split at he
      · rename_i hc
        obtain ⟨rfl, rfl⟩ := hc
        injection he with he
        subst he
        exact hm
      · cases he
    · intro hm
      exact ⟨_, hm, by simp⟩
  · rw [List.pairwise_filterMap]
    refine ((delivered_sorted h1).and h3).imp ?_
    rintro ⟨t, k1, ty1⟩ ⟨t', k2, ty2⟩ ⟨hle, hne⟩ x hx y hy
    simp only at hx hy
    split at hx
    · split at hy
      · rename_i c1 c2
        injection hx with hx
        injection hy with hy
        subst hx hy
        obtain ⟨rfl, rfl⟩ := c1
        obtain ⟨rfl, rfl⟩ := c2
        rcases lt_or_eq_of_le hle with h | h
        · exact h
        · exact absurd (by simp only at h; rw [h]) hne
      · cases hy
    · cases hx

/-- The updates of a node whose update times are evenly spaced. -/
theorem UpdateAt.everySep {evs : List (ℚ × Nat × EvType)} {k i Ns a b : Nat} {t fs : ℚ}
    (h : UpdateAt evs k i t) (hu : upTimes evs k = everySep Ns fs a b) :
    a + i < b ∧ t = ((a + i : Nat) : ℚ) * Ns / fs := by
  obtain ⟨pre, post, he, rfl⟩ := h
  exact sync_index hu he

theorem evUps_everySep {evs : List (ℚ × Nat × EvType)} {k Ns a b : Nat} {fs : ℚ}
    (hu : upTimes evs k = everySep Ns fs a b) : evUps evs k = b - a := by
  rw [← evUps_length, hu]
  simp [everySep]

end Danse
