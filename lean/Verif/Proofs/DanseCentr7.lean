import Verif.Proofs.DanseCentr6

/-!
# Helper lemmas for C130: synchronous runs
-/

set_option linter.unusedSectionVars false

namespace Danse
section
variable {K : Type} [Field K] [StarRing K] [DecidableEq K] {C : CDanseCfg K} {y : Nat → List (List K)} {T : Nat}
  {fs : ℚ} {n : Nat} {nbs : List (List Nat)} {out : List (Instant ℚ)} {a : CDanseSt C}

/-- The schedule of a synchronous network. -/
theorem cdanse_times (h : C.Sync y fs n nbs out) :
    (∀ k < C.n, upTimes (flatEvents out) k =
      everySep C.D.g.Ns fs ⌈(C.D.g.N : ℚ) / C.D.g.Ns⌉₊ ((n - 1) / C.D.g.Ns)) ∧
    ∀ ev ∈ flatEvents out, ev.2.1 < C.n ∧ 0 ≤ ⌊ev.1 * C.D.g.fs ev.2.1⌋ := by
  obtain ⟨seq, sim, ri, first, minF, fsInf, hri, hout⟩ := h.sched
  have key : ∃ B : List ℚ, (∀ t ∈ B, 0 ≤ t) ∧ (∀ k < C.n, upTimes (flatEvents out) k =
      everySep C.D.g.Ns fs ⌈(C.D.g.N : ℚ) / C.D.g.Ns⌉₊ ((n - 1) / C.D.g.Ns) ∧ bcTimes (flatEvents out) k = B) ∧
      ∀ ev ∈ flatEvents out, ev.2.1 < C.n ∧ (ev.2.2 = .up ∨ ev.2.2 = .bc) := by
    rw [h.nodes]
    rcases h.bc with hb | ⟨L, hb, hL, hLn⟩
    · have hsch := C78_schedule (seq := seq) (sim := sim) (r := ri) (N := C.D.g.N) (bc := C.D.g.bc) h.hNs h.hn h.hfs h.infer
        (fun _ => h.dvd) (by rw [hb]; intro L e h; cases h) nbs first minF hri
      rw [hout] at hsch
      obtain ⟨out', ho', hall, htyp⟩ := hsch
      injection ho' with ho'
      injection ho' with ho'
      subst ho'
      refine ⟨_, ?_, hall, htyp⟩
      rw [hb, syncBc, everySep]
      intro t ht
      obtain ⟨j, _, rfl⟩ := List.mem_map.mp ht
      have := h.hfs
      positivity
    · have hL0 : 0 < L := Nat.pos_of_dvd_of_pos hL h.hNs
      have hsch := C87_schedule_efficient (seq := seq) (sim := sim) (r := ri) h.hNs h.hN h.hn hL0
        (Nat.le_of_dvd h.hNs hL) hLn h.hfs h.infer nbs h.neighbours first minF hri
      rw [hb] at hout
      rw [hout] at hsch
      obtain ⟨out', ho', hall, htyp⟩ := hsch
      injection ho' with ho'
      injection ho' with ho'
      subst ho'
      refine ⟨_, ?_, hall, htyp⟩
      rw [syncBcEff]
      intro t ht
      obtain ⟨j, _, rfl⟩ := List.mem_map.mp ht
      have := h.hfs
      positivity
  obtain ⟨B, hB, hall, htyp⟩ := key
  refine ⟨fun k hk => (hall k hk).1, fun ev hev => ?_⟩
  obtain ⟨h1, h2⟩ := htyp ev hev
  refine ⟨h1, ?_⟩
  rw [h.clock]
  have ht : 0 ≤ ev.1 := by
    rcases h2 with h2 | h2
    · have : ev.1 ∈ upTimes (flatEvents out) ev.2.1 := by
        unfold upTimes
        rw [List.mem_filterMap]
        exact ⟨ev, hev, by simp [h2]⟩
      rw [(hall _ h1).1, everySep] at this
      obtain ⟨j, _, hj⟩ := List.mem_map.mp this
      rw [← hj]
      have := h.hfs
      positivity
    · apply hB
      rw [← (hall _ h1).2]
      unfold bcTimes
      rw [List.mem_filterMap]
      exact ⟨ev, hev, by simp [h2]⟩
  exact Int.floor_nonneg.mpr (mul_nonneg ht h.hfs.le)

theorem cdanse_long (h : C.Sync y fs n nbs out) {k : Nat} (hk : k < C.n) {t : ℚ} (ht : t ∈ upTimes (flatEvents out) k) :
    C.D.g.N < n ∧ 0 ≤ frameEnd C.D.g.bc C.D.g.N C.D.g.Ns t (C.D.g.fs k) := by
  have hm := ht
  rw [(cdanse_times h).1 k hk, everySep] at hm
  obtain ⟨j, hj, rfl⟩ := List.mem_map.mp hm
  have hj' := List.mem_range.mp hj
  have h1 : (C.D.g.N : ℚ) / C.D.g.Ns ≤ (⌈(C.D.g.N : ℚ) / C.D.g.Ns⌉₊ : ℚ) := Nat.le_ceil _
  have hNs := h.hNs
  rw [div_le_iff₀ (by exact_mod_cast hNs)] at h1
  have h2 : C.D.g.N ≤ ⌈(C.D.g.N : ℚ) / C.D.g.Ns⌉₊ * C.D.g.Ns := by exact_mod_cast h1
  have h3 : C.D.g.N ≤ (⌈(C.D.g.N : ℚ) / C.D.g.Ns⌉₊ + j) * C.D.g.Ns := h2.trans (Nat.mul_le_mul_right _ (by omega))
  have h4 : (⌈(C.D.g.N : ℚ) / C.D.g.Ns⌉₊ + j) * C.D.g.Ns ≤ (n - 1) / C.D.g.Ns * C.D.g.Ns :=
    Nat.mul_le_mul_right _ (by omega)
  have h5 : (n - 1) / C.D.g.Ns * C.D.g.Ns ≤ n - 1 := Nat.div_mul_le_self _ _
  have hn := h.hn
  refine ⟨by omega, ?_⟩
  rw [h.clock]
  unfold frameEnd
  rw [floor_everySep h.hfs]
  split <;> omega

/-- The observations of a synchronous run. -/
theorem cdanse_sync (hs : C.Sync y fs n nbs out) (hc : C.centr = true) (h : cdanseRun C y T (flatEvents out) = .ok a)
    {k i : Nat} (hk : k < C.n) {o : CObs K} (ho : (a.chist k)[i]? = some o) :
    o.t = ((⌈(C.D.g.N : ℚ) / C.D.g.Ns⌉₊ + i : Nat) : ℚ) * C.D.g.Ns / fs ∧
    o.yC = ((List.range C.n).flatMap y).map fun x =>
      frameBefore C.D.g.N x ((⌈(C.D.g.N : ℚ) / C.D.g.Ns⌉₊ + i) * C.D.g.Ns - C.lag) := by
  obtain ⟨pre, post, b, hev, hpre, hb, e1, -, -⟩ := cdanse_at h ho
  have w := cdanseRun_inv _ hb
  obtain ⟨f1, f2, f3, f4, f5, f6, f7, f8, f9⟩ := fixed_fields w.fixed
  have hag := w.again
  rw [← f1, ← f4, ← f8, show C.D.M = fun q => (y q).length from funext fun q => (hs.sensors q).symm] at hag
  obtain ⟨hj, ht⟩ := sync_index ((cdanse_times hs).1 k hk) hev
  rw [hpre] at hj ht
  refine ⟨ht, ?_⟩
  obtain ⟨seq, sim, ri, first, minF, fsInf, hri, hout⟩ := hs.sched
  rw [← f7, ← f4, ← f5] at hout
  have hjeq : ∀ j : Nat, o.t = (j : ℚ) * C.D.g.Ns / fs → j = ⌈(C.D.g.N : ℚ) / C.D.g.Ns⌉₊ + i := by
    intro j hj
    rw [ht] at hj
    have h1 := hs.hfs
    have h2 : (0 : ℚ) < C.D.g.Ns := by exact_mod_cast hs.hNs
    rw [div_left_inj' h1.ne', mul_left_inj' h2.ne'] at hj
    exact_mod_cast hj.symm
  rw [List.map_flatMap, e1]
  unfold CDanseCfg.lag
  rcases hs.bc with hbc | ⟨L, hbc, hL, hLn⟩
  · obtain ⟨j, j1, -, -, j4⟩ := C87_whole_chunk (c := b.cfg) hs.hn hs.hfs hs.infer nbs (by rw [f1]; exact hs.nodes)
      (fun k => by rw [f6]; exact hs.clock k) (f2.trans hc) (f7.trans hbc) (by rw [f5]; exact hs.hNs)
      (by rw [f4, f5]; exact hs.dvd) (by rw [f4]; exact hs.hN) (by rw [f1]; exact hs.samples) hout hri
      (by rw [f1]; exact hk) hev hag
    rw [f5] at j1
    rw [j4, f1, f4, f5, hjeq j j1, hbc]
  · obtain ⟨j, j1, -, -, j4⟩ := C87_efficient (c := b.cfg) hs.hn hs.hfs hs.infer nbs hs.neighbours (by rw [f1]; exact hs.nodes)
      (fun k => by rw [f6]; exact hs.clock k) (fun k => by rw [f9]; exact hs.stamps k) (f2.trans hc) (f7.trans hbc)
      (Nat.pos_of_dvd_of_pos hL hs.hNs) (by rw [f5]; exact Nat.le_of_dvd hs.hNs hL) hLn (by rw [f4]; exact hs.hN)
      (by rw [f1]; exact hs.samples) hout hri (by rw [f1]; exact hk) hev hag
    rw [f5] at j1
    rw [j4, f1, f4, f5, hjeq j j1, hbc]
    apply List.flatMap_congr
    intro q _
    apply List.map_congr_left
    intro x _
    simp only [Nat.sub_zero]
    rw [Nat.div_mul_cancel (hL.trans (Dvd.intro_left _ rfl)), ite_self]

theorem cdanse_chist_length (hs : C.Sync y fs n nbs out) (h : cdanseRun C y T (flatEvents out) = .ok a) {k : Nat} (hk : k < C.n) :
    (a.chist k).length = (n - 1) / C.D.g.Ns - ⌈(C.D.g.N : ℚ) / C.D.g.Ns⌉₊ := by
  rw [(cdanseRun_inv _ h).len k, ← evUps_length, (cdanse_times hs).1 k hk, everySep_length]

theorem heardC_take (k : Nat) (h : List (CObs K)) (i : Nat) : C.heardC k (h.take i) = (C.heardC k h).take i := by
  apply List.ext_getElem?
  intro j
  unfold CDanseCfg.heardC
  by_cases hj : j < i
  · rw [List.getElem?_take_of_lt hj, List.getElem?_map, List.getElem?_map, List.getElem?_zipIdx, List.getElem?_zipIdx,
      List.getElem?_take_of_lt hj]
    rw [Option.map_map, Option.map_map]
    congr 1
    funext o
    simp only [Function.comp, Nat.zero_add, List.take_take]
    rw [min_eq_left (by omega)]
  · rw [List.getElem?_eq_none (by simp; omega), List.getElem?_eq_none (by simp; omega)]

theorem flatMap_total (hM : ∀ q, (y q).length = C.D.M q) : ((List.range C.n).flatMap y).length = C.total := by
  rw [List.length_flatMap]
  congr 1
  exact List.map_congr_left fun q _ => hM q

end
end Danse
