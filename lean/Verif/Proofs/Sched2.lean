import Verif.Proofs.Sched

/-! # Helper lemmas: the schedule of a synchronous fully connected network -/

namespace Danse

theorem mapM_const {α β : Type} {f : α → Except PyErr β} {l : List α} {b : β}
    (h : ∀ x ∈ l, f x = .ok b) : l.mapM f = .ok (List.replicate l.length b) := by
  induction l with
  | nil => rfl
  | cons a l ih =>
    rw [List.mapM_cons, h a (by simp), ih fun x hx => h x (List.mem_cons_of_mem _ hx)]
    rfl

theorem clockStamps_last {fs : ℚ} {n : Nat} (hn : 0 < n) :
    pyGet (clockStamps fs n) (-1) = .ok (((n - 1 : Nat) : ℚ) / fs) := by
  unfold pyGet clockStamps
  simp only [List.length_map, List.length_range, show ((-1 : Int) < 0) from by omega, if_true]
  rw [if_neg (by omega), show (-1 + (n : Int)).toNat = n - 1 by omega,
    List.getElem?_eq_getElem (by simp; omega)]
  simp

theorem baseChecks_sync {fs : ℚ} {n : Nat} (hf : inferFs (clockStamps fs n) = .ok fs)
    (nbs : List (List Nat)) {sim : Bool} {r : Nat} (hr : sim = true → r < nbs.length) :
    baseChecks ((syncNodes fs n nbs).map (·.stamps)) sim r = .ok (List.replicate nbs.length fs) := by
  unfold baseChecks
  have e : ((syncNodes fs n nbs).map (·.stamps)).mapM inferFs = .ok (List.replicate nbs.length fs) := by
    rw [mapM_const (b := fs)]
    · simp [syncNodes]
    · intro s hs
      unfold syncNodes at hs
      simp only [List.map_map, List.mem_map, Function.comp_apply] at hs
      obtain ⟨_, _, rfl⟩ := hs
      exact hf
  rw [e]
  simp only [bind, Except.bind]
  split
  · rename_i hs
    have hr' := hr hs
    have : pyGet (List.replicate nbs.length fs) (r : Int) = .ok fs := by
      unfold pyGet
      simp only
      rw [if_neg (by omega), if_neg (by omega), List.getElem?_eq_getElem (by simp; omega)]
      simp
    rw [this]
    simp only
    rw [if_neg (by simp)]
  · rfl

theorem mapM_zipIdx_sync {β : Type} {fs : ℚ} {n : Nat} (nbs : List (List Nat))
    {f : ClockNode × Nat → Except PyErr β} {b : β}
    (h : ∀ k < nbs.length, ∀ nb, f (⟨fs, clockStamps fs n, nb⟩, k) = .ok b) :
    (syncNodes fs n nbs).zipIdx.mapM f = .ok (List.replicate nbs.length b) := by
  rw [mapM_const (b := b)]
  · simp [syncNodes]
  · rintro ⟨x, k⟩ hx
    have hx' := List.mem_zipIdx hx
    simp only [syncNodes, List.length_map, List.getElem_map] at hx'
    rw [hx'.2.2]
    exact h k (by omega) _

theorem getD_replicate {k K : Nat} (h : k < K) (x d : ℚ) : (List.replicate K x).getD k d = x := by
  rw [List.getD_eq_getElem?_getD, List.getElem?_eq_getElem (by simpa using h), Option.getD_some]
  simp

theorem ceil_cast (N Ns : Nat) : ((⌈(N : ℚ) / Ns⌉ : Int) : ℚ) = ((⌈(N : ℚ) / Ns⌉₊ : Nat) : ℚ) :=
  (natCast_ceil_eq_intCast_ceil (by positivity)).symm

theorem mul_lt_of_lt_div {n sep j : Nat} (hn : 0 < n) (hs : 0 < sep) (h : j < (n - 1) / sep) : j * sep < n := by
  have := (Nat.le_div_iff_mul_le hs).mp h.le
  omega

/-- Instants of the nodes. -/
theorem fcInstants_sync {bc : BcType} {N Ns n : Nat} (hNs : 0 < Ns) (hn : 0 < n) {fs : ℚ}
    (hfs : 0 < fs) (nbs : List (List Nat)) (hw : bc = .whole → Ns ∣ N)
    (hL : ∀ L eff, bc = .few L eff → 0 < L ∧ eff = false) :
    fcInstants bc N Ns (syncNodes fs n nbs) (List.replicate nbs.length fs)
        (List.replicate nbs.length (((n - 1 : Nat) : ℚ) / fs)) =
      .ok (List.replicate nbs.length (everySep Ns fs ⌈(N : ℚ) / Ns⌉₊ ((n - 1) / Ns)),
        List.replicate nbs.length (syncBc bc N Ns n fs)) := by
  have hup : (syncNodes fs n nbs).zipIdx.mapM (fun x : ClockNode × Nat =>
      generateAligned (⌈(N : ℚ) / Ns⌉ : ℚ) ⌊(List.replicate nbs.length (((n - 1 : Nat) : ℚ) / fs)).getD x.2 0 *
        (List.replicate nbs.length fs).getD x.2 0 / Ns⌋ Ns x.1.fs x.1.stamps) =
      .ok (List.replicate nbs.length (everySep Ns fs ⌈(N : ℚ) / Ns⌉₊ ((n - 1) / Ns))) := by
    refine mapM_zipIdx_sync nbs fun k hk nb => ?_
    simp only
    rw [getD_replicate hk, getD_replicate hk, floor_total hn hfs, ceil_cast]
    exact generateAligned_clock hNs fun j hj => mul_lt_of_lt_div hn hNs hj
  unfold fcInstants
  simp only
  rw [hup]
  simp only [bind, Except.bind]
  match bc, hw, hL with
  | .whole, hw, _ =>
    simp only [syncBc]
    have hd : (N : ℚ) / Ns = ((N / Ns : Nat) : ℚ) := by
      rw [Nat.cast_div (hw rfl) (by positivity)]
    have hb : (syncNodes fs n nbs).zipIdx.mapM (fun x : ClockNode × Nat =>
      generateAligned ((N : ℚ) / Ns) ⌊(List.replicate nbs.length (((n - 1 : Nat) : ℚ) / fs)).getD x.2 0 *
        (List.replicate nbs.length fs).getD x.2 0 / Ns⌋ Ns x.1.fs x.1.stamps) =
      .ok (List.replicate nbs.length (everySep Ns fs (N / Ns) ((n - 1) / Ns))) := by
      refine mapM_zipIdx_sync nbs fun k hk nb => ?_
      simp only
      rw [getD_replicate hk, getD_replicate hk, floor_total hn hfs, hd]
      exact generateAligned_clock hNs fun j hj => mul_lt_of_lt_div hn hNs hj
    rw [hb]
  | .few L false, _, hL =>
    simp only [syncBc]
    have hL' := (hL L false rfl).1
    have hb : (syncNodes fs n nbs).zipIdx.mapM (fun x : ClockNode × Nat =>
      generateAligned 1 ⌊(List.replicate nbs.length (((n - 1 : Nat) : ℚ) / fs)).getD x.2 0 *
        (List.replicate nbs.length fs).getD x.2 0 / L⌋ L x.1.fs x.1.stamps) =
      .ok (List.replicate nbs.length (everySep L fs 1 ((n - 1) / L))) := by
      refine mapM_zipIdx_sync nbs fun k hk nb => ?_
      simp only
      rw [getD_replicate hk, getD_replicate hk, floor_total hn hfs]
      have := generateAligned_clock (a := 1) (fs := fs) hL' fun j hj => mul_lt_of_lt_div hn hL' hj
      rw [← this]
      norm_num
    rw [hb]
  | .few L true, _, hL => exact absurd (hL L true rfl).2 (by simp)

/-- The arguments with which the event matrix is built. -/
def fcArgs (up bc : List (List ℚ)) (seq : Bool) (first minFrames : Int) (K : Nat) : EvArgs ℚ :=
  { up_t := up, bc_t := bc, seq := seq, fuse_t := List.replicate K [],
    re_t := List.replicate K [], tr_t := List.replicate K [],
    firstUpdatingNode := first, minFrames := minFrames }

theorem fcArgs_ti (up bc : List (List ℚ)) (seq : Bool) (first minFrames : Int) (K : Nat) :
    (fcArgs up bc seq first minFrames K).tiFlag = false := by
  unfold EvArgs.tiFlag fcArgs
  have : (List.replicate K ([] : List ℚ)).any (fun ts => decide (0 < ts.length)) = false := by
    rw [List.any_eq_false]
    intro x hx
    rw [List.eq_of_mem_replicate hx]
    simp
  simp only [this, Bool.false_and]

theorem initEventsFC_sync {bc : BcType} {N Ns n : Nat} (hNs : 0 < Ns) (hn : 0 < n) {fs : ℚ}
    (hfs : 0 < fs) (hf : inferFs (clockStamps fs n) = .ok fs) (nbs : List (List Nat))
    {seq sim : Bool} {r : Nat} {first minF : Int} (hr : sim = true → r < nbs.length)
    {up b : List ℚ} (hub : fcInstants bc N Ns (syncNodes fs n nbs) (List.replicate nbs.length fs)
        (List.replicate nbs.length (((n - 1 : Nat) : ℚ) / fs)) =
      .ok (List.replicate nbs.length up, List.replicate nbs.length b))
    (hup : up.Pairwise (· < ·)) (hb : b.Pairwise (· < ·)) :
    ∃ out, initEventsFC bc N Ns seq sim r first minF (syncNodes fs n nbs) =
        .ok (out, List.replicate nbs.length fs) ∧
      buildEvents (fcArgs (List.replicate nbs.length up) (List.replicate nbs.length b) seq first minF
        nbs.length) = .ok out ∧
      (∀ k < nbs.length, upTimes (flatEvents out) k = up ∧ bcTimes (flatEvents out) k = b) ∧
      ∀ ev ∈ flatEvents out, ev.2.1 < nbs.length ∧ (ev.2.2 = .up ∨ ev.2.2 = .bc) := by
  have ht := fcArgs_ti (List.replicate nbs.length up) (List.replicate nbs.length b) seq first minF nbs.length
  obtain ⟨out, ho⟩ := C01_schedule_produced (fcArgs (List.replicate nbs.length up)
    (List.replicate nbs.length b) seq first minF nbs.length) (by right; simp [fcArgs])
    (fun h => by rw [ht] at h; cases h) (fun h => by rw [ht] at h; cases h)
    (fun h => by rw [ht] at h; cases h) (fun h => by rw [ht] at h; cases h)
  refine ⟨out, ?_, ho, ?_, ?_⟩
  · unfold initEventsFC
    rw [baseChecks_sync hf nbs hr]
    have e : (syncNodes fs n nbs).mapM (fun n => pyGet n.stamps (-1)) =
        .ok (List.replicate nbs.length (((n - 1 : Nat) : ℚ) / fs)) := by
      rw [mapM_const (b := ((n - 1 : Nat) : ℚ) / fs)]
      · simp [syncNodes]
      · intro x hx
        unfold syncNodes at hx
        obtain ⟨nb, _, rfl⟩ := List.mem_map.mp hx
        exact clockStamps_last hn
    simp only [bind, Except.bind]
    rw [e]
    simp only
    rw [hub]
    simp only
    have e2 : (syncNodes fs n nbs).map (fun _ => ([] : List ℚ)) = List.replicate nbs.length [] := by
      unfold syncNodes
      rw [List.map_map]
      exact List.map_const'
    rw [e2]
    unfold fcArgs at ho
    rw [ho]
  · intro k hk
    constructor
    · refine schedule_times ho ht k .up hup fun t => ?_
      unfold Scheduled fcArgs
      simp only [List.length_replicate]
      rw [List.getElem?_eq_getElem (by simpa using hk)]
      simp [hk]
    · refine schedule_times ho ht k .bc hb fun t => ?_
      unfold Scheduled fcArgs
      simp only [List.length_replicate]
      rw [List.getElem?_eq_getElem (by simpa using hk)]
      simp [hk]
  · intro ev hev
    have h4 := ((C01_exactly_once ho (fun h => by rw [ht] at h; cases h)).2.2.2 ev.1 ev.2.1 ev.2.2).mp hev
    rw [ht] at h4
    unfold Scheduled at h4
    obtain ⟨h1, h2⟩ := h4
    refine ⟨by simpa [fcArgs] using h1, ?_⟩
    cases hty : ev.2.2 <;> simp [hty] at h2 ⊢

end Danse
