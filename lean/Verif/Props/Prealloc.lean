import Verif.Proofs.Prealloc
import Verif.Props.Async
import Verif.Props.TISched
import Verif.Props.Vad
import Verif.Props.Frames

/-!
# C113, C114: one row and one VAD decision per update

A run allocates arrays with a row per expected iteration and counts the updates of every node. C113: the rows
suffice, and what is left over. C114: whether the VAD decision used at an update is that of the frame which the
update processes.
-/

namespace Danse

/-! ## C113 -/

/-- The number of updates is at most the number of rows; the frame with the index of an update is inside the
recording. -/
theorem complete_frame {n N Ns i : Nat} (hn : 0 < n) (hNs : 0 < Ns) {fs f : ℚ} (hfs : 0 < fs) (hf : 0 < f)
    (hc : ClockClose n Ns fs f) (h : ⌈(N : ℚ) / Ns⌉₊ + i < stepsIn n Ns fs f) : i * Ns + N < n := by
  have h1 := steps_inside hn hNs hfs hf hc h
  have h2 := le_ceil_mul N Ns hNs
  rw [Nat.add_mul] at h1
  omega

theorem rows_bound {T n N Ns : Nat} (hNs : 0 < Ns) (h : ∀ i < T, i * Ns + N < n) : T ≤ numIter n N Ns := by
  unfold numIter
  rcases Nat.eq_zero_or_pos T with rfl | hT
  · exact Nat.zero_le _
  · have := h (T - 1) (by omega)
    have : T - 1 ≤ (n - N) / Ns := by rw [Nat.le_div_iff_mul_le hNs]; omega
    omega

theorem vad_rows {vad : List ℚ} {N Ns : Nat} {p : ℚ} {r : List Bool} (h : vadPerFrame vad N Ns p = .ok r)
    (hNs : 0 < Ns) (hN : Ns ≤ N) (hn : N ≤ vad.length) : numIter vad.length N Ns ≤ r.length := by
  rw [C37_length h]
  unfold numComplete numIter
  rw [if_pos hn]
  have : (vad.length - N) / Ns + 1 ≤ vad.length / Ns := by
    rw [Nat.le_div_iff_mul_le hNs, Nat.add_mul]
    have := Nat.div_mul_le_self (vad.length - N) Ns
    omega
  omega

section
variable {α β : Type} {k : Nat} {upd : Nat → α} {frm : Nat → β}

/-- C113 (a): fully connected networks, clocks of any rates. No update finds its row, or its VAD decision,
missing. After the run, row `i + 1` of the filters and row `i` of the frames are those of the update with index
`i`; the rows that are left over have their initial values. -/
theorem C113_rows {bc : BcType} {N Ns n : Nat} (hNs : 0 < Ns) (hN : Ns ≤ N) (hn : N ≤ n) {fs f : Nat → ℚ}
    (nbs : List (List Nat)) (hw : bc = .whole → Ns ∣ N)
    (hL : ∀ L eff, bc = .few L eff → 0 < L ∧ eff = false ∧
      ∀ k < nbs.length, ClockClose n L (fs k) (f k))
    (hfs : ∀ k < nbs.length, 0 < fs k ∧ 0 < f k ∧ inferFs (clockStamps (fs k) n) = .ok (f k) ∧
      ClockClose n Ns (fs k) (f k)) {seq : Bool} {r : Nat} {first minF : Int} {out : List (Instant ℚ)}
    {fsInf : List ℚ} (hout : initEventsFC bc N Ns seq false r first minF (asyncNodes fs n nbs) = .ok (out, fsInf))
    {vad : List ℚ} {p : ℚ} {dec : List Bool} (hv : vad.length = n) (hd : vadPerFrame vad N Ns p = .ok dec)
    (hk : k < nbs.length) (w0 : α) (f0 : β) :
    ∃ s T, nodeRows k upd frm dec w0 f0 n N Ns (flatEvents out) = .ok s ∧ T = evUps (flatEvents out) k ∧
      T ≤ numIter n N Ns ∧
      s.filt = w0 :: ((List.range T).map upd ++ List.replicate (numIter n N Ns - T) w0) ∧
      s.frames = (List.range T).map frm ++ List.replicate (numIter n N Ns - T) f0 ∧
      s.vads = dec.take T ∧ s.vads.length = T := by
  obtain ⟨out', h1, h2, _⟩ := C95_schedule (seq := seq) hNs (by omega) nbs hw hL hfs r first minF
  rw [hout] at h1
  injection h1 with h1
  injection h1 with h1 _
  subst h1
  have hu := (h2 k hk).1
  obtain ⟨g1, g2, _, g4⟩ := hfs k hk
  have hT : evUps (flatEvents out) k ≤ numIter n N Ns := by
    refine rows_bound hNs fun i hi => complete_frame (by omega) hNs g1 g2 g4 ?_
    rw [evUps_everySep hu] at hi
    omega
  have hr := vad_rows hd hNs hN (by omega)
  rw [hv] at hr
  refine ⟨_, _, nodeRows_filled w0 f0 hNs hn hr hT, rfl, hT, rfl, rfl, rfl, ?_⟩
  simp only [filledRows, List.length_take]
  omega

/-- C113 (b): the same in networks of nodes with one clock. At least the last row of the filters, and of every
other array, is never filled; if the shift divides the length of the recording and the frame length, two are. -/
theorem C113_left_over {bc : BcType} {N Ns n : Nat} (hNs : 0 < Ns) (hn : N ≤ n) (hn0 : 0 < n) {fs : ℚ}
    (hfs : 0 < fs) (hf : inferFs (clockStamps fs n) = .ok fs) (hw : bc = .whole → Ns ∣ N)
    (hL : ∀ L eff, bc = .few L eff → 0 < L ∧ eff = false) (nbs : List (List Nat)) {seq sim : Bool} {r : Nat}
    {first minF : Int} (hr : sim = true → r < nbs.length) {out : List (Instant ℚ)} {fsInf : List ℚ}
    (hout : initEventsFC bc N Ns seq sim r first minF (syncNodes fs n nbs) = .ok (out, fsInf))
    (hk : k < nbs.length) :
    evUps (flatEvents out) k < numIter n N Ns ∧
      (Ns ∣ n → Ns ∣ N → N < n → evUps (flatEvents out) k + 2 = numIter n N Ns) := by
  obtain ⟨out', h1, h2, _⟩ := C78_schedule (bc := bc) (N := N) (seq := seq) (sim := sim) (r := r) hNs hn0 hfs hf
    hw hL nbs first minF hr
  rw [hout] at h1
  injection h1 with h1
  injection h1 with h1 _
  subst h1
  rw [evUps_everySep (h2 k hk).1]
  constructor
  · have key : (n - 1) / Ns - ⌈(N : ℚ) / Ns⌉₊ ≤ (n - N) / Ns := by
      rw [Nat.le_div_iff_mul_le hNs, Nat.sub_mul]
      have h3 := le_ceil_mul N Ns hNs
      have h4 := Nat.div_mul_le_self (n - 1) Ns
      omega
    unfold numIter
    omega
  · rintro ⟨c, rfl⟩ hd hlt
    have h3 := ceil_mul_of_dvd hNs hd
    obtain ⟨d, rfl⟩ := hd
    have h4 : ⌈((Ns * d : Nat) : ℚ) / Ns⌉₊ = d := by
      rw [Nat.mul_comm Ns d] at h3
      exact Nat.eq_of_mul_eq_mul_right hNs (by rw [Nat.mul_comm d Ns] at h3 ⊢; exact h3)
    rw [h4]
    have hcd : d < c := lt_of_mul_lt_mul_left hlt (Nat.zero_le _)
    have h5 : (Ns * c - 1) / Ns = c - 1 := by
      refine Nat.div_eq_of_lt_le ?_ ?_
      · rw [Nat.sub_mul, Nat.mul_comm c Ns]; omega
      · have : c - 1 + 1 = c := by omega
        rw [this, Nat.mul_comm c Ns]
        have : 0 < Ns * c := by positivity
        omega
    have h6 : numIter (Ns * c) (Ns * d) Ns = c - d + 1 := by
      unfold numIter
      rw [← Nat.mul_sub, Nat.mul_div_cancel_left _ hNs]
    rw [h5, h6]
    omega

/-- C113 (c), refuted: that the last row of the filters is the final filter. With one clock it always is the
initial one. -/
theorem C113_refuted_last_row {bc : BcType} {N Ns n : Nat} (hNs : 0 < Ns) (hN : Ns ≤ N) (hn : N ≤ n) {fs : ℚ}
    (hfs : 0 < fs) (hf : inferFs (clockStamps fs n) = .ok fs) (hw : bc = .whole → Ns ∣ N)
    (hL : ∀ L eff, bc = .few L eff → 0 < L ∧ eff = false) (nbs : List (List Nat)) {seq sim : Bool} {r : Nat}
    {first minF : Int} (hr : sim = true → r < nbs.length) {out : List (Instant ℚ)} {fsInf : List ℚ}
    (hout : initEventsFC bc N Ns seq sim r first minF (syncNodes fs n nbs) = .ok (out, fsInf))
    {vad : List ℚ} {p : ℚ} {dec : List Bool} (hv : vad.length = n) (hd : vadPerFrame vad N Ns p = .ok dec)
    (hk : k < nbs.length) (w0 : α) (f0 : β) :
    ∃ s, nodeRows k upd frm dec w0 f0 n N Ns (flatEvents out) = .ok s ∧
      s.filt.getLast? = some w0 ∧ s.frames.getLast? = some f0 := by
  obtain ⟨h1, _⟩ := C113_left_over (k := k) hNs hn (by omega) hfs hf hw hL nbs hr hout hk
  have h2 := vad_rows hd hNs hN (by omega)
  rw [hv] at h2
  refine ⟨_, nodeRows_filled w0 f0 hNs hn h2 h1.le, ?_, ?_⟩
  · unfold filledRows
    simp only
    rw [List.getLast?_cons, List.getLast?_append, List.getLast?_replicate, if_neg (by omega)]
    rfl
  · unfold filledRows
    simp only
    rw [List.getLast?_append, List.getLast?_replicate, if_neg (by omega)]
    rfl

/-- The update times of TI-DANSE nodes, in the order of the schedule. -/
theorem ti_upTimes {n : Nat} {K : Type} [Field K] {g : GivenCfg K} {fs : ℚ} {m : Nat}
    {y : Fin n → List (List K)} {γ : Type} (hg : SyncTI g fs m y) {nbs : List (List Nat)}
    (hn : nbs.length = n) {seq keep sim : Bool} {r start : Nat} {minF : Int} (hr : sim = true → r < n)
    (hstart : start < n) {ordOf : Nat → List Level} (hord : ∀ k < n, CoversNodes n (ordOf k)) {treeOf : Nat → γ}
    {out : List (Instant ℚ)} {fsInf : List ℚ} {trees : List γ}
    (hout : initEventsTI g.bc g.N g.Ns seq keep sim r start minF (syncNodes fs m nbs) ordOf treeOf =
      .ok (out, fsInf, trees)) (hk : k < n) :
    upTimes (flatEvents out) k = syncUpTI g.bc g.N g.Ns m fs := by
  obtain ⟨o1, t1, e1, hmem, _⟩ := C82_schedule (β := γ) (seq := seq) (keep := keep) hg hn minF hr hstart ordOf hord
    treeOf
  rw [hout] at e1
  injection e1 with e1
  injection e1 with e1 _
  subst e1
  subst hn
  obtain ⟨o2, tr, h1, h2, h3, h4⟩ := initEventsTI_sync (β := γ) (seq := seq) (keep := keep) (sim := sim)
    (r := r) hg.shift (by have := hg.overlap; omega) hg.pos hg.rate hg.clock hg.whole hg.L_pos nbs minF hr hstart
    hg.exchange (fun _ _ => hg.update) ordOf treeOf
  rw [hout] at h1
  injection h1 with h1
  injection h1 with h1 _
  subst h1
  have hcov : ∀ o ∈ tr.2, CoversNodes nbs.length o := by
    intro o ho
    rw [h4] at ho
    obtain ⟨j, _, rfl⟩ := List.mem_map.mp ho
    exact hord _ (Nat.mod_lt _ (by omega))
  obtain ⟨g1, _, g3, _⟩ := C01_exactly_once h2 fun _ => by simpa [tiArgs] using hcov
  refine delivered_times g1 g3 k .up ?_ fun t => ?_
  · unfold syncUpTI
    split <;> exact everySep_sorted hg.shift hg.rate _ _
  · rw [hmem t k]
    exact and_iff_right hk

/-- The first update of a node: the number of shifts before it. -/
theorem syncUpTI_everySep (bc : BcType) {N Ns m : Nat} {fs : ℚ} (hNs : 0 < Ns) :
    ∃ a, syncUpTI bc N Ns m fs = everySep Ns fs a ((m - 1) / Ns) ∧ N ≤ a * Ns := by
  unfold syncUpTI
  split
  · refine ⟨_, rfl, ?_⟩
    have := le_ceil_mul (2 * N) Ns hNs
    omega
  · exact ⟨_, rfl, le_ceil_mul N Ns hNs⟩

/-- C113 (d): the same rows in TI-DANSE. -/
theorem C113_rows_ti {n : Nat} {K : Type} [Field K] {g : GivenCfg K} {fs : ℚ} {m : Nat}
    {y : Fin n → List (List K)} {γ : Type} (hg : SyncTI g fs m y) (hm : g.N ≤ m) {nbs : List (List Nat)}
    (hn : nbs.length = n) {seq keep sim : Bool} {r start : Nat} {minF : Int} (hr : sim = true → r < n)
    (hstart : start < n) {ordOf : Nat → List Level} (hord : ∀ k < n, CoversNodes n (ordOf k)) {treeOf : Nat → γ}
    {out : List (Instant ℚ)} {fsInf : List ℚ} {trees : List γ}
    (hout : initEventsTI g.bc g.N g.Ns seq keep sim r start minF (syncNodes fs m nbs) ordOf treeOf =
      .ok (out, fsInf, trees))
    {vad : List ℚ} {p : ℚ} {dec : List Bool} (hv : vad.length = m) (hd : vadPerFrame vad g.N g.Ns p = .ok dec)
    (hk : k < n) (w0 : α) (f0 : β) :
    ∃ s T, nodeRows k upd frm dec w0 f0 m g.N g.Ns (flatEvents out) = .ok s ∧ T = evUps (flatEvents out) k ∧
      T < numIter m g.N g.Ns ∧
      s.filt = w0 :: ((List.range T).map upd ++ List.replicate (numIter m g.N g.Ns - T) w0) ∧
      s.frames = (List.range T).map frm ++ List.replicate (numIter m g.N g.Ns - T) f0 ∧
      s.vads = dec.take T ∧ s.vads.length = T := by
  have hu := ti_upTimes hg hn hr hstart hord hout hk
  obtain ⟨a, ha, hN⟩ := syncUpTI_everySep g.bc (m := m) (fs := fs) (N := g.N) hg.shift
  rw [ha] at hu
  have hT : evUps (flatEvents out) k < numIter m g.N g.Ns := by
    rw [evUps_everySep hu]
    have key : (m - 1) / g.Ns - a ≤ (m - g.N) / g.Ns := by
      rw [Nat.le_div_iff_mul_le hg.shift, Nat.sub_mul]
      have h4 := Nat.div_mul_le_self (m - 1) g.Ns
      omega
    unfold numIter
    omega
  have h2 := vad_rows hd hg.shift hg.overlap.le (by omega)
  rw [hv] at h2
  refine ⟨_, _, nodeRows_filled w0 f0 hg.shift hm h2 hT.le, rfl, hT, rfl, rfl, rfl, ?_⟩
  simp only [filledRows, List.length_take]
  omega

/-- C113 (e): a recording that is more than one shift shorter than a frame is refused. -/
theorem C113_too_short {n N Ns : Nat} (hNs : 0 < Ns) (h : n + 2 * Ns ≤ N) (dec : List Bool) (w0 : α) (f0 : β)
    (evs : List (ℚ × Nat × EvType)) : nodeRows k upd frm dec w0 f0 n N Ns evs = .error .valueError := by
  have h1 : allocIter n N Ns = .ok (((n : Int) - N).tdiv Ns + 1) := by
    unfold allocIter; rw [if_neg (by omega)]
  have h2 : ((n : Int) - N).tdiv Ns + 1 < 0 := by
    have e : (n : Int) - N = -((N - n : Nat) : Int) := by omega
    rw [e, Int.neg_tdiv, Int.tdiv_eq_ediv_of_nonneg (by omega)]
    have : (2 : Int) ≤ ((N - n : Nat) : Int) / (Ns : Int) := by
      rw [Int.le_ediv_iff_mul_le (by omega)]; omega
    omega
  unfold nodeRows allocRows
  rw [h1]
  simp only [bind, Except.bind]
  rw [if_pos h2]

/-- C113 (f): batch runs. They need as many frames as batch updates, although every update uses all frames: with
more updates than frames the run fails. -/
theorem C113_batch {n N Ns B : Nat} (hNs : 0 < Ns) (hn : N ≤ n) (w0 : α) :
    (B ≤ numIter n N Ns → batchRows upd w0 n N Ns B =
      .ok (w0 :: ((List.range B).map upd ++ List.replicate (numIter n N Ns - B) w0))) ∧
    (numIter n N Ns < B → batchRows upd w0 n N Ns B = .error .indexError) := by
  have h0 : batchRows upd w0 n N Ns B = (List.range B).foldlM (fun f i => setRow f (i + 1) (upd i))
      (w0 :: List.replicate (numIter n N Ns) w0) := by
    unfold batchRows allocRows
    rw [allocIter_ok hNs hn]
    simp only [bind, Except.bind]
    rw [if_neg (by omega)]
    simp only
    have e : ((numIter n N Ns : Int) + 1).toNat = numIter n N Ns + 1 := by omega
    rw [e, List.replicate_succ]
  rw [h0]
  refine ⟨fun h => batch_fold upd w0 B h, fun h => ?_⟩
  obtain ⟨d, rfl⟩ : ∃ d, B = numIter n N Ns + (d + 1) := ⟨B - numIter n N Ns - 1, by omega⟩
  rw [List.range_add, List.foldlM_append, batch_fold upd w0 _ le_rfl]
  show List.foldlM _ _ _ = _
  rw [List.range_succ_eq_map, List.map_cons, List.foldlM_cons]
  unfold setRow
  rw [if_neg (by simp)]
  rfl

end

/-! ## C114 -/

/-- The frame of `N` samples from sample `a` on. -/
theorem localChunk_inside {α : Type} [Zero α] {y : List α} {N : Nat} {e : Int} {a : Nat} (he : e = (a + N : Nat))
    (h : a + N ≤ y.length) : localChunk y N e = .ok ((y.drop a).take N, a, e) := by
  subst he
  unfold localChunk
  have e1 : max (((a + N : Nat) : Int) - N) 0 = (a : Int) := by omega
  simp only [e1]
  rw [if_neg (by omega), pySlice_inside y (by omega) h, Nat.add_sub_cancel_left]

theorem floor_index {x Ns : Nat} {fs : ℚ} (hfs : 0 < fs) : ⌊(x : ℚ) * Ns / fs * fs⌋ = (x * Ns : Nat) := by
  rw [div_mul_cancel₀ _ hfs.ne', ← Nat.cast_mul, Int.floor_natCast]

/-- The decision of a complete frame, from the samples of the frame. -/
theorem vad_decision {vad : List ℚ} {N Ns : Nat} {p : ℚ} {dec : List Bool}
    (h : vadPerFrame vad N Ns p = .ok dec) (hNs : 0 < Ns) (hN : Ns ≤ N) {i : Nat}
    (hi : i * Ns + N ≤ vad.length) :
    dec[i]? = some (decide (N * p ≤ ((vad.drop (i * Ns)).take N).sum)) := by
  have hlt : ¬ vad.length / Ns ≤ i := by
    rw [not_le, Nat.lt_iff_add_one_le, Nat.le_div_iff_mul_le hNs, Nat.add_mul]; omega
  rw [vadPerFrame_get h, if_neg hlt, if_pos hi, ← frameDec_eq hi, pySlice_inside vad (by omega) hi,
    Nat.add_sub_cancel_left, length_drop_take _ _ _ hi]

section
variable {N Ns n k : Nat} {fs : Nat → ℚ} {nbs : List (List Nat)} {seq : Bool} {r : Nat} {first minF : Int}
  {out : List (Instant ℚ)} {fsInf : List ℚ}

/-- The updates of a node in a network in which the clocks are inferred without error. -/
theorem fc_update {bc : BcType} (hNs : 0 < Ns) (hn : 0 < n) (hw : bc = .whole → Ns ∣ N)
    (hL : ∀ L eff, bc = .few L eff → 0 < L ∧ eff = false)
    (hfs : ∀ k < nbs.length, 0 < fs k ∧ inferFs (clockStamps (fs k) n) = .ok (fs k))
    (hout : initEventsFC bc N Ns seq false r first minF (asyncNodes fs n nbs) = .ok (out, fsInf))
    (hk : k < nbs.length) {i : Nat} {t : ℚ} (hu : UpdateAt (flatEvents out) k i t) :
    ⌊t * fs k⌋ = ((⌈(N : ℚ) / Ns⌉₊ * Ns + i * Ns : Nat) : Int) ∧ ⌈(N : ℚ) / Ns⌉₊ * Ns + i * Ns < n ∧
      i * Ns + N < n := by
  obtain ⟨out', h1, h2, _⟩ := C95_schedule (seq := seq) hNs hn nbs hw
    (fun L eff h => ⟨(hL L eff h).1, (hL L eff h).2, fun k hk => ClockClose.self n L (hfs k hk).1⟩)
    (fun k hk => ⟨(hfs k hk).1, (hfs k hk).1, (hfs k hk).2, ClockClose.self n Ns (hfs k hk).1⟩) r first minF
  rw [hout] at h1
  injection h1 with h1
  injection h1 with h1 _
  subst h1
  obtain ⟨h3, rfl⟩ := hu.everySep (h2 k hk).1
  obtain ⟨g1, _⟩ := hfs k hk
  have h4 := steps_inside hn hNs g1 g1 (ClockClose.self n Ns g1) h3
  refine ⟨?_, ?_, complete_frame hn hNs g1 g1 (ClockClose.self n Ns g1) h3⟩
  · rw [floor_index g1, Nat.add_mul]
  · rwa [Nat.add_mul] at h4

/-- C114 (a): few-sample broadcasts. The update with index `i` processes `N` samples from sample
`i Ns + lag` on, `lag = ⌈N/Ns⌉ Ns - N`; the decision with that index is about the `N` samples from `i Ns` on.
The lag is less than a shift, and zero if the shift divides the frame length: then the decision is about the
samples that are processed. -/
theorem C114_few_samples {L : Nat} (hNs : 0 < Ns) (hN : Ns ≤ N) (hn : 0 < n) (hL : 0 < L)
    (hfs : ∀ k < nbs.length, 0 < fs k ∧ inferFs (clockStamps (fs k) n) = .ok (fs k))
    (hout : initEventsFC (.few L false) N Ns seq false r first minF (asyncNodes fs n nbs) = .ok (out, fsInf))
    (hk : k < nbs.length) {i : Nat} {t : ℚ} (hu : UpdateAt (flatEvents out) k i t)
    {vad : List ℚ} {p : ℚ} {dec : List Bool} (hv : vad.length = n) (hd : vadPerFrame vad N Ns p = .ok dec) :
    ∃ lag < Ns, (Ns ∣ N → lag = 0) ∧
      (∀ {α : Type} [Zero α] (y : List α), y.length = n → chunkForUpdate y t (fs k) "fewSamples" N Ns =
        .ok ((y.drop (i * Ns + lag)).take N, (i * Ns + lag : Nat), (i * Ns + lag + N : Nat))) ∧
      dec[i]? = some (decide (N * p ≤ ((vad.drop (i * Ns)).take N).sum)) := by
  obtain ⟨h1, h2, h3⟩ := fc_update hNs hn (fun h => by cases h)
    (fun L' eff h => by injection h with h4 h5; exact ⟨h4 ▸ hL, h5.symm⟩) hfs hout hk hu
  have h4 := le_ceil_mul N Ns hNs
  have h5 := ceil_mul_lt N Ns hNs
  refine ⟨⌈(N : ℚ) / Ns⌉₊ * Ns - N, by omega, fun hd => ?_, ?_, vad_decision hd hNs hN (by omega)⟩
  · rw [ceil_mul_of_dvd hNs hd]; omega
  · intro α _ y hy
    unfold chunkForUpdate
    rw [if_pos rfl, h1]
    have e : (⌈(N : ℚ) / Ns⌉₊ * Ns + i * Ns : Nat) = i * Ns + (⌈(N : ℚ) / Ns⌉₊ * Ns - N) + N := by omega
    rw [e]
    exact localChunk_inside rfl (by omega)

/-- C114 (b): whole-chunk broadcasts. The update with index `i` processes the `N` samples before sample
`i Ns + Ns`, zeros before the start; the decision with that index is about the `N` samples from `i Ns` on, that
is, `N - Ns` samples later. -/
theorem C114_whole_chunk (hNs : 0 < Ns) (hN : Ns ≤ N) (hd : Ns ∣ N) (hn : 0 < n)
    (hfs : ∀ k < nbs.length, 0 < fs k ∧ inferFs (clockStamps (fs k) n) = .ok (fs k))
    (hout : initEventsFC .whole N Ns seq false r first minF (asyncNodes fs n nbs) = .ok (out, fsInf))
    (hk : k < nbs.length) {i : Nat} {t : ℚ} (hu : UpdateAt (flatEvents out) k i t)
    {vad : List ℚ} {p : ℚ} {dec : List Bool} (hv : vad.length = n) (hdec : vadPerFrame vad N Ns p = .ok dec) :
    (∀ {α : Type} [Zero α] (y : List α), y.length = n → ∃ c b e, chunkForUpdate y t (fs k) "wholeChunk" N Ns =
        .ok (c, b, e) ∧ LastSamples N (y.take (i * Ns + Ns)) c) ∧
      dec[i]? = some (decide (N * p ≤ ((vad.drop (i * Ns)).take N).sum)) := by
  obtain ⟨h1, h2, h3⟩ := fc_update hNs hn (fun _ => hd) (fun L' eff h => by cases h) hfs hout hk hu
  rw [ceil_mul_of_dvd hNs hd] at h1 h2
  refine ⟨?_, vad_decision hdec hNs hN (by omega)⟩
  intro α _ y hy
  have e : ⌊t * fs k⌋ - ((N : Int) - Ns) = ((i * Ns + Ns : Nat) : Int) := by
    rw [h1]; push_cast; ring
  obtain ⟨c, h4, h5⟩ := localChunk_ok (y := y) (N := N) (e := ((i * Ns + Ns : Nat) : Int)) (by omega) (by omega)
  have h6 : chunkForUpdate y t (fs k) "wholeChunk" N Ns = localChunk y N ((i * Ns + Ns : Nat) : Int) := by
    unfold chunkForUpdate
    rw [if_neg (by decide), if_pos rfl, e]
  exact ⟨c, _, _, h6.trans h4, by rwa [Int.toNat_natCast] at h5⟩

theorem sum_step {a b c N : Nat} (x y : ℚ) (h1 : c ≤ a) (h2 : a ≤ c + N) (h3 : c + N ≤ a + b) :
    (((List.replicate a x ++ List.replicate b y).drop c).take N).sum = (a - c : Nat) * x + (c + N - a : Nat) * y := by
  rw [List.drop_append, List.take_append, List.drop_replicate, List.drop_replicate, List.take_replicate,
    List.take_replicate, List.sum_append]
  simp only [List.length_replicate, List.sum_replicate, nsmul_eq_mul]
  have e1 : min N (a - c) = a - c := by omega
  have e2 : min (N - (a - c)) (b - (c - a)) = c + N - a := by omega
  rw [e1, e2]

/-- C114 (c), refuted: that the decision is about the samples that are processed, with whole-chunk broadcasts.
For every overlap such that the part of a frame which is new is not more than `1 - p` of it (`p` is
`vadMinProportionActive`; by default 1/2, with 50 % overlap), and every update, there is a voice activity for
which the update counts as speech although no sample that it processes has any. -/
theorem C114_refuted_whole_chunk (hNs : 0 < Ns) (hN : Ns ≤ N) (hd : Ns ∣ N) (hn : 0 < n)
    (hfs : ∀ k < nbs.length, 0 < fs k ∧ inferFs (clockStamps (fs k) n) = .ok (fs k))
    (hout : initEventsFC .whole N Ns seq false r first minF (asyncNodes fs n nbs) = .ok (out, fsInf))
    (hk : k < nbs.length) {i : Nat} {t : ℚ} (hu : UpdateAt (flatEvents out) k i t) {p : ℚ}
    (hp : N * p ≤ N - Ns) :
    ∃ (vad : List ℚ) (dec : List Bool) (c : List ℚ) (b e : Int), vad.length = n ∧ (∀ x ∈ vad, x = 0 ∨ x = 1) ∧
      vadPerFrame vad N Ns p = .ok dec ∧ dec[i]? = some true ∧
      chunkForUpdate vad t (fs k) "wholeChunk" N Ns = .ok (c, b, e) ∧ ∀ x ∈ c, x = 0 := by
  obtain ⟨_, _, h3⟩ := fc_update hNs hn (fun _ => hd) (fun L' eff h => by cases h) hfs hout hk hu
  set vad : List ℚ := List.replicate (i * Ns + Ns) 0 ++ List.replicate (n - (i * Ns + Ns)) 1 with hvad
  have hlen : vad.length = n := by simp [hvad]; omega
  obtain ⟨dec, hdec⟩ : ∃ dec, vadPerFrame vad N Ns p = .ok dec := by
    unfold vadPerFrame
    rw [if_neg (by omega), if_neg (by omega)]
    exact ⟨_, rfl⟩
  obtain ⟨h4, h5⟩ := C114_whole_chunk hNs hN hd hn hfs hout hk hu hlen hdec
  obtain ⟨c, b, e, h6, h7⟩ := h4 vad hlen
  refine ⟨vad, dec, c, b, e, hlen, ?_, hdec, ?_, h6, ?_⟩
  · intro x hx
    rcases List.mem_append.mp hx with hx | hx
    · exact Or.inl (List.eq_of_mem_replicate hx)
    · exact Or.inr (List.eq_of_mem_replicate hx)
  · rw [h5, hvad, sum_step _ _ (by omega) (by omega) (by omega), decide_eq_true]
    have : ((i * Ns + N - (i * Ns + Ns) : Nat) : ℚ) = N - Ns := by
      rw [show i * Ns + N - (i * Ns + Ns) = N - Ns by omega, Nat.cast_sub hN]
    rw [this]
    linarith
  · intro x hx
    obtain ⟨_, pre, h8⟩ := h7
    have hx' : x ∈ List.replicate N 0 ++ vad.take (i * Ns + Ns) := by
      rw [h8]; exact List.mem_append_right _ hx
    rcases List.mem_append.mp hx' with hx' | hx'
    · exact List.eq_of_mem_replicate hx'
    · rw [hvad, List.take_append_of_le_length (by simp), List.take_replicate] at hx'
      exact List.eq_of_mem_replicate hx'

end

section
variable {n : Nat} {K : Type} [Field K] {g : GivenCfg K} {fs : ℚ} {m k : Nat} {y : Fin n → List (List K)}
  {γ : Type} {nbs : List (List Nat)} {seq keep sim : Bool} {r start : Nat} {minF : Int} {ordOf : Nat → List Level}
  {treeOf : Nat → γ} {out : List (Instant ℚ)} {fsInf : List ℚ} {trees : List γ}

/-- C114 (d): TI-DANSE, few-sample broadcasts: as in a fully connected network. -/
theorem C114_few_samples_ti (hg : SyncTI g fs m y) {L : Nat} {eff : Bool} (hb : g.bc = .few L eff)
    (hn : nbs.length = n) (hr : sim = true → r < n)
    (hstart : start < n) (hord : ∀ k < n, CoversNodes n (ordOf k))
    (hout : initEventsTI g.bc g.N g.Ns seq keep sim r start minF (syncNodes fs m nbs) ordOf treeOf =
      .ok (out, fsInf, trees)) (hk : k < n) {i : Nat} {t : ℚ} (hu : UpdateAt (flatEvents out) k i t)
    {vad : List ℚ} {p : ℚ} {dec : List Bool} (hv : vad.length = m) (hd : vadPerFrame vad g.N g.Ns p = .ok dec) :
    ∃ lag < g.Ns, (g.Ns ∣ g.N → lag = 0) ∧
      (∀ {α : Type} [Zero α] (x : List α), x.length = m → chunkForUpdate x t fs "fewSamples" g.N g.Ns =
        .ok ((x.drop (i * g.Ns + lag)).take g.N, (i * g.Ns + lag : Nat), (i * g.Ns + lag + g.N : Nat))) ∧
      dec[i]? = some (decide (g.N * p ≤ ((vad.drop (i * g.Ns)).take g.N).sum)) := by
  have h0 := ti_upTimes hg hn hr hstart hord hout hk
  rw [hb] at h0
  obtain ⟨h1, rfl⟩ := hu.everySep (by simpa only [syncUpTI] using h0)
  have h2 := mul_lt_of_lt_div hg.pos hg.shift h1
  rw [Nat.add_mul] at h2
  have h4 := le_ceil_mul g.N g.Ns hg.shift
  have h5 := ceil_mul_lt g.N g.Ns hg.shift
  refine ⟨⌈(g.N : ℚ) / g.Ns⌉₊ * g.Ns - g.N, by omega, fun hd => ?_, ?_,
    vad_decision hd hg.shift hg.overlap.le (by omega)⟩
  · rw [ceil_mul_of_dvd hg.shift hd]; omega
  · intro α _ x hx
    unfold chunkForUpdate
    rw [if_pos rfl, floor_index hg.rate, Nat.add_mul]
    have e : (⌈(g.N : ℚ) / g.Ns⌉₊ * g.Ns + i * g.Ns : Nat) =
        i * g.Ns + (⌈(g.N : ℚ) / g.Ns⌉₊ * g.Ns - g.N) + g.N := by omega
    rw [e]
    exact localChunk_inside rfl (by omega)

/-- C114 (e): TI-DANSE, whole-chunk broadcasts: the samples that are processed start one shift after those of
the decision. -/
theorem C114_whole_chunk_ti (hg : SyncTI g fs m y) (hb : g.bc = .whole)
    (hn : nbs.length = n) (hr : sim = true → r < n)
    (hstart : start < n) (hord : ∀ k < n, CoversNodes n (ordOf k))
    (hout : initEventsTI g.bc g.N g.Ns seq keep sim r start minF (syncNodes fs m nbs) ordOf treeOf =
      .ok (out, fsInf, trees)) (hk : k < n) {i : Nat} {t : ℚ} (hu : UpdateAt (flatEvents out) k i t)
    {vad : List ℚ} {p : ℚ} {dec : List Bool} (hv : vad.length = m) (hd : vadPerFrame vad g.N g.Ns p = .ok dec) :
    i * g.Ns + g.Ns + g.N < m ∧
      (∀ {α : Type} [Zero α] (x : List α), x.length = m → chunkForUpdate x t fs "wholeChunk" g.N g.Ns =
        .ok ((x.drop (i * g.Ns + g.Ns)).take g.N, (i * g.Ns + g.Ns : Nat), (i * g.Ns + g.Ns + g.N : Nat))) ∧
      dec[i]? = some (decide (g.N * p ≤ ((vad.drop (i * g.Ns)).take g.N).sum)) := by
  have h0 := ti_upTimes hg hn hr hstart hord hout hk
  rw [hb] at h0
  obtain ⟨h1, rfl⟩ := hu.everySep (by simpa only [syncUpTI] using h0)
  have h2 := mul_lt_of_lt_div hg.pos hg.shift h1
  have h3 := ceil_mul_of_dvd hg.shift (N := 2 * g.N) (Dvd.dvd.mul_left (hg.whole hb) 2)
  rw [Nat.add_mul, h3] at h2
  have := hg.overlap
  refine ⟨by omega, ?_, vad_decision hd hg.shift hg.overlap.le (by omega)⟩
  intro α _ x hx
  unfold chunkForUpdate
  rw [if_neg (by decide), if_pos rfl, floor_index hg.rate, Nat.add_mul, h3]
  have e : ((2 * g.N + i * g.Ns : Nat) : Int) - ((g.N : Int) - g.Ns) = (i * g.Ns + g.Ns + g.N : Nat) := by
    push_cast; ring
  rw [e]
  exact localChunk_inside rfl (by omega)

/-- C114 (f), refuted for TI-DANSE with whole-chunk broadcasts, if the proportion `p` of active samples that is
asked for is at most one shift (by default: one half, with 50 % overlap). -/
theorem C114_refuted_whole_chunk_ti (hg : SyncTI g fs m y) (hb : g.bc = .whole)
    (hn : nbs.length = n) (hr : sim = true → r < n)
    (hstart : start < n) (hord : ∀ k < n, CoversNodes n (ordOf k))
    (hout : initEventsTI g.bc g.N g.Ns seq keep sim r start minF (syncNodes fs m nbs) ordOf treeOf =
      .ok (out, fsInf, trees)) (hk : k < n) {i : Nat} {t : ℚ} (hu : UpdateAt (flatEvents out) k i t) {p : ℚ}
    (hp : g.N * p ≤ g.Ns) :
    ∃ (vad : List ℚ) (dec : List Bool) (c : List ℚ) (b e : Int), vad.length = m ∧ (∀ x ∈ vad, x = 0 ∨ x = 1) ∧
      vadPerFrame vad g.N g.Ns p = .ok dec ∧ dec[i]? = some true ∧
      chunkForUpdate vad t fs "wholeChunk" g.N g.Ns = .ok (c, b, e) ∧ ∀ x ∈ c, x = 0 := by
  have hb' : i * g.Ns + g.Ns + g.N < m := by
    have hd0 : vadPerFrame (List.replicate m 0) g.N g.Ns p =
        .ok (vadFrameLoop (List.replicate m 0) g.N g.Ns p (m / g.Ns) 0 (List.replicate (m / g.Ns) false)) := by
      unfold vadPerFrame
      have := hg.pos
      have := hg.shift
      rw [if_neg (by simp; omega), if_neg (by omega)]
      simp
    exact (C114_whole_chunk_ti hg hb hn hr hstart hord hout hk hu (List.length_replicate ..) hd0).1
  have hov := hg.overlap
  have hsh := hg.shift
  set vad : List ℚ := List.replicate (i * g.Ns + g.Ns) 1 ++ List.replicate (m - (i * g.Ns + g.Ns)) 0 with hvad
  have hlen : vad.length = m := by simp [hvad]; omega
  obtain ⟨dec, hdec⟩ : ∃ dec, vadPerFrame vad g.N g.Ns p = .ok dec := by
    unfold vadPerFrame
    rw [if_neg (by omega), if_neg (by omega)]
    exact ⟨_, rfl⟩
  obtain ⟨_, h4, h5⟩ := C114_whole_chunk_ti hg hb hn hr hstart hord hout hk hu hlen hdec
  have h6 := h4 vad hlen
  refine ⟨vad, dec, _, _, _, hlen, ?_, hdec, ?_, h6, ?_⟩
  · intro x hx
    rcases List.mem_append.mp hx with hx | hx
    · exact Or.inr (List.eq_of_mem_replicate hx)
    · exact Or.inl (List.eq_of_mem_replicate hx)
  · rw [h5, hvad, sum_step _ _ (by omega) (by omega) (by omega), decide_eq_true]
    rw [show i * g.Ns + g.Ns - i * g.Ns = g.Ns by omega]
    linarith
  · intro x hx
    have := List.mem_of_mem_take hx
    rw [hvad, List.drop_append, List.drop_eq_nil_of_le (by simp), List.nil_append] at this
    exact List.eq_of_mem_replicate (List.mem_of_mem_drop this)

end

/-! ## Concrete cases -/

/-- `C113_rows` in the network of `C95_schedule` (two clocks, seven samples per node, `N = 2`, `Ns = 1`): its
hypotheses are met. Of six rows four are filled. The VAD decisions that are read are the first four. -/
example : vadPerFrame [0, 0, 1, 1, 0, 0, 1] 2 1 (1 / 2) = .ok [false, true, true, true, false, true, false] ∧
    (∀ k < 2, ClockClose 7 1 (exFs k) (exFs k)) ∧ numIter 7 2 1 = 6 ∧
    (nodeRows 1 (fun i => 10 + i) (fun i => 20 + i) [false, true, true, true, false, true, false] 7 0 7 2 1
      exAsyncEvs).toOption = some ⟨4, [7, 10, 11, 12, 13, 7, 7], [20, 21, 22, 23, 0, 0],
        [false, true, true, true]⟩ := by
  refine ⟨by decide +kernel, fun k hk => ?_, rfl, by decide +kernel⟩
  refine ClockClose.self _ _ ?_
  unfold exFs
  split <;> norm_num

/-- Three rows are not enough for eight updates. -/
example : (nodeRows 0 (fun i => i) (fun i => i) [false, true, true, true, false, true] 0 0 6 4 1
    (exAsyncEvs ++ exAsyncEvs)).toOption = none := by decide +kernel

/-- `UpdateAt`: the third update of node 0 in this schedule is at time 4. -/
example : UpdateAt exAsyncEvs 0 2 4 := ⟨exAsyncEvs.take 14, exAsyncEvs.drop 15, by decide +kernel, by decide +kernel⟩

/-- `C114_few_samples` for this update: it processes the samples 2 and 3; decision 2 is about them. -/
example : (chunkForUpdate [(0 : ℚ), 0, 1, 1, 0, 0, 1] 4 1 "fewSamples" 2 1).toOption = some ([1, 1], 2, 4) := by
  decide +kernel

set_option maxHeartbeats 4000000 in
/-- Whole-chunk broadcasts in this network: the third update of node 0 is again at time 4 ... -/
example : (initEventsFC .whole 2 1 true false 0 0 1 (asyncNodes exFs 7 [[1], [0]])).toOption.map
    (fun o => upTimes (flatEvents o.1) 0) = some [2, 3, 4, 5] := by
  decide_cbv

/-- ... but processes the samples 1 and 2. `2 * (1 / 2) ≤ 2 - 1`: `C114_refuted_whole_chunk` applies; with voice
activity from sample 3 on, decision 2 is positive and the samples have none. -/
example : (chunkForUpdate [(0 : ℚ), 0, 0, 1, 1, 1, 1] 4 1 "wholeChunk" 2 1).toOption = some ([0, 0], 1, 3) ∧
    vadPerFrame [0, 0, 0, 1, 1, 1, 1] 2 1 (1 / 2) = .ok [false, false, true, true, true, true, false] ∧
    ((2 : Nat) : ℚ) * (1 / 2) ≤ (2 : Nat) - (1 : Nat) := by
  refine ⟨by decide +kernel, by decide +kernel, by norm_num⟩

/-- TI-DANSE: the hypotheses of `C113_rows_ti`, `C114_whole_chunk_ti` and `C114_refuted_whole_chunk_ti` are met by
the run of `C82_schedule`; the second update is at time 5 and processes the samples 2 and 3. With voice activity
up to sample 1 decision 1 is positive. -/
example : (exTI .whole).N ≤ 7 ∧ ((exTI .whole).N : ℚ) * (1 / 2) ≤ (exTI .whole).Ns ∧
    upTimes (flatEvents exTIOut) 3 = [4, 5] ∧
    (chunkForUpdate [(1 : ℚ), 1, 0, 0, 0, 0, 0] 5 1 "wholeChunk" 2 1).toOption = some ([0, 0], 2, 4) ∧
    vadPerFrame [1, 1, 0, 0, 0, 0, 0] 2 1 (1 / 2) = .ok [true, true, false, false, false, false, false] := by
  refine ⟨by decide, ?_, by decide +kernel, by decide +kernel, by decide +kernel⟩
  show ((2 : Nat) : ℚ) * (1 / 2) ≤ ((1 : Nat) : ℚ)
  norm_num

/-- Three frames: three batch updates are possible, four are not. -/
example : (batchRows (fun i => 10 + i) 7 6 4 1 3).toOption = some [7, 10, 11, 12] ∧
    (batchRows (fun i => 10 + i) 7 6 4 1 2).toOption = some [7, 10, 11, 7] ∧
    (batchRows (fun i => 10 + i) 7 6 4 1 4).toOption = none := by decide +kernel

/-- A recording of one sample and frames of four. -/
example : (match nodeRows 0 (fun i => i) (fun i => i) [] 0 0 1 4 1 ([] : List (ℚ × Nat × EvType)) with
    | .ok _ => none | .error e => some e) = some PyErr.valueError := by decide +kernel

end Danse
