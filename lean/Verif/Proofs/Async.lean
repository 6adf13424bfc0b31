import Verif.Proofs.Sched2
import Verif.Proofs.Total4
import Verif.Props.Clock
import Mathlib.Algebra.Order.Floor.Semifield
import Verif.Spec.Async

/-! # Helper lemmas: networks of nodes with different clocks -/

namespace Danse

theorem ClockClose.sep_le {n s s' : Nat} {fs f : ℚ} (hfs : 0 < fs) (hf : 0 < f) (hs : s ≤ s')
    (h : ClockClose n s fs f) : ClockClose n s' fs f := by
  unfold ClockClose at h ⊢
  have : (s : ℚ) ≤ s' := by exact_mod_cast hs
  have : (s : ℚ) * f * fs ≤ s' * f * fs := by gcongr
  linarith

theorem ClockClose.self (n s : Nat) {fs : ℚ} (hfs : 0 < fs) : ClockClose n s fs fs := by
  unfold ClockClose
  have : (0 : ℚ) ≤ s * fs * fs := by positivity
  linarith

/-- A clock that is believed to be too slow never overruns. -/
theorem ClockClose.of_le (n s : Nat) {fs f : ℚ} (hf : 0 < f) (h : f ≤ fs) : ClockClose n s fs f := by
  unfold ClockClose
  have h1 : (0 : ℚ) ≤ s * f * fs := by have : 0 ≤ fs := hf.le.trans h; positivity
  have h2 : ((n - 1 : Nat) : ℚ) * f ^ 2 ≤ ((n - 1 : Nat) : ℚ) * fs ^ 2 := by gcongr
  linarith

theorem lt_stepsIn {n sep j : Nat} (hs : 0 < sep) {fs f : ℚ} (hfs : 0 < fs) (hf : 0 < f)
    (h : j < stepsIn n sep fs f) : ((j + 1 : Nat) : ℚ) * sep * fs ≤ ((n - 1 : Nat) : ℚ) * f := by
  unfold stepsIn at h
  have h1 : ((j + 1 : Nat) : ℚ) ≤ ((n - 1 : Nat) : ℚ) / fs * f / sep := by
    refine (Nat.le_floor_iff (by positivity)).mp h
  have hs' : (0 : ℚ) < sep := by exact_mod_cast hs
  rw [le_div_iff₀ hs', div_mul_eq_mul_div, le_div_iff₀ hfs] at h1
  exact h1

/-- The sample indices computed with the inferred frequency are inside the recording. -/
theorem floor_inside {n sep j : Nat} (hn : 0 < n) (hs : 0 < sep) {fs f : ℚ} (hfs : 0 < fs) (hf : 0 < f)
    (hc : ClockClose n sep fs f) (h : j < stepsIn n sep fs f) :
    ⌊((j : ℚ) * sep / fs) * f⌋ ≤ n := by
  have h1 := lt_stepsIn hs hfs hf h
  unfold ClockClose at hc
  have h2 : (j : ℚ) * sep / fs * f ≤ ((n - 1 : Nat) : ℚ) := by
    rw [div_mul_eq_mul_div, div_le_iff₀ hfs]
    have h3 : ((j + 1 : Nat) : ℚ) * sep * fs * f ≤ ((n - 1 : Nat) : ℚ) * f * f := by gcongr
    push_cast at h3
    have h4 : (j : ℚ) * sep * f * fs ≤ ((n - 1 : Nat) : ℚ) * fs * fs := by nlinarith
    exact le_of_mul_le_mul_right h4 hfs
  have h5 : ⌊((j : ℚ) * sep / fs) * f⌋ ≤ ((n - 1 : Nat) : Int) := by
    rw [← Int.floor_natCast (R := ℚ)]
    exact Int.floor_le_floor h2
  omega

theorem steps_inside {n sep j : Nat} (hn : 0 < n) (hs : 0 < sep) {fs f : ℚ} (hfs : 0 < fs) (hf : 0 < f)
    (hc : ClockClose n sep fs f) (h : j < stepsIn n sep fs f) : j * sep < n := by
  have h1 := lt_stepsIn hs hfs hf h
  unfold ClockClose at hc
  have h0 : (0 : ℚ) ≤ ((n - 1 : Nat) : ℚ) := by positivity
  have h2 : ((j * sep : Nat) : ℚ) ≤ ((n - 1 : Nat) : ℚ) := by
    push_cast at h1 ⊢
    rcases le_or_gt f fs with hle | hlt
    · have : ((n - 1 : Nat) : ℚ) * f ≤ ((n - 1 : Nat) : ℚ) * fs := by gcongr
      have h3 : (j : ℚ) * sep * fs ≤ ((n - 1 : Nat) : ℚ) * fs := by
        have : (0 : ℚ) ≤ sep * fs := by positivity
        nlinarith
      exact le_of_mul_le_mul_right h3 hfs
    · have h3 : ((j : ℚ) + 1) * sep * fs * f ≤ ((n - 1 : Nat) : ℚ) * f * f := by gcongr
      have h4 : (j : ℚ) * sep * (fs * f) ≤ ((n - 1 : Nat) : ℚ) * fs * fs := by nlinarith
      have h5 : ((n - 1 : Nat) : ℚ) * fs * fs ≤ ((n - 1 : Nat) : ℚ) * (fs * f) := by
        rw [mul_assoc]
        gcongr
      exact le_of_mul_le_mul_right (h4.trans h5) (by positivity)
  have : j * sep ≤ n - 1 := by exact_mod_cast h2
  omega

theorem floor_steps {n sep : Nat} {fs f : ℚ} (hfs : 0 < fs) (hf : 0 < f) :
    ⌊((n - 1 : Nat) : ℚ) / fs * f / sep⌋ = ((stepsIn n sep fs f : Nat) : Int) := by
  unfold stepsIn
  exact (Int.natCast_floor_eq_floor (by positivity)).symm

theorem generateAligned_async {n sep a : Nat} (hn : 0 < n) (hs : 0 < sep) {fs f : ℚ} (hfs : 0 < fs)
    (hf : 0 < f) (hc : ClockClose n sep fs f) :
    generateAligned (a : ℚ) ⌊((n - 1 : Nat) : ℚ) / fs * f / sep⌋ sep fs (clockStamps fs n) =
      .ok (everySep sep fs a (stepsIn n sep fs f)) := by
  rw [floor_steps hfs hf]
  exact generateAligned_clock hs fun j hj => steps_inside hn hs hfs hf hc hj

theorem mapM_zipIdx_async {β : Type} {fs : Nat → ℚ} {n : Nat} (nbs : List (List Nat))
    {F : ClockNode × Nat → Except PyErr β} {b : Nat → β}
    (h : ∀ k < nbs.length, ∀ nb, F (⟨fs k, clockStamps (fs k) n, nb⟩, k) = .ok (b k)) :
    (asyncNodes fs n nbs).zipIdx.mapM F = .ok ((List.range nbs.length).map b) := by
  have key : ∀ l : List (ClockNode × Nat), (∀ x ∈ l, F x = .ok (b x.2)) →
      l.mapM F = .ok (l.map fun x => b x.2) := by
    intro l
    induction l with
    | nil => intro _; rfl
    | cons a l ih =>
      intro hl
      rw [List.mapM_cons, hl a List.mem_cons_self, ih fun x hx => hl x (List.mem_cons_of_mem _ hx)]
      rfl
  rw [key]
  · congr 1
    show List.map (b ∘ Prod.snd) (asyncNodes fs n nbs).zipIdx = _
    rw [← List.map_map, List.zipIdx_map_snd]
    simp [asyncNodes, List.range_eq_range']
  · rintro ⟨x, k⟩ hx
    have hx' := List.mem_zipIdx hx
    simp only [asyncNodes, List.length_map, List.length_zipIdx, List.getElem_map, List.getElem_zipIdx] at hx'
    rw [hx'.2.2]
    simp only [Nat.sub_zero, Nat.zero_add]
    exact h k (by omega) _

theorem mapM_async {β : Type} {fs : Nat → ℚ} {n : Nat} (nbs : List (List Nat))
    {F : ClockNode → Except PyErr β} {b : Nat → β}
    (h : ∀ k < nbs.length, ∀ nb, F ⟨fs k, clockStamps (fs k) n, nb⟩ = .ok (b k)) :
    (asyncNodes fs n nbs).mapM F = .ok ((List.range nbs.length).map b) := by
  rw [← mapM_zipIdx_async (F := fun x => F x.1) nbs fun k hk nb => h k hk nb]
  conv_lhs => rw [← List.zipIdx_map_fst 0 (asyncNodes fs n nbs)]
  rw [List.mapM_map]
  rfl

theorem getD_range_map {k K : Nat} (h : k < K) (f : Nat → ℚ) (d : ℚ) :
    ((List.range K).map f).getD k d = f k := by
  rw [List.getD_eq_getElem?_getD, List.getElem?_eq_getElem (by simpa using h), Option.getD_some]
  simp

/-- The schedule of an asynchronous network. -/
theorem initEventsFC_async {bc : BcType} {N Ns n : Nat} (hNs : 0 < Ns) (hn : 0 < n) {fs f : Nat → ℚ}
    (nbs : List (List Nat)) (hw : bc = .whole → Ns ∣ N)
    (hL : ∀ L eff, bc = .few L eff → 0 < L ∧ eff = false ∧
      ∀ k < nbs.length, ClockClose n L (fs k) (f k))
    (hfs : ∀ k < nbs.length, 0 < fs k ∧ 0 < f k ∧ inferFs (clockStamps (fs k) n) = .ok (f k) ∧
      ClockClose n Ns (fs k) (f k)) {seq : Bool} (r : Nat) (first minF : Int) :
    ∃ out, initEventsFC bc N Ns seq false r first minF (asyncNodes fs n nbs) =
        .ok (out, (List.range nbs.length).map f) ∧
      (∃ a, buildEvents a = .ok out ∧ a.tiFlag = false) ∧
      (∀ k < nbs.length,
        upTimes (flatEvents out) k = everySep Ns (fs k) ⌈(N : ℚ) / Ns⌉₊ (stepsIn n Ns (fs k) (f k)) ∧
        bcTimes (flatEvents out) k = asyncBc bc N Ns n (fs k) (f k)) ∧
      ∀ ev ∈ flatEvents out, ev.2.1 < nbs.length ∧ (ev.2.2 = .up ∨ ev.2.2 = .bc) := by
  have hlast : (asyncNodes fs n nbs).mapM (fun n => pyGet n.stamps (-1)) =
      .ok ((List.range nbs.length).map fun k => ((n - 1 : Nat) : ℚ) / fs k) :=
    mapM_async nbs fun k _ nb => clockStamps_last hn
  have hbase : baseChecks ((asyncNodes fs n nbs).map (·.stamps)) false r =
      .ok ((List.range nbs.length).map f) := by
    unfold baseChecks
    rw [List.mapM_map]
    have : List.mapM (inferFs ∘ fun x : ClockNode => x.stamps) (asyncNodes fs n nbs) =
        .ok ((List.range nbs.length).map f) := mapM_async nbs fun k hk nb => (hfs k hk).2.2.1
    rw [this]
    rfl
  have hub : fcInstants bc N Ns (asyncNodes fs n nbs) ((List.range nbs.length).map f)
      ((List.range nbs.length).map fun k => ((n - 1 : Nat) : ℚ) / fs k) =
      .ok ((List.range nbs.length).map fun k =>
          everySep Ns (fs k) ⌈(N : ℚ) / Ns⌉₊ (stepsIn n Ns (fs k) (f k)),
        (List.range nbs.length).map fun k => asyncBc bc N Ns n (fs k) (f k)) := by
    have gen : ∀ (a sep : Nat) (aq : ℚ), aq = a → 0 < sep →
        (∀ k < nbs.length, ClockClose n sep (fs k) (f k)) →
        (asyncNodes fs n nbs).zipIdx.mapM (fun x : ClockNode × Nat =>
          generateAligned aq ⌊((List.range nbs.length).map fun k => ((n - 1 : Nat) : ℚ) / fs k).getD x.2 0 *
            ((List.range nbs.length).map f).getD x.2 0 / sep⌋ sep x.1.fs x.1.stamps) =
          .ok ((List.range nbs.length).map fun k => everySep sep (fs k) a (stepsIn n sep (fs k) (f k))) := by
      intro a sep aq haq hsep hcl
      subst haq
      refine mapM_zipIdx_async nbs fun k hk nb => ?_
      simp only
      rw [getD_range_map hk, getD_range_map hk]
      exact generateAligned_async hn hsep (hfs k hk).1 (hfs k hk).2.1 (hcl k hk)
    unfold fcInstants
    simp only
    rw [gen ⌈(N : ℚ) / Ns⌉₊ Ns _ (ceil_cast N Ns) hNs fun k hk => (hfs k hk).2.2.2]
    simp only [bind, Except.bind]
    match bc, hw, hL with
    | .whole, hw, _ =>
      simp only [asyncBc]
      rw [gen (N / Ns) Ns _ (by rw [Nat.cast_div (hw rfl) (by positivity)]) hNs
        fun k hk => (hfs k hk).2.2.2]
    | .few L false, _, hL =>
      simp only [asyncBc]
      rw [gen 1 L _ (by norm_num) (hL L false rfl).1 (hL L false rfl).2.2]
    | .few L true, _, hL => exact absurd (hL L true rfl).2.1 (by simp)
  set up := (List.range nbs.length).map fun k =>
    everySep Ns (fs k) ⌈(N : ℚ) / Ns⌉₊ (stepsIn n Ns (fs k) (f k)) with hupdef
  set b := (List.range nbs.length).map fun k => asyncBc bc N Ns n (fs k) (f k) with hbdef
  have ht := fcArgs_ti up b seq first minF nbs.length
  obtain ⟨out, ho⟩ := C01_schedule_produced (fcArgs up b seq first minF nbs.length)
    (by right; simp [fcArgs, hupdef, hbdef])
    (fun h => by rw [ht] at h; cases h) (fun h => by rw [ht] at h; cases h)
    (fun h => by rw [ht] at h; cases h) (fun h => by rw [ht] at h; cases h)
  refine ⟨out, ?_, ⟨_, ho, ht⟩, ?_, ?_⟩
  · unfold initEventsFC
    rw [hbase]
    simp only [bind, Except.bind]
    rw [hlast]
    simp only
    rw [hub]
    simp only
    have e2 : (asyncNodes fs n nbs).map (fun _ => ([] : List ℚ)) = List.replicate nbs.length [] := by
      rw [List.map_const']
      simp [asyncNodes]
    rw [e2]
    unfold fcArgs at ho
    rw [ho]
  · intro k hk
    obtain ⟨h1, h2, _, _⟩ := hfs k hk
    constructor
    · refine schedule_times ho ht k .up (everySep_sorted hNs h1 _ _) fun t => ?_
      unfold Scheduled fcArgs
      simp [hupdef, hk]
    · refine schedule_times ho ht k .bc (ts := asyncBc bc N Ns n (fs k) (f k)) ?_ fun t => ?_
      · match bc, hL with
        | .whole, _ => exact everySep_sorted hNs h1 _ _
        | .few L eff, hL => exact everySep_sorted (hL L eff rfl).1 h1 _ _
      · unfold Scheduled fcArgs
        simp [hbdef, hk, hupdef]
  · intro ev hev
    have h4 := ((C01_exactly_once ho (fun h => by rw [ht] at h; cases h)).2.2.2 ev.1 ev.2.1 ev.2.2).mp hev
    rw [ht] at h4
    unfold Scheduled at h4
    obtain ⟨h1, h2⟩ := h4
    refine ⟨by simpa [fcArgs, hupdef] using h1, ?_⟩
    cases hty : ev.2.2 <;> simp [hty] at h2 ⊢

/-! ## Counting broadcasts -/

theorem everySep_filter' {sep : Nat} (hs : 0 < sep) {fs : ℚ} (hfs : 0 < fs) (a b : Nat) {t : ℚ} (ht : 0 ≤ t) :
    (everySep sep fs a b).filter (fun x => decide (x ≤ t)) =
      everySep sep fs a (min b (⌊t * fs / sep⌋₊ + 1)) := by
  have e : ⌊t * fs / sep⌋₊ = ⌊t * fs⌋₊ / sep := Nat.floor_div_natCast _ _
  rw [e, ← everySep_filter hs hfs]
  refine List.filter_congr fun x hx => ?_
  obtain ⟨j, _, rfl⟩ := List.mem_map.mp hx
  rw [decide_eq_decide, div_le_div_iff_of_pos_right hfs, div_le_iff₀ hfs]
  have : ((a + j : Nat) : ℚ) * sep = (((a + j) * sep : Nat) : ℚ) := by push_cast; ring
  rw [this, Nat.cast_le, Nat.le_floor_iff (by positivity)]

/-- The number of broadcasts of node `k` before an update at time `t`. -/
theorem async_bcs {evs pre post : List (ℚ × Nat × EvType)} {t fs : ℚ} {q k L E : Nat} (hL0 : 0 < L)
    (hfs : 0 < fs) (ht : 0 ≤ t) (ho : evs.Pairwise EvBefore) (hev : evs = pre ++ (t, q, .up) :: post)
    (hb : bcTimes evs k = everySep L fs 1 E) : evBcs pre k = min (E - 1) ⌊t * fs / L⌋₊ := by
  rw [← evBcs_length, bcTimes_before ho hev k, hb, everySep_filter' hL0 hfs 1 E ht, everySep_length]
  omega

/-- Between two updates in a row of a node, a neighbour sends at most the number of packets that start
within that time. -/
theorem async_between {evs pre post : List (ℚ × Nat × EvType)} {t fs fsq : ℚ} {q k Ns L a E Eq : Nat}
    (hL0 : 0 < L) (hfs : 0 < fs) (hfsq : 0 < fsq) (ho : evs.Pairwise EvBefore)
    (hev : evs = pre ++ (t, q, .up) :: post) (hu : upTimes evs q = everySep Ns fsq a Eq)
    (hb : bcTimes evs k = everySep L fs 1 E) (h0 : 0 < evUps pre q) :
    evBcs (evSince q pre) k ≤ ⌈(Ns : ℚ) * fs / (fsq * L)⌉₊ := by
  obtain ⟨p1, t1, e1, e2⟩ := evSince_split q pre h0
  obtain ⟨i1, i2⟩ := sync_index hu hev
  have hev1 : evs = p1 ++ (t1, q, .up) :: (evSince q pre ++ (t, q, .up) :: post) := by
    rw [hev]; conv_lhs => rw [e1]
    simp
  obtain ⟨j1, j2⟩ := sync_index hu hev1
  have ht : 0 ≤ t := by rw [i2]; positivity
  have ht1 : 0 ≤ t1 := by rw [j2]; positivity
  have c1 := async_bcs (k := k) hL0 hfs ht ho hev hb
  have c2 := async_bcs (k := k) hL0 hfs ht1 ho hev1 hb
  have hups : evUps pre q = evUps p1 q + 1 := by
    have : evUps pre q = evUps p1 q + (1 + evUps (evSince q pre) q) := by
      conv_lhs => rw [e1]
      unfold evUps
      rw [List.countP_append, List.countP_cons_of_pos (by simp)]
      omega
    omega
  have hbc : evBcs pre k = evBcs p1 k + evBcs (evSince q pre) k := by
    conv_lhs => rw [e1]
    unfold evBcs
    rw [List.countP_append, List.countP_cons_of_neg (by simp)]
  have hL : (0 : ℚ) < L := by exact_mod_cast hL0
  have hadd : t * fs / L = t1 * fs / L + (Ns : ℚ) * fs / (fsq * L) := by
    rw [i2, j2, hups]
    push_cast
    field_simp
    ring
  have hle : ⌊t * fs / L⌋₊ ≤ ⌊t1 * fs / L⌋₊ + ⌈(Ns : ℚ) * fs / (fsq * L)⌉₊ := by
    have h1 : t * fs / L ≤ t1 * fs / L + (⌈(Ns : ℚ) * fs / (fsq * L)⌉₊ : ℚ) := by
      rw [hadd]
      gcongr
      exact Nat.le_ceil _
    have h2 := Nat.floor_le_floor h1
    rwa [Nat.floor_add_natCast (by positivity)] at h2
  omega

section
variable {K : Type} [Field K] [StarRing K] [DecidableEq K] {g : GivenCfg K} {y : Nat → List (List K)}

/-- The buffers allow the event. -/
def BufOk (g : GivenCfg K) (L : Nat) (pre : List (ℚ × Nat × EvType)) (ev : ℚ × Nat × EvType) : Prop :=
  ev.2.2 = .up → 0 < evUps pre ev.2.1 → ∀ k ∈ g.nb ev.2.1, evBcs (evSince ev.2.1 pre) k * L ≤ g.N

/-- The events of such a schedule are possible, as far as the recordings are concerned. -/
theorem async_evok {n L : Nat} (hn : 0 < n) {fs f : Nat → ℚ} {m : Nat}
    (hfs : ∀ k < m, 0 < fs k ∧ 0 < f k ∧ inferFs (clockStamps (fs k) n) = .ok (f k) ∧
      ClockClose n L (fs k) (f k) ∧ (g.Ns : ℚ) * fs k ≤ g.N * f k)
    (hg : ∀ k < m, g.fs k = f k) (hb : g.bc = .few L false) (hL0 : 0 < L) (hLNs : L ≤ g.Ns)
    (hy : ∀ k < m, ∀ ch ∈ y k, ch.length = n) {evs : List (ℚ × Nat × EvType)}
    (hall : ∀ k < m, upTimes evs k = everySep g.Ns (fs k) ⌈(g.N : ℚ) / g.Ns⌉₊ (stepsIn n g.Ns (fs k) (f k)) ∧
      bcTimes evs k = asyncBc g.bc g.N g.Ns n (fs k) (f k))
    (hty : ∀ ev ∈ evs, ev.2.1 < m ∧ (ev.2.2 = .up ∨ ev.2.2 = .bc))
    {pre post : List (ℚ × Nat × EvType)} {ev : ℚ × Nat × EvType} (hsp : evs = pre ++ ev :: post)
    (hbo : BufOk g L pre ev) : EvOk g y L n pre ev := by
  have hNs : 0 < g.Ns := by omega
  have hmem : ev ∈ evs := by rw [hsp]; simp
  obtain ⟨t, q, ty⟩ := ev
  obtain ⟨hq, hty'⟩ := hty _ hmem
  simp only at hq hty'
  obtain ⟨f1, f2, _, f4, f5⟩ := hfs q hq
  rcases hty' with rfl | rfl
  · obtain ⟨i1, i2⟩ := sync_index (hall q hq).1 hsp
    have hR : (g.N : ℚ) ≤ ⌈(g.N : ℚ) / g.Ns⌉₊ * g.Ns := by
      have h1 : (g.N : ℚ) / g.Ns ≤ (⌈(g.N : ℚ) / g.Ns⌉₊ : ℚ) := Nat.le_ceil _
      rwa [div_le_iff₀ (by exact_mod_cast hNs)] at h1
    generalize ⌈(g.N : ℚ) / g.Ns⌉₊ = R at hR i1 i2
    generalize hI : R + evUps pre q = I at i1 i2
    have hlow : (g.N : ℚ) ≤ I * g.Ns := by
      refine hR.trans ?_
      gcongr
      omega
    have hIn : ⌊t * g.fs q⌋ ≤ n := by
      rw [i2, hg q hq]
      exact floor_inside hn hNs f1 f2 (f4.sep_le f1 f2 hLNs) i1
    have hI1 : (g.Ns : Int) ≤ ⌊t * g.fs q⌋ := by
      rw [i2, hg q hq, Int.le_floor, div_mul_eq_mul_div, le_div_iff₀ f1]
      push_cast
      have : (g.N : ℚ) * f q ≤ I * g.Ns * f q := by gcongr
      linarith
    have hI0 : (0 : Int) < ⌊t * g.fs q⌋ := by omega
    refine ⟨.inr rfl, hI0.le, ?_, fun _ => ⟨hI0, hIn, fun _ => hI1⟩, hbo⟩
    intro ch hch
    simp only at hch ⊢
    rw [hy q hq ch hch]; exact hIn
  · have hm : t ∈ bcTimes (evs) q := by
      unfold bcTimes
      rw [List.mem_filterMap]
      exact ⟨(t, q, .bc), hmem, by simp⟩
    rw [(hall q hq).2, hb] at hm
    unfold asyncBc everySep at hm
    obtain ⟨j, hj, rfl⟩ := List.mem_map.mp hm
    have hj' := List.mem_range.mp hj
    have hIn : ⌊(((1 + j : Nat) : ℚ) * L / fs q) * g.fs q⌋ ≤ n := by
      rw [hg q hq]
      exact floor_inside hn hL0 f1 f2 f4 (by omega)
    refine ⟨.inl rfl, ?_, ?_, fun h => (by cases h), fun h => (by cases h)⟩
    · simp only
      rw [hg q hq]
      positivity
    · intro ch hch; simp only at hch ⊢; rw [hy q hq ch hch]; exact hIn

/-- The run ends normally, and what is known of its last state. -/
theorem async_alive (U : Strategy K) {n L : Nat} (hn : 0 < n) {fs f : Nat → ℚ} (nbs : List (List Nat))
    {seq : Bool} (ri : Nat) (first minF : Int)
    (hfs : ∀ k < nbs.length, 0 < fs k ∧ 0 < f k ∧ inferFs (clockStamps (fs k) n) = .ok (f k) ∧
      ClockClose n L (fs k) (f k) ∧ (g.Ns : ℚ) * fs k ≤ g.N * f k)
    (hg : ∀ k < nbs.length, g.fs k = f k) (hb : g.bc = .few L false) (hL0 : 0 < L) (hLNs : L ≤ g.Ns)
    (he : 2 ∣ g.N) (hNsN : g.Ns ≤ g.N)
    (hbuf : ∀ q < nbs.length, ∀ k ∈ g.nb q, ⌈(g.Ns : ℚ) * fs k / (fs q * L)⌉₊ * L ≤ g.N)
    (hfl : g.f.length = g.N) (gd : GoodNeighbours g.nb)
    (hnb : ∀ q < nbs.length, ∀ k ∈ g.nb q, k < nbs.length)
    (hy : ∀ k < nbs.length, ∀ ch ∈ y k, ch.length = n)
    (hU : ∀ k h, (∀ b ∈ (U.rows k h).int, b.length = g.N / 2 + 1) ∧
      (∀ b ∈ (U.rows k h).ext, b.length = g.N / 2 + 1) ∧ ∀ b ∈ (U.rows k h).loc, b.length = g.N / 2 + 1)
    (hw : ∀ k i, (∀ b ∈ g.wInt k i, b.length = g.N / 2 + 1) ∧
      (∀ b ∈ g.wExt k i, b.length = g.N / 2 + 1) ∧ ∀ b ∈ g.wLoc k i, b.length = g.N / 2 + 1)
    (M : Nat → Nat) :
    ∃ out a, initEventsFC g.bc g.N g.Ns seq false ri first minF (asyncNodes fs n nbs) =
        .ok (out, (List.range nbs.length).map f) ∧
      adaptRun U y (.init g n M) (flatEvents out) = .ok a ∧
      ∀ pre post, flatEvents out = pre ++ post → ∃ b, adaptRun U y (.init g n M) pre = .ok b ∧
        Alive g L n pre b := by
  have hNs : 0 < g.Ns := by omega
  have hN : 0 < g.N := by omega
  obtain ⟨out, hout, ⟨arg, ha, hti⟩, hall, hty⟩ := initEventsFC_async (seq := seq) (N := g.N) (bc := g.bc)
    (fs := fs) (f := f) hNs hn nbs (by rw [hb]; intro h; cases h)
    (by
      rw [hb]; intro L' e' h; injection h with h1 h2
      exact ⟨h1 ▸ hL0, h2.symm, fun k hk => h1 ▸ (hfs k hk).2.2.2.1⟩)
    (fun k hk => ⟨(hfs k hk).1, (hfs k hk).2.1, (hfs k hk).2.2.1,
      (hfs k hk).2.2.2.1.sep_le (hfs k hk).1 (hfs k hk).2.1 hLNs⟩) ri first minF
  have hord := schedule_order ha hti
  have hevok : ∀ pre ev post, flatEvents out = pre ++ ev :: post → EvOk g y L n pre ev := by
    intro pre ev post hsp
    refine async_evok hn hfs hg hb hL0 hLNs hy hall hty hsp ?_
    intro hu h0 k hk
    obtain ⟨t, q, ty⟩ := ev
    simp only at hu h0 hk ⊢
    subst hu
    have hq := (hty (t, q, .up) (by rw [hsp]; simp)).1
    have hkn := hnb q hq k hk
    have hbk := (hall k hkn).2
    rw [hb] at hbk
    have := async_between hL0 (hfs k hkn).1 (hfs q hq).1 hord hsp (hall q hq).1 hbk h0
    exact (Nat.mul_le_mul_right L this).trans (hbuf q hq k hk)
  have tot := fun (evs : List (ℚ × Nat × EvType)) h =>
    adaptRun_total (y := y) (U := U) (L := L) (T := n) hb hN he (by omega) hNsN hfl gd hU
      (fun k i => (hw k i).1) (fun k i => (hw k i).2.1) (fun k i => (hw k i).2.2) M evs h
  obtain ⟨a, h1, h2⟩ := tot (flatEvents out) hevok
  refine ⟨out, a, hout, h1, fun pre post hs => ?_⟩
  exact tot pre fun p ev p' hp => hevok p ev (p' ++ post) (by rw [hs, hp]; simp)

/-- The flags of a node after one of its updates, neighbour by neighbour. -/
theorem flags_sum (gd : GoodNeighbours g.nb) {L q k idx : Nat} {pre : List (ℚ × Nat × EvType)} {t : ℚ}
    {ops : List (BufOp K)} (h : List.Forall₂ (evOpL L) (pre ++ [(t, q, .up)]) ops) {net : NetSt K}
    (hn : netRun g.nb g.N g.Ns ops = .ok net) (hk : (g.nb q)[idx]? = some k) :
    ((net.flags q).map fun fl => fl.getD idx 0).sum =
      (evBcs pre k * L : Nat) - ((g.N : Int) + evUps pre q * g.Ns) := by
  obtain ⟨_, _, h3⟩ := C17_flags_account gd hn q
  rcases List.eq_nil_or_concat ops with rfl | ⟨ops', op, rfl⟩
  · have := h.length_eq; simp at this
  · rw [List.concat_eq_append] at h hn h3
    have hl : pre.length = ops'.length := by have := h.length_eq; simpa using this
    have h1 : List.Forall₂ (evOpL L) pre ops' := by
      have := List.forall₂_take pre.length h
      rw [hl] at this
      simpa [← hl] using this
    have h2 : evOpL L (t, q, .up) op := by
      have := List.forall₂_drop pre.length h
      rw [List.drop_left, hl, List.drop_left] at this
      cases this with
      | cons a _ => exact a
    have hop : op = .up q := by
      cases op with
      | bc j c => cases h2.2.1
      | up j => rw [← h2.1]
    subst hop
    have hups : numUps q (ops' ++ [.up q]) = evUps pre q + 1 := by
      rw [numUps_evUps q h]
      unfold evUps
      rw [List.countP_append, List.countP_singleton, if_pos (by simp)]
    have hsince : sinceUp q (ops' ++ [BufOp.up q]) = [] := by
      unfold sinceUp
      rw [List.foldl_append]
      simp [BufOp.isUp]
    have huntil : untilUp q (ops' ++ [BufOp.up q]) = ops' ++ [.up q] := by
      unfold untilUp
      rw [hsince]
      simp
    have := h3 (by rw [hups]; omega) idx k hk
    rw [this, huntil, hups, sent_length k h]
    have e : evBcs (pre ++ [(t, q, .up)]) k = evBcs pre k := by
      unfold evBcs
      rw [List.countP_append, List.countP_singleton, if_neg (by simp), Nat.add_zero]
    rw [e]
    push_cast
    ring

end

end Danse
