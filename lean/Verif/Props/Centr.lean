import Verif.Proofs.Centr6

/-!
# Properties C86-C87: what the centralised estimate of a node is computed from

`CentrCfg.run` models a run of `danse` with the options `computeCentralised` and
`computeSingleSensorBroadcast`. `s.yCentr k` and `s.ySSBC k` are the time-domain observations (one list of
samples per sensor) from which node `k` computed its last centralised and single-sensor-broadcast
estimates.
-/

set_option linter.unusedSectionVars false

namespace Danse
section
variable {K : Type} [Field K] [StarRing K] [DecidableEq K] {c : CentrCfg K} {y : Nat → List (List K)}

/-- C86 (a): at every update of a node, in whatever order nodes broadcast and update, its centralised
observation has one frame per sensor of the network, in the order of the nodes and of their sensors: its own
frames, and of every other sensor the last `N` raw samples that were sent. -/
theorem C86_observation (hc : c.centr = true) (hN : 0 < c.g.N)
    (hlen : ∀ q < c.n, ∀ x ∈ y q, c.g.N ≤ x.length) {T : Nat} {evs : List (ℚ × Nat × EvType)}
    (hev : ∀ ev ∈ evs, ev.2.1 < c.n ∧ 0 ≤ ⌊ev.1 * c.g.fs ev.2.1⌋) {t : ℚ} {k : Nat} (hk : k < c.n)
    (he : 0 ≤ frameEnd c.g.bc c.g.N c.g.Ns t (c.g.fs k)) {s : CentrSt K}
    (h : c.run y (.init c.n c.g.N c.g.refSensor T fun q => (y q).length) (evs ++ [(t, k, .up)]) = .ok s) :
    s.yCentr k = (List.range c.n).flatMap fun q =>
      if q = k then (y k).map fun x => frameBefore c.g.N x (frameEnd c.g.bc c.g.N c.g.Ns t (c.g.fs k)).toNat
      else (List.range (y q).length).map fun m => lastFrame c.g.N (rawSent c.g y evs q m) := by
  obtain ⟨_, h1, _⟩ := centr_observations hc hN hlen hev hk he h
  exact h1

/-- C86 (b): its single-sensor-broadcast observation consists of its own frames and the last `N` raw samples
of the first sensor of every other node, in the order of the nodes. -/
theorem C86_single_sensor (hc : c.centr = true) (hs : c.ssbc = true) (hN : 0 < c.g.N)
    (hlen : ∀ q < c.n, ∀ x ∈ y q, c.g.N ≤ x.length) {T : Nat} {evs : List (ℚ × Nat × EvType)}
    (hev : ∀ ev ∈ evs, ev.2.1 < c.n ∧ 0 ≤ ⌊ev.1 * c.g.fs ev.2.1⌋) {t : ℚ} {k : Nat} (hk : k < c.n)
    (he : 0 ≤ frameEnd c.g.bc c.g.N c.g.Ns t (c.g.fs k)) (hM : ∀ q < c.n, q ≠ k → 0 < (y q).length)
    {s : CentrSt K}
    (h : c.run y (.init c.n c.g.N c.g.refSensor T fun q => (y q).length) (evs ++ [(t, k, .up)]) = .ok s) :
    s.ySSBC k = ((y k).map fun x => frameBefore c.g.N x (frameEnd c.g.bc c.g.N c.g.Ns t (c.g.fs k)).toNat) ++
      ((List.range c.n).filter fun q => q ≠ k).map fun q => lastFrame c.g.N (rawSent c.g y evs q 0) := by
  obtain ⟨_, _, h1⟩ := centr_observations hc hN hlen hev hk he h
  exact h1 hs hM

/-- C86 (c): the flag that an update of node `k` records for node `q` is the number of samples received from
`q` since the previous update of `k`, minus `N` at the first update of `k` and minus `Ns` at the later ones. -/
theorem C86_flags (hc : c.centr = true) (hN : 0 < c.g.N)
    (hlen : ∀ q < c.n, ∀ x ∈ y q, c.g.N ≤ x.length) {T : Nat} {evs : List (ℚ × Nat × EvType)}
    (hev : ∀ ev ∈ evs, ev.2.1 < c.n ∧ 0 ≤ ⌊ev.1 * c.g.fs ev.2.1⌋) {t : ℚ} {k : Nat} (hk : k < c.n)
    (hM : ∀ q < c.n, 0 < (y q).length) {s1 s : CentrSt K}
    (h1 : c.run y (.init c.n c.g.N c.g.refSensor T fun q => (y q).length) evs = .ok s1)
    (h : c.run y (.init c.n c.g.N c.g.refSensor T fun q => (y q).length) (evs ++ [(t, k, .up)]) = .ok s) :
    s.flags k = s1.flags k ++ [(List.range c.n).map fun q => if q = k then 0 else
      ((sent (sinceUp k (rawOps c.g y evs 0)) q).length : Int) -
        (if numUps k (rawOps c.g y evs 0) = 0 then c.g.N else c.g.Ns : Nat)] :=
  centr_flags hc hN hlen hev hk hM h1 h

/-- C86 (d): if every node has one sensor, the two observations consist of the same frames (in another
order: the own frame comes first in the single-sensor one). -/
theorem C86_one_sensor (hc : c.centr = true) (hs : c.ssbc = true) (hN : 0 < c.g.N)
    (hlen : ∀ q < c.n, ∀ x ∈ y q, c.g.N ≤ x.length) {T : Nat} {evs : List (ℚ × Nat × EvType)}
    (hev : ∀ ev ∈ evs, ev.2.1 < c.n ∧ 0 ≤ ⌊ev.1 * c.g.fs ev.2.1⌋) {t : ℚ} {k : Nat} (hk : k < c.n)
    (he : 0 ≤ frameEnd c.g.bc c.g.N c.g.Ns t (c.g.fs k)) (hM : ∀ q < c.n, (y q).length = 1) {s : CentrSt K}
    (h : c.run y (.init c.n c.g.N c.g.refSensor T fun q => (y q).length) (evs ++ [(t, k, .up)]) = .ok s) :
    (s.ySSBC k).Perm (s.yCentr k) := by
  rw [C86_observation hc hN hlen hev hk he h,
    C86_single_sensor hc hs hN hlen hev hk he (fun q hq _ => by rw [hM q hq]; omega) h]
  obtain ⟨x, hx⟩ := List.length_eq_one_iff.mp (hM k hk)
  rw [hx]
  generalize hF : (frameBefore c.g.N x (frameEnd c.g.bc c.g.N c.g.Ns t (c.g.fs k)).toNat) = F
  have e : (List.range c.n).flatMap (fun q => if q = k then
      [x].map fun x => frameBefore c.g.N x (frameEnd c.g.bc c.g.N c.g.Ns t (c.g.fs k)).toNat
      else (List.range (y q).length).map fun m => lastFrame c.g.N (rawSent c.g y evs q m)) =
      (List.range c.n).map fun q => if q = k then F else lastFrame c.g.N (rawSent c.g y evs q 0) := by
    rw [List.map_eq_flatMap (l := List.range c.n)]
    apply List.flatMap_congr
    intro q hq
    by_cases hqk : q = k
    · simp [hqk, hF]
    · rw [if_neg hqk, hM q (List.mem_range.mp hq)]
      simp [hqk]
  rw [e]
  have hmem : k ∈ List.range c.n := List.mem_range.mpr hk
  have hp : (List.range c.n).Perm (k :: (List.range c.n).filter fun q => q ≠ k) := by
    have := List.perm_cons_erase hmem
    rw [List.nodup_range.erase_eq_filter] at this
    refine this.trans (List.Perm.of_eq ?_)
    congr 1
    apply List.filter_congr
    intro q _
    by_cases hq : q = k <;> simp [hq]
  refine List.Perm.trans ?_ (hp.map _).symm
  simp only [List.map_cons, List.map_nil, if_true, List.singleton_append, hF]
  refine List.Perm.cons _ (List.Perm.of_eq ?_)
  apply List.map_congr_left
  intro q hq
  have := (List.mem_filter.mp hq).2
  rw [if_neg (by simpa using this)]

/-! ## Synchronous nodes -/

/-- The update times of a schedule of the code. -/
theorem sync_up_time {N Ns n : Nat} (hNs : 0 < Ns) {fs : ℚ} {q : Nat} {t : ℚ} {evs pre post : List (ℚ × Nat × EvType)}
    (hall : upTimes evs q = everySep Ns fs ⌈(N : ℚ) / Ns⌉₊ ((n - 1) / Ns)) (hev : evs = pre ++ (t, q, .up) :: post) :
    ∃ i, i < (n - 1) / Ns ∧ ⌈(N : ℚ) / Ns⌉₊ ≤ i ∧ N ≤ i * Ns ∧ t = (i : ℚ) * Ns / fs := by
  have hm : t ∈ upTimes evs q := by
    rw [hev]
    unfold upTimes
    rw [List.mem_filterMap]
    exact ⟨(t, q, .up), by simp, by simp⟩
  rw [hall] at hm
  unfold everySep at hm
  obtain ⟨j, hj, rfl⟩ := List.mem_map.mp hm
  have hj' := List.mem_range.mp hj
  refine ⟨⌈(N : ℚ) / Ns⌉₊ + j, by omega, by omega, ?_, rfl⟩
  have h1 : (N : ℚ) / Ns ≤ (⌈(N : ℚ) / Ns⌉₊ : ℚ) := Nat.le_ceil _
  rw [div_le_iff₀ (by exact_mod_cast hNs)] at h1
  have h2 : N ≤ ⌈(N : ℚ) / Ns⌉₊ * Ns := by exact_mod_cast h1
  exact h2.trans (Nat.mul_le_mul_right _ (by omega))

/-- C87 (a): with the schedule of the code for synchronous nodes with `n` samples each and whole-chunk
broadcasts, every node has at its update at sample `i Ns` the centralised observation of a single device
that records all the sensors: of every sensor of the network, the frame of `N` samples that ends at sample
`i Ns - (N - Ns)` (silence before the first sample). So all nodes have the same one. -/
theorem C87_whole_chunk {n : Nat} (hn : 0 < n) {fs : ℚ} (hfs : 0 < fs)
    (hf : inferFs (clockStamps fs n) = .ok fs) (nbs : List (List Nat)) {seq sim : Bool} {ri : Nat}
    {first minF : Int} {fsInf : List ℚ} {out : List (Instant ℚ)} (hcn : c.n = nbs.length)
    (hg : ∀ k, c.g.fs k = fs) (hc : c.centr = true) (hb : c.g.bc = .whole) (hNs : 0 < c.g.Ns)
    (hdvd : c.g.Ns ∣ c.g.N) (hN : 0 < c.g.N) (hlen : ∀ q < c.n, ∀ x ∈ y q, x.length = n)
    (hout : initEventsFC c.g.bc c.g.N c.g.Ns seq sim ri first minF (syncNodes fs n nbs) = .ok (out, fsInf))
    (hri : sim = true → ri < nbs.length) {t : ℚ} {k : Nat} (hk : k < c.n)
    {pre post : List (ℚ × Nat × EvType)} (hev : flatEvents out = pre ++ (t, k, .up) :: post)
    {T : Nat} {s : CentrSt K}
    (h : c.run y (.init c.n c.g.N c.g.refSensor T fun q => (y q).length) (pre ++ [(t, k, .up)]) = .ok s) :
    ∃ i : Nat, t = (i : ℚ) * c.g.Ns / fs ∧ c.g.N ≤ i * c.g.Ns ∧ i * c.g.Ns < n ∧
      s.yCentr k = (List.range c.n).flatMap fun q =>
        (y q).map fun x => frameBefore c.g.N x (i * c.g.Ns - (c.g.N - c.g.Ns)) := by
  obtain ⟨R, hR⟩ := hdvd
  rw [Nat.mul_comm] at hR
  have hsch := C78_schedule (seq := seq) (sim := sim) (r := ri) (N := c.g.N) (bc := c.g.bc) hNs hn hfs hf
    (fun _ => ⟨R, by rw [hR, Nat.mul_comm]⟩) (by rw [hb]; intro L e h; cases h) nbs first minF hri
  rw [hout] at hsch
  obtain ⟨out', ho', hall, htyp⟩ := hsch
  injection ho' with ho'
  injection ho' with ho'
  subst ho'
  obtain ⟨a, ha, hti⟩ := initEventsFC_built hout
  have hord := schedule_order ha hti
  rw [← hcn] at hall htyp
  obtain ⟨i, hi, hRi, hiN, hit⟩ := sync_up_time hNs (hall k hk).1 hev
  have hcl : ⌈(c.g.N : ℚ) / c.g.Ns⌉₊ = R := by
    have : (c.g.N : ℚ) / c.g.Ns = R := by
      rw [hR]
      push_cast
      field_simp
    rw [this, Nat.ceil_natCast]
  rw [hcl] at hRi
  have h3 : (i + 1) * c.g.Ns ≤ n - 1 := (Nat.le_div_iff_mul_le hNs).mp hi
  have h4 : i * c.g.Ns + c.g.Ns ≤ n - 1 := by rw [Nat.add_mul, Nat.one_mul] at h3; exact h3
  refine ⟨i, hit, hiN, by omega, ?_⟩
  have hNsN : c.g.Ns ≤ c.g.N := by
    rw [hR]
    exact Nat.le_mul_of_pos_left _ (Nat.pos_of_ne_zero fun h0 => by rw [hR, h0] at hN; omega)
  have hfe : frameEnd c.g.bc c.g.N c.g.Ns t (c.g.fs k) = ((i * c.g.Ns - (c.g.N - c.g.Ns) : Nat) : Int) := by
    unfold frameEnd
    rw [hb, hg, hit]
    simp only
    rw [floor_everySep hfs]
    omega
  have hbc : ∀ q < c.n, bcTimes pre q = everySep c.g.Ns fs R (i + 1) := by
    intro q hq
    rw [bcTimes_before hord hev q, (hall q hq).2, hb, syncBc, hit]
    have e : (i : ℚ) * c.g.Ns / fs = ((i * c.g.Ns : Nat) : ℚ) / fs := by push_cast; ring
    have e2 : c.g.N / c.g.Ns = R := by rw [hR, Nat.mul_div_cancel _ hNs]
    rw [e, everySep_filter hNs hfs, Nat.mul_div_cancel _ hNs, e2, Nat.min_eq_right hi]
  have hpre : ∀ ev ∈ pre, ev.2.1 < c.n ∧ 0 ≤ ⌊ev.1 * c.g.fs ev.2.1⌋ := by
    intro ev hm
    have hm' : ev ∈ flatEvents out := by rw [hev]; simp [hm]
    obtain ⟨h5, h6⟩ := htyp ev hm'
    refine ⟨h5, ?_⟩
    rw [hg]
    obtain ⟨j, hj⟩ : ∃ j : Nat, ev.1 = (j : ℚ) * c.g.Ns / fs := by
      rcases h6 with h6 | h6
      · have : ev.1 ∈ upTimes (flatEvents out) ev.2.1 := by
          unfold upTimes
          rw [List.mem_filterMap]
          exact ⟨ev, hm', by simp [h6]⟩
        rw [(hall _ h5).1, everySep] at this
        obtain ⟨j, _, hj⟩ := List.mem_map.mp this
        exact ⟨_, hj.symm⟩
      · have : ev.1 ∈ bcTimes (flatEvents out) ev.2.1 := by
          unfold bcTimes
          rw [List.mem_filterMap]
          exact ⟨ev, hm', by simp [h6]⟩
        rw [(hall _ h5).2, hb, syncBc, everySep] at this
        obtain ⟨j, _, hj⟩ := List.mem_map.mp this
        exact ⟨_, hj.symm⟩
    rw [hj, floor_everySep hfs]
    omega
  rw [C86_observation hc hN (fun q hq x hx => by rw [hlen q hq x hx]; omega) hpre hk
    (by rw [hfe]; omega) h]
  apply List.flatMap_congr
  intro q hq
  have hq' := List.mem_range.mp hq
  by_cases hqk : q = k
  · subst hqk
    rw [if_pos rfl, hfe, Int.toNat_natCast]
  · rw [if_neg hqk, map_eq_range_getD (y q)]
    apply List.map_congr_left
    intro m hm
    have hxl : ((y q).getD m []).length = n := by
      apply hlen q hq'
      rw [List.getD_eq_getElem?_getD, List.getElem?_eq_getElem (List.mem_range.mp hm), Option.getD_some]
      exact List.getElem_mem _
    rw [rawSent_sync_whole hb hR hNsN hfs (hg q) hRi (by rw [hxl]; omega) (hbc q hq')]
    have e : (i + 1 - R) * c.g.Ns = i * c.g.Ns - (c.g.N - c.g.Ns) := by
      rw [Nat.sub_mul, Nat.add_mul, Nat.one_mul, ← hR]
      omega
    rw [e, lastFrame_take (by rw [hxl]; omega)]

/-- C87 (b): the schedule of the code with efficient few-sample broadcasts (`efficientSpSBC`), for synchronous
nodes with `n` samples each: every node updates at the samples `⌈N/Ns⌉ Ns`, `(⌈N/Ns⌉ + 1) Ns`, ... and
broadcasts at the last multiple of `L` samples before each of these; and nothing else happens. -/
theorem C87_schedule_efficient {N Ns n L : Nat} (hNs : 0 < Ns) (hN : 0 < N) (hn : 0 < n) (hL : 0 < L)
    (hLNs : L ≤ Ns) (hLn : L < n) {fs : ℚ} (hfs : 0 < fs) (hf : inferFs (clockStamps fs n) = .ok fs)
    (nbs : List (List Nat)) (hne : ∀ nb ∈ nbs, nb ≠ [] ∧ ∀ q ∈ nb, q < nbs.length) {seq sim : Bool}
    {r : Nat} (first minF : Int) (hr : sim = true → r < nbs.length) :
    ∃ out, initEventsFC (.few L true) N Ns seq sim r first minF (syncNodes fs n nbs) =
        .ok (out, List.replicate nbs.length fs) ∧
      (∀ k < nbs.length, upTimes (flatEvents out) k = everySep Ns fs ⌈(N : ℚ) / Ns⌉₊ ((n - 1) / Ns) ∧
        bcTimes (flatEvents out) k = syncBcEff L N Ns n fs) ∧
      ∀ ev ∈ flatEvents out, ev.2.1 < nbs.length ∧ (ev.2.2 = .up ∨ ev.2.2 = .bc) := by
  obtain ⟨out, h1, _, h3, h4⟩ := initEventsFC_sync (seq := seq) (sim := sim) (r := r) (first := first)
    (minF := minF) hNs hn hfs hf nbs hr (fcInstants_eff hNs hN hn hL hLNs hLn hfs nbs hne)
    (everySep_sorted hNs hfs _ _) (syncBcEff_sorted hL hLNs hfs)
  exact ⟨out, h1, h3, h4⟩

/-- C87 (c): with this schedule, every node has at its update at sample `i Ns` its own frames that end at that
sample, and of every other sensor the frame that ends at sample `⌊i Ns / L⌋ L`: if `L` divides `Ns`, again the
observation of a single device that records all sensors; else the others are up to `L - 1` samples behind. -/
theorem C87_efficient {n L : Nat} (hn : 0 < n) {fs : ℚ} (hfs : 0 < fs)
    (hf : inferFs (clockStamps fs n) = .ok fs) (nbs : List (List Nat))
    (hne : ∀ nb ∈ nbs, nb ≠ [] ∧ ∀ q ∈ nb, q < nbs.length) {seq sim : Bool} {ri : Nat}
    {first minF : Int} {fsInf : List ℚ} {out : List (Instant ℚ)} (hcn : c.n = nbs.length)
    (hg : ∀ k, c.g.fs k = fs) (hst : ∀ k, c.g.stamps k = clockStamps fs n) (hc : c.centr = true)
    (hb : c.g.bc = .few L true) (hL : 0 < L) (hLNs : L ≤ c.g.Ns)
    (hLn : L < n) (hN : 0 < c.g.N) (hlen : ∀ q < c.n, ∀ x ∈ y q, x.length = n)
    (hout : initEventsFC c.g.bc c.g.N c.g.Ns seq sim ri first minF (syncNodes fs n nbs) = .ok (out, fsInf))
    (hri : sim = true → ri < nbs.length) {t : ℚ} {k : Nat} (hk : k < c.n)
    {pre post : List (ℚ × Nat × EvType)} (hev : flatEvents out = pre ++ (t, k, .up) :: post)
    {T : Nat} {s : CentrSt K}
    (h : c.run y (.init c.n c.g.N c.g.refSensor T fun q => (y q).length) (pre ++ [(t, k, .up)]) = .ok s) :
    ∃ i : Nat, t = (i : ℚ) * c.g.Ns / fs ∧ c.g.N ≤ i * c.g.Ns ∧ i * c.g.Ns < n ∧
      s.yCentr k = (List.range c.n).flatMap fun q =>
        (y q).map fun x => frameBefore c.g.N x (if q = k then i * c.g.Ns else i * c.g.Ns / L * L) := by
  have hNs : 0 < c.g.Ns := by omega
  have hone : 1 ≤ ⌈(c.g.N : ℚ) / c.g.Ns⌉₊ := Nat.one_le_ceil_iff.mpr (by positivity)
  have hsch := C87_schedule_efficient (seq := seq) (sim := sim) (r := ri) hNs hN hn hL hLNs hLn hfs hf nbs hne
    first minF hri
  rw [hb] at hout
  rw [hout] at hsch
  obtain ⟨out', ho', hall, htyp⟩ := hsch
  injection ho' with ho'
  injection ho' with ho'
  subst ho'
  obtain ⟨a, ha, hti⟩ := initEventsFC_built hout
  have hord := schedule_order ha hti
  rw [← hcn] at hall htyp
  obtain ⟨i, hi, hRi, hiN, hit⟩ := sync_up_time hNs (hall k hk).1 hev
  have h3 : (i + 1) * c.g.Ns ≤ n - 1 := (Nat.le_div_iff_mul_le hNs).mp hi
  have h4 : i * c.g.Ns + c.g.Ns ≤ n - 1 := by rw [Nat.add_mul, Nat.one_mul] at h3; exact h3
  refine ⟨i, hit, hiN, by omega, ?_⟩
  have e : (i : ℚ) * c.g.Ns / fs = ((i * c.g.Ns : Nat) : ℚ) / fs := by push_cast; ring
  have hfe : frameEnd c.g.bc c.g.N c.g.Ns t (c.g.fs k) = ((i * c.g.Ns : Nat) : Int) := by
    unfold frameEnd
    rw [hb, hg, hit]
    simp only
    rw [floor_everySep hfs]
  have hbc : ∀ q < c.n, bcTimes pre q = (List.range (i + 1 - ⌈(c.g.N : ℚ) / c.g.Ns⌉₊)).map fun (j : Nat) =>
      (((⌈(c.g.N : ℚ) / c.g.Ns⌉₊ + j) * c.g.Ns / L * L : Nat) : ℚ) / fs := by
    intro q hq
    rw [bcTimes_before hord hev q, (hall q hq).2, hit, e, syncBcEff_filter hL hLNs hfs hi]
  have hpre : ∀ ev ∈ pre, ev.2.1 < c.n ∧ 0 ≤ ⌊ev.1 * c.g.fs ev.2.1⌋ := by
    intro ev hm
    have hm' : ev ∈ flatEvents out := by rw [hev]; simp [hm]
    obtain ⟨h5, h6⟩ := htyp ev hm'
    refine ⟨h5, ?_⟩
    rw [hg]
    obtain ⟨j, hj⟩ : ∃ j : Nat, ev.1 = (j : ℚ) / fs := by
      rcases h6 with h6 | h6
      · have : ev.1 ∈ upTimes (flatEvents out) ev.2.1 := by
          unfold upTimes
          rw [List.mem_filterMap]
          exact ⟨ev, hm', by simp [h6]⟩
        rw [(hall _ h5).1, everySep] at this
        obtain ⟨j, _, hj⟩ := List.mem_map.mp this
        exact ⟨(⌈(c.g.N : ℚ) / c.g.Ns⌉₊ + j) * c.g.Ns, by rw [← hj]; push_cast; ring⟩
      · have : ev.1 ∈ bcTimes (flatEvents out) ev.2.1 := by
          unfold bcTimes
          rw [List.mem_filterMap]
          exact ⟨ev, hm', by simp [h6]⟩
        rw [(hall _ h5).2, syncBcEff] at this
        obtain ⟨j, _, hj⟩ := List.mem_map.mp this
        exact ⟨_, hj.symm⟩
    rw [hj, div_mul_cancel₀ _ hfs.ne', Int.floor_natCast]
    omega
  rw [C86_observation hc hN (fun q hq x hx => by rw [hlen q hq x hx]; omega) hpre hk
    (by rw [hfe]; omega) h]
  apply List.flatMap_congr
  intro q hq
  have hq' := List.mem_range.mp hq
  by_cases hqk : q = k
  · subst hqk
    simp only [if_true]
    rw [hfe, Int.toNat_natCast]
  · simp only [if_neg hqk]
    rw [map_eq_range_getD (y q)]
    apply List.map_congr_left
    intro m hm
    have := rawSent_eff (y := y) (m := m) hb hfs (hg q) (hst q)
      (E := fun j => match j with | 0 => 0 | j + 1 => (⌈(c.g.N : ℚ) / c.g.Ns⌉₊ + j) * c.g.Ns / L * L) rfl
      (by
        intro j
        cases j with
        | zero => simp
        | succ j =>
          simp only
          refine Nat.mul_le_mul_right _ (Nat.div_le_div_right (Nat.mul_le_mul_right _ (by omega))))
      (by
        intro j
        cases j with
        | zero => simp
        | succ j => exact ⟨_, Nat.mul_comm _ _⟩) pre (i + 1 - ⌈(c.g.N : ℚ) / c.g.Ns⌉₊)
      (by
        intro j hj
        cases j with
        | zero => exact hn
        | succ j =>
          simp only
          have h5 : (⌈(c.g.N : ℚ) / c.g.Ns⌉₊ + j) * c.g.Ns / L * L ≤ (⌈(c.g.N : ℚ) / c.g.Ns⌉₊ + j) * c.g.Ns :=
            Nat.div_mul_le_self _ _
          have h6 : (⌈(c.g.N : ℚ) / c.g.Ns⌉₊ + j) * c.g.Ns ≤ i * c.g.Ns := Nat.mul_le_mul_right _ (by omega)
          omega) (hbc q hq')
    rw [this, show i + 1 - ⌈(c.g.N : ℚ) / c.g.Ns⌉₊ = (i - ⌈(c.g.N : ℚ) / c.g.Ns⌉₊) + 1 by omega]
    simp only
    rw [show ⌈(c.g.N : ℚ) / c.g.Ns⌉₊ + (i - ⌈(c.g.N : ℚ) / c.g.Ns⌉₊) = i by omega]

end
end Danse
