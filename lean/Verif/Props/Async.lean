import Verif.Proofs.Async2
import Verif.Props.Total
import Verif.Props.Sched

/-!
# C95: networks of nodes with different clocks (sampling-rate offsets)

Sample `i` of node `k` is taken at time `i / fs k`; the code works with the frequency `f k` that it infers
from the time stamps (C79), which may differ. Few-sample broadcasts of `L` samples at a time. `U` is any way
in which the nodes compute filters and phase factors.
-/

namespace Danse

/-- C95 (a): the schedule is produced; node `k` updates at its own samples `⌈N/Ns⌉ Ns`, `(⌈N/Ns⌉ + 1) Ns`, ...
and broadcasts at its own samples `L`, `2 L`, ... (or, with whole chunks, at those at which it updates);
nothing else happens. -/
theorem C95_schedule {bc : BcType} {N Ns n : Nat} (hNs : 0 < Ns) (hn : 0 < n) {fs f : Nat → ℚ}
    (nbs : List (List Nat)) (hw : bc = .whole → Ns ∣ N)
    (hL : ∀ L eff, bc = .few L eff → 0 < L ∧ eff = false ∧
      ∀ k < nbs.length, ClockClose n L (fs k) (f k))
    (hfs : ∀ k < nbs.length, 0 < fs k ∧ 0 < f k ∧ inferFs (clockStamps (fs k) n) = .ok (f k) ∧
      ClockClose n Ns (fs k) (f k)) {seq : Bool} (r : Nat) (first minF : Int) :
    ∃ out, initEventsFC bc N Ns seq false r first minF (asyncNodes fs n nbs) =
        .ok (out, (List.range nbs.length).map f) ∧
      (∀ k < nbs.length,
        upTimes (flatEvents out) k = everySep Ns (fs k) ⌈(N : ℚ) / Ns⌉₊ (stepsIn n Ns (fs k) (f k)) ∧
        bcTimes (flatEvents out) k = asyncBc bc N Ns n (fs k) (f k)) ∧
      ∀ ev ∈ flatEvents out, ev.2.1 < nbs.length ∧ (ev.2.2 = .up ∨ ev.2.2 = .bc) := by
  obtain ⟨out, h1, _, h2, h3⟩ := initEventsFC_async (seq := seq) hNs hn nbs hw hL hfs r first minF
  exact ⟨out, h1, h2, h3⟩

section
variable {K : Type} [Field K] [StarRing K] [DecidableEq K] {g : GivenCfg K} {y : Nat → List (List K)}

/-- C95 (b): when one frame is long enough for the packets that a neighbour can send between two updates,
the run over this schedule ends normally, whatever the clocks, the signals and the filters are. -/
theorem C95_completes (U : Strategy K) {n L : Nat} (hn : 0 < n) {fs f : Nat → ℚ} (nbs : List (List Nat))
    {seq : Bool} (ri : Nat) (first minF : Int)
    (hfs : ∀ k < nbs.length, 0 < fs k ∧ 0 < f k ∧ inferFs (clockStamps (fs k) n) = .ok (f k) ∧
      ClockClose n L (fs k) (f k) ∧ (g.Ns : ℚ) * fs k ≤ g.N * f k)
    (hg : ∀ k < nbs.length, g.fs k = f k) (hb : g.bc = .few L false) (hL0 : 0 < L) (hLNs : L ≤ g.Ns)
    (he : 2 ∣ g.N) (hNsN : g.Ns ≤ g.N)
    (hbuf : ∀ q < nbs.length, ∀ k ∈ g.nb q, ⌈(g.Ns : ℚ) * fs k / (fs q * L)⌉₊ * L ≤ g.N)
    (hfl : g.f.length = g.N) (gd : GoodNeighbours g.nb)
    (hnb : ∀ q < nbs.length, ∀ k ∈ g.nb q, k < nbs.length)
    (hy : ∀ k < nbs.length, ∀ ch ∈ y k, ch.length = n)
    (hU : ∀ k h, (∀ b ∈ (U.rows k h).int, b.length = g.N / 2 + 1) ∧
      (∀ b ∈ (U.rows k h).ext, b.length = g.N / 2 + 1) ∧ ∀ b ∈ (U.rows k h).loc, b.length = g.N / 2 + 1)
    (hw : ∀ k i, (∀ b ∈ g.wInt k i, b.length = g.N / 2 + 1) ∧
      (∀ b ∈ g.wExt k i, b.length = g.N / 2 + 1) ∧ ∀ b ∈ g.wLoc k i, b.length = g.N / 2 + 1)
    (M : Nat → Nat) :
    ∃ out a, initEventsFC g.bc g.N g.Ns seq false ri first minF (asyncNodes fs n nbs) =
        .ok (out, (List.range nbs.length).map f) ∧
      adaptRun U y (.init g n M) (flatEvents out) = .ok a := by
  obtain ⟨out, a, h1, h2, _⟩ := async_alive (y := y) U hn nbs (seq := seq) ri first minF hfs hg hb hL0 hLNs he
    hNsN hbuf hfl gd hnb hy hU hw M
  exact ⟨out, a, h1, h2⟩

/-- C95 (c): in such a run, the flags that node `q` has recorded for its neighbour `k` up to and including
its update at time `t` add up to the number of samples in the packets that `k` has completed by then, by
its own clock, minus the number of samples that `q` has consumed. -/
theorem C95_flags (U : Strategy K) {n L : Nat} (hn : 0 < n) {fs f : Nat → ℚ} (nbs : List (List Nat))
    {seq : Bool} {ri : Nat} {first minF : Int}
    (hfs : ∀ k < nbs.length, 0 < fs k ∧ 0 < f k ∧ inferFs (clockStamps (fs k) n) = .ok (f k) ∧
      ClockClose n L (fs k) (f k) ∧ (g.Ns : ℚ) * fs k ≤ g.N * f k)
    (hg : ∀ k < nbs.length, g.fs k = f k) (hb : g.bc = .few L false) (hL0 : 0 < L) (hLNs : L ≤ g.Ns)
    (he : 2 ∣ g.N) (hNsN : g.Ns ≤ g.N)
    (hbuf : ∀ q < nbs.length, ∀ k ∈ g.nb q, ⌈(g.Ns : ℚ) * fs k / (fs q * L)⌉₊ * L ≤ g.N)
    (hfl : g.f.length = g.N) (gd : GoodNeighbours g.nb)
    (hnb : ∀ q < nbs.length, ∀ k ∈ g.nb q, k < nbs.length)
    (hy : ∀ k < nbs.length, ∀ ch ∈ y k, ch.length = n)
    (hU : ∀ k h, (∀ b ∈ (U.rows k h).int, b.length = g.N / 2 + 1) ∧
      (∀ b ∈ (U.rows k h).ext, b.length = g.N / 2 + 1) ∧ ∀ b ∈ (U.rows k h).loc, b.length = g.N / 2 + 1)
    (hw : ∀ k i, (∀ b ∈ g.wInt k i, b.length = g.N / 2 + 1) ∧
      (∀ b ∈ g.wExt k i, b.length = g.N / 2 + 1) ∧ ∀ b ∈ g.wLoc k i, b.length = g.N / 2 + 1)
    {M : Nat → Nat} {out : List (Instant ℚ)} {fsInf : List ℚ}
    (hout : initEventsFC g.bc g.N g.Ns seq false ri first minF (asyncNodes fs n nbs) = .ok (out, fsInf))
    {pre post : List (ℚ × Nat × EvType)} {t : ℚ} {q k idx : Nat} (hq : q < nbs.length)
    (hev : flatEvents out = pre ++ (t, q, .up) :: post) (hk : (g.nb q)[idx]? = some k) {a : AdaptSt K}
    (ha : adaptRun U y (.init g n M) (pre ++ [(t, q, .up)]) = .ok a) :
    ((a.st.net.flags q).map fun fl => fl.getD idx 0).sum =
      (min (stepsIn n L (fs k) (f k) - 1) ⌊t * fs k / L⌋₊ * L : Nat) - ((g.N : Int) + evUps pre q * g.Ns) := by
  obtain ⟨out', a', h1, _, h3⟩ := async_alive (y := y) U hn nbs (seq := seq) ri first minF hfs hg hb hL0 hLNs
    he hNsN hbuf hfl gd hnb hy hU hw M
  have hNs : 0 < g.Ns := by omega
  obtain ⟨out'', h1', ⟨arg, hbuilt, hti⟩, hall, _⟩ := initEventsFC_async (seq := seq) (N := g.N) (bc := g.bc)
    (fs := fs) (f := f) hNs hn nbs (by rw [hb]; intro h; cases h)
    (by
      rw [hb]; intro L' e' h; injection h with h1 h2
      exact ⟨h1 ▸ hL0, h2.symm, fun k hk => h1 ▸ (hfs k hk).2.2.2.1⟩)
    (fun k hk => ⟨(hfs k hk).1, (hfs k hk).2.1, (hfs k hk).2.2.1,
      (hfs k hk).2.2.2.1.sep_le (hfs k hk).1 (hfs k hk).2.1 hLNs⟩) ri first minF
  rw [hout] at h1 h1'
  injection h1 with h1
  injection h1 with h1
  injection h1' with h1'
  injection h1' with h1'
  subst h1 h1'
  obtain ⟨b, hb1, hb2⟩ := h3 (pre ++ [(t, q, .up)]) post (by rw [hev]; simp)
  rw [ha] at hb1
  injection hb1 with hb1
  subst hb1
  obtain ⟨ops, ho, hnet⟩ := hb2.net
  have hkn : k < nbs.length := hnb q hq k (List.mem_of_getElem? hk)
  have hbk := (hall k hkn).2
  rw [hb] at hbk
  have ht : 0 ≤ t := by
    rw [(sync_index (hall q hq).1 hev).2]
    have := (hfs q hq).1
    positivity
  rw [flags_sum gd ho hnet hk, async_bcs hL0 (hfs k hkn).1 ht (schedule_order hbuilt hti) hev hbk]

/-- C95 (d): when the hop divides the frame length, and as long as the neighbour still broadcasts, the flags
that `q` has recorded for `k` add up to the drift of the two clocks since the start, in samples, rounded
down by less than one packet. -/
theorem C95_drift (U : Strategy K) {n L : Nat} (hn : 0 < n) {fs f : Nat → ℚ} (nbs : List (List Nat))
    {seq : Bool} {ri : Nat} {first minF : Int}
    (hfs : ∀ k < nbs.length, 0 < fs k ∧ 0 < f k ∧ inferFs (clockStamps (fs k) n) = .ok (f k) ∧
      ClockClose n L (fs k) (f k) ∧ (g.Ns : ℚ) * fs k ≤ g.N * f k)
    (hg : ∀ k < nbs.length, g.fs k = f k) (hb : g.bc = .few L false) (hL0 : 0 < L) (hLNs : L ≤ g.Ns)
    (he : 2 ∣ g.N) (hNsN : g.Ns ≤ g.N) (hdvd : g.Ns ∣ g.N)
    (hbuf : ∀ q < nbs.length, ∀ k ∈ g.nb q, ⌈(g.Ns : ℚ) * fs k / (fs q * L)⌉₊ * L ≤ g.N)
    (hfl : g.f.length = g.N) (gd : GoodNeighbours g.nb)
    (hnb : ∀ q < nbs.length, ∀ k ∈ g.nb q, k < nbs.length)
    (hy : ∀ k < nbs.length, ∀ ch ∈ y k, ch.length = n)
    (hU : ∀ k h, (∀ b ∈ (U.rows k h).int, b.length = g.N / 2 + 1) ∧
      (∀ b ∈ (U.rows k h).ext, b.length = g.N / 2 + 1) ∧ ∀ b ∈ (U.rows k h).loc, b.length = g.N / 2 + 1)
    (hw : ∀ k i, (∀ b ∈ g.wInt k i, b.length = g.N / 2 + 1) ∧
      (∀ b ∈ g.wExt k i, b.length = g.N / 2 + 1) ∧ ∀ b ∈ g.wLoc k i, b.length = g.N / 2 + 1)
    {M : Nat → Nat} {out : List (Instant ℚ)} {fsInf : List ℚ}
    (hout : initEventsFC g.bc g.N g.Ns seq false ri first minF (asyncNodes fs n nbs) = .ok (out, fsInf))
    {pre post : List (ℚ × Nat × EvType)} {t : ℚ} {q k idx : Nat} (hq : q < nbs.length)
    (hev : flatEvents out = pre ++ (t, q, .up) :: post) (hk : (g.nb q)[idx]? = some k) {a : AdaptSt K}
    (ha : adaptRun U y (.init g n M) (pre ++ [(t, q, .up)]) = .ok a)
    (hlive : ∃ t' ∈ bcTimes (flatEvents out) k, t < t') :
    let drift := t * fs k - t * fs q
    let flags := ((((a.st.net.flags q).map fun fl => fl.getD idx 0).sum : Int) : ℚ)
    drift - L < flags ∧ flags ≤ drift := by
  have hNs : 0 < g.Ns := by omega
  have hkn : k < nbs.length := hnb q hq k (List.mem_of_getElem? hk)
  have hsum := C95_flags U hn nbs hfs hg hb hL0 hLNs he hNsN hbuf hfl gd hnb hy hU hw hout hq hev hk ha
  obtain ⟨out'', h1', hall, _⟩ := C95_schedule (seq := seq) (N := g.N) (bc := g.bc)
    (fs := fs) (f := f) hNs hn nbs (by rw [hb]; intro h; cases h)
    (by
      rw [hb]; intro L' e' h; injection h with h1 h2
      exact ⟨h1 ▸ hL0, h2.symm, fun k hk => h1 ▸ (hfs k hk).2.2.2.1⟩)
    (fun k hk => ⟨(hfs k hk).1, (hfs k hk).2.1, (hfs k hk).2.2.1,
      (hfs k hk).2.2.2.1.sep_le (hfs k hk).1 (hfs k hk).2.1 hLNs⟩) ri first minF
  rw [hout] at h1'
  injection h1' with h1'
  injection h1' with h1'
  subst h1'
  obtain ⟨_, i2⟩ := sync_index (hall q hq).1 hev
  have hfq := (hfs q hq).1
  have hfk := (hfs k hkn).1
  have hL : (0 : ℚ) < L := by exact_mod_cast hL0
  have ht : 0 ≤ t := by rw [i2]; positivity
  have hceil : ((⌈(g.N : ℚ) / g.Ns⌉₊ : Nat) : ℚ) * g.Ns = g.N := by
    obtain ⟨R, hR⟩ := hdvd
    have h0 : (0 : ℚ) < g.Ns := by exact_mod_cast hNs
    have : (g.N : ℚ) / g.Ns = R := by
      rw [hR]
      push_cast
      field_simp
    rw [this, Nat.ceil_natCast, hR]
    push_cast
    ring
  have htq : t * fs q = g.N + evUps pre q * g.Ns := by
    rw [i2, div_mul_cancel₀ _ hfq.ne', Nat.cast_add, add_mul, hceil]
  have hmin : min (stepsIn n L (fs k) (f k) - 1) ⌊t * fs k / L⌋₊ = ⌊t * fs k / L⌋₊ := by
    obtain ⟨t', ht', hlt⟩ := hlive
    rw [(hall k hkn).2, hb] at ht'
    unfold asyncBc everySep at ht'
    obtain ⟨j, hj, rfl⟩ := List.mem_map.mp ht'
    have hj' := List.mem_range.mp hj
    rw [Nat.min_eq_right]
    have h1 : t * fs k / L ≤ ((1 + j : Nat) : ℚ) := by
      rw [lt_div_iff₀ hfk] at hlt
      rw [div_le_iff₀ hL]
      exact hlt.le
    have h2 := Nat.floor_le_floor h1
    rw [Nat.floor_natCast] at h2
    omega
  rw [hmin] at hsum
  simp only
  rw [hsum, htq]
  push_cast
  have h1 : (⌊t * fs k / L⌋₊ : ℚ) ≤ t * fs k / L := Nat.floor_le (by positivity)
  have h2 : t * fs k / L < ⌊t * fs k / L⌋₊ + 1 := Nat.lt_floor_add_one _
  rw [le_div_iff₀ hL] at h1
  rw [div_lt_iff₀ hL] at h2
  constructor <;> linarith

/-- C95 (e): when the clock of node `k` is inferred exactly, the frame that node `q` holds of it (with its
initial filter) at an update at time `t` consists of the last `N` samples of the packets that `k` has
completed by then: with (c), it ends at sample `N + i Ns` of node `k` plus the sum of the flags, when the
frame of `q` itself ends at its sample `N + i Ns`. -/
theorem C95_frame {n L : Nat} (hn : 0 < n) {fs f : Nat → ℚ} (nbs : List (List Nat))
    {seq : Bool} {ri : Nat} {first minF : Int}
    (hfs : ∀ k < nbs.length, 0 < fs k ∧ 0 < f k ∧ inferFs (clockStamps (fs k) n) = .ok (f k) ∧
      ClockClose n L (fs k) (f k))
    (hg : ∀ k < nbs.length, g.fs k = f k) (hb : g.bc = .few L false) (hL0 : 0 < L) (hLNs : L ≤ g.Ns)
    {out : List (Instant ℚ)} {fsInf : List ℚ}
    (hout : initEventsFC g.bc g.N g.Ns seq false ri first minF (asyncNodes fs n nbs) = .ok (out, fsInf))
    (hN : 2 ≤ g.N) (hLN : L ≤ g.N) (hnb : GoodNeighbours g.nb) {k : Nat} (hkn : k < nbs.length)
    (hex : f k = fs k) {x : List K} (hx : (y k)[g.refSensor]? = some x) (hxn : x.length = n)
    {M : Nat → Nat} (hM : M k = (y k).length) {q idx : Nat} (hqn : q < nbs.length)
    (hk : (g.nb q)[idx]? = some k) {t : ℚ} {pre post : List (ℚ × Nat × EvType)}
    (hev : flatEvents out = pre ++ (t, q, .up) :: post)
    (hkeep : (g.noFusion = true ∧ (y k).length = 1) ∨ ∀ ev ∈ pre, |ev.1| < g.upTDEvery)
    {T : Nat} {s : GivenSt K}
    (h : g.run y (.init g.N g.refSensor T M) (pre ++ [(t, q, .up)]) = .ok s) :
    ∃ col, (s.net.z q)[idx]? = some col ∧
      LastSamples g.N (x.take (min (stepsIn n L (fs k) (f k) - 1) ⌊t * fs k / L⌋₊ * L)) col := by
  have hNs : 0 < g.Ns := by omega
  obtain ⟨out'', h1', ⟨arg, hbuilt, hti⟩, hall, _⟩ := initEventsFC_async (seq := seq) (N := g.N) (bc := g.bc)
    (fs := fs) (f := f) hNs hn nbs (by rw [hb]; intro h; cases h)
    (by
      rw [hb]; intro L' e' h; injection h with h1 h2
      exact ⟨h1 ▸ hL0, h2.symm, fun k hk => h1 ▸ (hfs k hk).2.2.2⟩)
    (fun k hk => ⟨(hfs k hk).1, (hfs k hk).2.1, (hfs k hk).2.2.1,
      (hfs k hk).2.2.2.sep_le (hfs k hk).1 (hfs k hk).2.1 hLNs⟩) ri first minF
  rw [hout] at h1'
  injection h1' with h1'
  injection h1' with h1'
  subst h1'
  obtain ⟨hfk, hfk', _, hcl⟩ := hfs k hkn
  have ht : 0 ≤ t := by
    rw [(sync_index (hall q hqn).1 hev).2]
    have := (hfs q hqn).1
    positivity
  have hbk := (hall k hkn).2
  rw [hb] at hbk
  have hbc : bcTimes pre k = everySep L (fs k) 1 (min (stepsIn n L (fs k) (f k)) (⌊t * fs k / L⌋₊ + 1)) := by
    rw [bcTimes_before (schedule_order hbuilt hti) hev k, hbk, asyncBc, everySep_filter' hL0 hfk 1 _ ht]
  have hmin : min (stepsIn n L (fs k) (f k)) (⌊t * fs k / L⌋₊ + 1) - 1 =
      min (stepsIn n L (fs k) (f k) - 1) ⌊t * fs k / L⌋₊ := by omega
  have hreg : bcEnds (g.fs k) k pre = (List.range (min (stepsIn n L (fs k) (f k) - 1) ⌊t * fs k / L⌋₊)).map
      fun (j : Nat) => ((0 + (j + 1) * L : Nat) : Int) := by
    rw [bcEnds_eq, hbc, hg k hkn, hex]
    rw [hex] at hmin
    unfold everySep
    rw [List.map_map, hmin]
    apply List.map_congr_left
    intro j _
    rw [Function.comp_apply, floor_everySep hfk]
    congr 1
    ring
  have hlen : 0 + min (stepsIn n L (fs k) (f k) - 1) ⌊t * fs k / L⌋₊ * L ≤ x.length := by
    rw [hxn, Nat.zero_add]
    rcases Nat.eq_zero_or_pos (stepsIn n L (fs k) (f k)) with h0 | h0
    · rw [h0]
      simp
    · have := steps_inside hn hL0 hfk hfk' hcl (by omega : stepsIn n L (fs k) (f k) - 1 < _)
      exact (Nat.mul_le_mul_right L (Nat.min_le_left _ _)).trans this.le
  obtain ⟨col, c1, c2⟩ := C76_delivery hb hN hLN hnb hx hM hk hkeep hreg hlen h
  exact ⟨col, c1, by simpa using c2⟩

/-- The number of packets of `L` samples that node `k` has completed by its own clock when node `q` makes
its update number `i` (counted from 0). -/
def packetsAt (g : GivenCfg K) (n L : Nat) (fs f : Nat → ℚ) (q k i : Nat) : Nat :=
  min (stepsIn n L (fs k) (f k) - 1) ⌊((⌈(g.N : ℚ) / g.Ns⌉₊ + i : Nat) : ℚ) * g.Ns / fs q * fs k / L⌋₊

/-- C95 (f): exactly when it is that the run ends normally: between two updates in a row of a node, no
neighbour may complete packets of more than `N` samples in all. Otherwise the run fails with
`ValueError`. -/
theorem C95_completes_iff (U : Strategy K) {n L : Nat} (hn : 0 < n) {fs f : Nat → ℚ} (nbs : List (List Nat))
    {seq : Bool} (ri : Nat) (first minF : Int)
    (hfs : ∀ k < nbs.length, 0 < fs k ∧ 0 < f k ∧ inferFs (clockStamps (fs k) n) = .ok (f k) ∧
      ClockClose n L (fs k) (f k) ∧ (g.Ns : ℚ) * fs k ≤ g.N * f k)
    (hg : ∀ k < nbs.length, g.fs k = f k) (hb : g.bc = .few L false) (hL0 : 0 < L) (hLNs : L ≤ g.Ns)
    (he : 2 ∣ g.N) (hNsN : g.Ns ≤ g.N) (hfl : g.f.length = g.N) (gd : GoodNeighbours g.nb)
    (hnb : ∀ q < nbs.length, ∀ k ∈ g.nb q, k < nbs.length)
    (hy : ∀ k < nbs.length, ∀ ch ∈ y k, ch.length = n)
    (hU : ∀ k h, (∀ b ∈ (U.rows k h).int, b.length = g.N / 2 + 1) ∧
      (∀ b ∈ (U.rows k h).ext, b.length = g.N / 2 + 1) ∧ ∀ b ∈ (U.rows k h).loc, b.length = g.N / 2 + 1)
    (hw : ∀ k i, (∀ b ∈ g.wInt k i, b.length = g.N / 2 + 1) ∧
      (∀ b ∈ g.wExt k i, b.length = g.N / 2 + 1) ∧ ∀ b ∈ g.wLoc k i, b.length = g.N / 2 + 1)
    (M : Nat → Nat) :
    ∃ out, initEventsFC g.bc g.N g.Ns seq false ri first minF (asyncNodes fs n nbs) =
        .ok (out, (List.range nbs.length).map f) ∧
      ((∃ a, adaptRun U y (.init g n M) (flatEvents out) = .ok a) ↔
        ∀ q < nbs.length, ∀ k ∈ g.nb q, ∀ i,
          ⌈(g.N : ℚ) / g.Ns⌉₊ + (i + 1) < stepsIn n g.Ns (fs q) (f q) →
          (packetsAt g n L fs f q k (i + 1) - packetsAt g n L fs f q k i) * L ≤ g.N) ∧
      ((¬ ∃ a, adaptRun U y (.init g n M) (flatEvents out) = .ok a) →
        adaptRun U y (.init g n M) (flatEvents out) = .error .valueError) := by
  have hNs : 0 < g.Ns := by omega
  have hN : 0 < g.N := by omega
  obtain ⟨out, hout, ⟨arg, ha, hti⟩, hall, hty⟩ := initEventsFC_async (seq := seq) (N := g.N) (bc := g.bc)
    (fs := fs) (f := f) hNs hn nbs (by rw [hb]; intro h; cases h)
    (by
      rw [hb]; intro L' e' h; injection h with h1 h2
      exact ⟨h1 ▸ hL0, h2.symm, fun k hk => h1 ▸ (hfs k hk).2.2.2.1⟩)
    (fun k hk => ⟨(hfs k hk).1, (hfs k hk).2.1, (hfs k hk).2.2.1,
      (hfs k hk).2.2.2.1.sep_le (hfs k hk).1 (hfs k hk).2.1 hLNs⟩) ri first minF
  have hord := schedule_order ha hti
  have hevok := fun pre ev post (hsp : flatEvents out = pre ++ ev :: post) =>
    async_evok (g := g) (y := y) hn hfs hg hb hL0 hLNs hy hall hty hsp
  -- the two ways of saying that the buffers overflow
  have hcount : ∀ {pre post t q k i}, flatEvents out = pre ++ (t, q, .up) :: post → q < nbs.length →
      k ∈ g.nb q → evUps pre q = i + 1 →
      evBcs (evSince q pre) k = packetsAt g n L fs f q k (i + 1) - packetsAt g n L fs f q k i := by
    intro pre post t q k i hsp hq hk hi
    have hbk := (hall k (hnb q hq k hk)).2
    rw [hb] at hbk
    exact async_between_eq hL0 (hfs k (hnb q hq k hk)).1 (hfs q hq).1 hord hsp (hall q hq).1 hbk hi
  have hbad : ∀ {pre ev post}, flatEvents out = pre ++ ev :: post → ¬ BufOk g L pre ev →
      adaptRun U y (.init g n M) (flatEvents out) = .error .valueError := by
    intro pre ev post hsp hbo
    exact adaptRun_buf (T := n) hb hN he (by omega) hNsN hfl gd hU (fun k i => (hw k i).1) (fun k i => (hw k i).2.1)
      (fun k i => (hw k i).2.2) M _ (fun p e p' h => hevok p e p' h) (fun ev h => (hty ev h).2.symm) hsp hbo
  have hgood : (∀ pre ev post, flatEvents out = pre ++ ev :: post → BufOk g L pre ev) →
      ∃ a, adaptRun U y (.init g n M) (flatEvents out) = .ok a := by
    intro h
    obtain ⟨a, h1, _⟩ := adaptRun_total (y := y) (U := U) (L := L) (T := n) hb hN he (by omega) hNsN hfl gd hU
      (fun k i => (hw k i).1) (fun k i => (hw k i).2.1) (fun k i => (hw k i).2.2) M (flatEvents out)
      (fun p e p' hs => hevok p e p' hs (h p e p' hs))
    exact ⟨a, h1⟩
  refine ⟨out, hout, ⟨fun ⟨a, h⟩ q hq k hk i hi => ?_, fun h => hgood fun pre ev post hsp => ?_⟩, fun h => ?_⟩
  · by_contra hc
    obtain ⟨pre, t, post, hsp, hu⟩ := up_split (q := q) (evs := flatEvents out) (i := i + 1) (by
      rw [(hall q hq).1, everySep_length]; omega)
    rw [← hcount hsp hq hk hu] at hc
    have := hbad hsp (fun hbo => hc (hbo rfl (by simp only; omega) k hk))
    rw [h] at this
    cases this
  · intro hu h0 k hk
    obtain ⟨t, q, ty⟩ := ev
    simp only at hu h0 hk ⊢
    subst hu
    have hq := (hty (t, q, .up) (by rw [hsp]; simp)).1
    obtain ⟨i, hi⟩ : ∃ i, evUps pre q = i + 1 := ⟨evUps pre q - 1, by omega⟩
    rw [hcount hsp hq hk hi]
    refine h q hq k hk i ?_
    have := (sync_index (hall q hq).1 hsp).1
    rw [hi] at this
    exact this
  · by_contra hc
    apply h
    refine hgood fun pre ev post hsp => ?_
    by_contra hbo
    exact hc (hbad hsp hbo)

/-- C95 (g): without overlap (`Ns = N`, a multiple of `L`), one clock that is faster than that of a
neighbour makes the run fail with `ValueError`: as soon as it has gained a packet since the first update of
the neighbour, while both still have samples. -/
theorem C95_no_overlap (U : Strategy K) {n L : Nat} (hn : 0 < n) {fs f : Nat → ℚ} (nbs : List (List Nat))
    {seq : Bool} (ri : Nat) (first minF : Int)
    (hfs : ∀ k < nbs.length, 0 < fs k ∧ 0 < f k ∧ inferFs (clockStamps (fs k) n) = .ok (f k) ∧
      ClockClose n L (fs k) (f k) ∧ fs k ≤ f k)
    (hg : ∀ k < nbs.length, g.fs k = f k) (hb : g.bc = .few L false) (hL0 : 0 < L) (hLN : L ∣ g.N)
    (he : 2 ∣ g.N) (h0 : 0 < g.N) (hNsN : g.Ns = g.N) (hfl : g.f.length = g.N) (gd : GoodNeighbours g.nb)
    (hnb : ∀ q < nbs.length, ∀ k ∈ g.nb q, k < nbs.length)
    (hy : ∀ k < nbs.length, ∀ ch ∈ y k, ch.length = n)
    (hU : ∀ k h, (∀ b ∈ (U.rows k h).int, b.length = g.N / 2 + 1) ∧
      (∀ b ∈ (U.rows k h).ext, b.length = g.N / 2 + 1) ∧ ∀ b ∈ (U.rows k h).loc, b.length = g.N / 2 + 1)
    (hw : ∀ k i, (∀ b ∈ g.wInt k i, b.length = g.N / 2 + 1) ∧
      (∀ b ∈ g.wExt k i, b.length = g.N / 2 + 1) ∧ ∀ b ∈ g.wLoc k i, b.length = g.N / 2 + 1)
    (M : Nat → Nat) {q k i : Nat} (hq : q < nbs.length) (hk : k ∈ g.nb q)
    (hdrift : L ≤ (i * g.N : ℚ) / fs q * fs k - i * g.N)
    (hupd : 1 + i < stepsIn n g.N (fs q) (f q))
    (hlive : ⌊((1 + i : Nat) : ℚ) * g.N / fs q * fs k / L⌋₊ < stepsIn n L (fs k) (f k)) :
    ∃ out, initEventsFC g.bc g.N g.Ns seq false ri first minF (asyncNodes fs n nbs) =
        .ok (out, (List.range nbs.length).map f) ∧
      adaptRun U y (.init g n M) (flatEvents out) = .error .valueError := by
  have hN0 : (0 : ℚ) < g.N := by exact_mod_cast h0
  obtain ⟨out, h1, h2, h3⟩ := C95_completes_iff (g := g) (y := y) U hn nbs (seq := seq) ri first minF
    (fun k hk => by
      obtain ⟨a, b, c, d, e⟩ := hfs k hk
      refine ⟨a, b, c, d, ?_⟩
      rw [hNsN]
      exact mul_le_mul_of_nonneg_left e hN0.le)
    hg hb hL0 (by rw [hNsN]; exact Nat.le_of_dvd h0 hLN) he hNsN.le hfl gd hnb hy hU hw M
  refine ⟨out, h1, h3 fun hok => ?_⟩
  have hall := h2.mp hok q hq k hk
  have hR : ⌈(g.N : ℚ) / g.Ns⌉₊ = 1 := by rw [hNsN, div_self hN0.ne', Nat.ceil_one]
  rw [hR] at hall
  obtain ⟨D, hD⟩ := hLN
  have hstep : ∀ j ≤ i, packetsAt g n L fs f q k j ≤ packetsAt g n L fs f q k 0 + j * D := by
    intro j
    induction j with
    | zero => intro _; omega
    | succ j ih =>
      intro hj
      have h := hall j (by rw [hNsN]; omega)
      rw [hD, Nat.mul_comm L D] at h
      have := Nat.le_of_mul_le_mul_right h hL0
      have := ih (by omega)
      have e : (j + 1) * D = j * D + D := by ring
      omega
  have h4 := hstep i le_rfl
  have hL : (0 : ℚ) < L := by exact_mod_cast hL0
  have hfq := (hfs q hq).1
  have hfk := (hfs k (hnb q hq k hk)).1
  have h5 : packetsAt g n L fs f q k i = ⌊((1 + i : Nat) : ℚ) * g.N / fs q * fs k / L⌋₊ := by
    unfold packetsAt
    rw [hR, hNsN, Nat.min_eq_right (by omega)]
  have h6 : packetsAt g n L fs f q k 0 ≤ ⌊(1 : ℚ) * g.N / fs q * fs k / L⌋₊ := by
    unfold packetsAt
    rw [hR, hNsN]
    simpa using Nat.min_le_right _ _
  have h7 : ⌊(1 : ℚ) * g.N / fs q * fs k / L⌋₊ + (i * D + 1) ≤ ⌊((1 + i : Nat) : ℚ) * g.N / fs q * fs k / L⌋₊ := by
    rw [← Nat.floor_add_natCast (by positivity)]
    refine Nat.floor_le_floor ?_
    have hDq : (g.N : ℚ) = L * D := by rw [hD]; push_cast; ring
    have h8 : ((i * D + 1 : Nat) : ℚ) ≤ (i * g.N : ℚ) / fs q * fs k / L := by
      rw [le_div_iff₀ hL]
      push_cast
      have : (i * g.N : ℚ) = i * D * L := by rw [hDq]; ring
      linarith
    have h9 : ((1 + i : Nat) : ℚ) * g.N / fs q * fs k / L =
        (1 : ℚ) * g.N / fs q * fs k / L + (i * g.N : ℚ) / fs q * fs k / L := by
      push_cast
      ring
    rw [h9]
    linarith
  omega

end
local instance asyncStar : StarRing ℚ := starRingOfComm

/-- Two clocks, of 1 and 5/4 Hz. -/
def exFs (k : Nat) : ℚ := if k = 0 then 1 else 5 / 4

/-- The configuration of `exPair` for these clocks. -/
def exAsync : GivenCfg ℚ := { exPair false [[1, 1], [0, 0]] with fs := exFs }

/-- The schedule for seven samples per node, with `L = Ns = 1` and `N = 2`. -/
def exAsyncEvs : List (ℚ × Nat × EvType) :=
  [(4 / 5, 1, .bc), (1, 0, .bc), (8 / 5, 1, .bc), (8 / 5, 1, .up), (2, 0, .bc), (2, 0, .up), (12 / 5, 1, .bc),
   (12 / 5, 1, .up), (3, 0, .bc), (3, 0, .up), (16 / 5, 1, .bc), (16 / 5, 1, .up), (4, 0, .bc), (4, 1, .bc),
   (4, 0, .up), (4, 1, .up), (5, 0, .bc), (5, 0, .up)]

set_option maxHeartbeats 4000000 in
/-- The hypotheses of `C95_schedule` are met (both frequencies are inferred exactly), and the schedule is as
it says. -/
example : inferFs (clockStamps 1 7) = .ok 1 ∧ inferFs (clockStamps (5 / 4) 7) = .ok (5 / 4) ∧
    (initEventsFC (.few 1 false) 2 1 true false 0 0 1 (asyncNodes exFs 7 [[1], [0]])).toOption.map
      (fun o => (flatEvents o.1, o.2)) = some (exAsyncEvs, [1, 5 / 4]) := by
  decide_cbv

/-- The hypotheses of `C95_completes`, `C95_flags`, `C95_drift` and `C95_frame` are met. The flags of node 0
add up to 1 at its update at time 4, when node 1 has completed its samples 0 to 4; node 0 holds the last two of
those samples. At time 5, node 1 has no samples left to send. -/
example : (∀ k < 2, 0 < exFs k ∧ ClockClose 7 1 (exFs k) (exFs k) ∧
      (exAsync.Ns : ℚ) * exFs k ≤ exAsync.N * exFs k) ∧
    (∀ k < 2, exAsync.fs k = exFs k) ∧ exAsync.bc = .few 1 false ∧ 1 ≤ exAsync.Ns ∧ 2 ∣ exAsync.N ∧
    exAsync.Ns ∣ exAsync.N ∧
    (∀ q < 2, ∀ k ∈ exAsync.nb q, ⌈(exAsync.Ns : ℚ) * exFs k / (exFs q * (1 : Nat))⌉₊ * 1 ≤ exAsync.N) ∧
    exAsync.f.length = exAsync.N ∧ (∀ q < 2, ∀ k ∈ exAsync.nb q, k < 2) ∧
    (∀ k < 2, ∀ ch ∈ exSync k, ch.length = 7) := by
  refine ⟨?_, ?_, rfl, by decide, by decide, by decide, ?_, by decide, by decide, by decide⟩
  · intro k hk
    interval_cases k <;> norm_num [exFs, ClockClose, exAsync, exPair, exGiven]
  · intro k _; rfl
  · decide +kernel

example : (adaptRun exStrategy exSync (.init exAsync 7 fun _ => 1) (exAsyncEvs.take 15)).toOption.map
      (fun a => (a.st.net.flags 0, a.st.net.z 0)) = some ([[0], [0], [1]], [[8, 2]]) ∧
    (adaptRun exStrategy exSync (.init exAsync 7 fun _ => 1) exAsyncEvs).toOption.map
      (fun a => (a.st.net.flags 0, a.st.net.flags 1)) = some ([[0], [0], [1], [-1]], [[-1], [0], [0], [0]]) := by
  decide +kernel

/-- The same without overlap, and with nine samples per node. -/
def exApartCfg : GivenCfg ℚ := { exAsync with Ns := 2 }

def exNine (k : Nat) : List (List ℚ) := [[k, 1, 4, 1, 5, 9, 2, 6, k]]

/-- The schedule of this run. -/
def exNineEvs : List (ℚ × Nat × EvType) :=
  [(4 / 5, 1, .bc), (1, 0, .bc), (8 / 5, 1, .bc), (8 / 5, 1, .up), (2, 0, .bc), (2, 0, .up), (12 / 5, 1, .bc),
   (3, 0, .bc), (16 / 5, 1, .bc), (16 / 5, 1, .up), (4, 0, .bc), (4, 1, .bc), (4, 0, .up), (24 / 5, 1, .bc),
   (24 / 5, 1, .up), (5, 0, .bc), (28 / 5, 1, .bc), (6, 0, .bc), (6, 0, .up), (7, 0, .bc)]

/-- The hypotheses of `C95_no_overlap` are met with `i = 2`. -/
example : (2 : Nat) = exApartCfg.Ns ∧ exApartCfg.Ns = exApartCfg.N ∧ 1 ∈ exApartCfg.nb 0 ∧
    ((1 : Nat) : ℚ) ≤ ((2 : Nat) * exApartCfg.N : ℚ) / exFs 0 * exFs 1 - (2 : Nat) * exApartCfg.N ∧
    1 + 2 < stepsIn 9 exApartCfg.N (exFs 0) (exFs 0) ∧
    ⌊((1 + 2 : Nat) : ℚ) * exApartCfg.N / exFs 0 * exFs 1 / (1 : Nat)⌋₊ < stepsIn 9 1 (exFs 1) (exFs 1) := by
  refine ⟨by decide, by decide, by decide, ?_, by decide +kernel, by decide +kernel⟩
  norm_num [exApartCfg, exAsync, exPair, exGiven, exFs]

set_option maxHeartbeats 4000000 in
example : (initEventsFC (.few 1 false) 2 2 true false 0 0 1 (asyncNodes exFs 9 [[1], [0]])).toOption.map
      (fun o => (flatEvents o.1, o.2)) = some (exNineEvs, [1, 5 / 4]) := by
  decide_cbv

/-- The run over this schedule fails. -/
example : (match adaptRun exStrategy exNine (.init exApartCfg 9 fun _ => 1) exNineEvs with
    | .ok _ => none | .error e => some e) = some PyErr.valueError := by
  decide +kernel

end Danse
