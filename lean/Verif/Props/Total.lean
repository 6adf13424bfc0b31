import Verif.Proofs.Total4
import Verif.Props.Online2

/-!
# Property C80: an online run on a regular recording runs to completion

The schedule is the one that the code makes for synchronous nodes with few-sample broadcasts (C78). `U` is
any way in which the nodes compute filters and phase factors.
-/

namespace Danse
section
variable {K : Type} [Field K] [StarRing K] [DecidableEq K] {g : GivenCfg K} {y : Nat → List (List K)}

/-- C80 (a): when all the channels of all the nodes have `n` samples, the clocks are the same and inferred
exactly, `L ≤ Ns` samples are broadcast at a time, the frame length is even and one frame is long enough for
what a neighbour can send between two updates, and the filters have one value per bin, then the schedule is
made and the run over it ends normally: no exception at any event, whatever the signals are and however
many samples, nodes and channels there are. -/
theorem C80_completes (U : Strategy K) {n L : Nat} (hn : 0 < n) {fs : ℚ} (hfs : 0 < fs)
    (hf : inferFs (clockStamps fs n) = .ok fs) (nbs : List (List Nat)) {seq sim : Bool}
    {ri : Nat} (first minF : Int) (hri : sim = true → ri < nbs.length)
    (hg : ∀ k, g.fs k = fs) (hb : g.bc = .few L false) (hL0 : 0 < L) (hLNs : L ≤ g.Ns)
    (hN : 0 < g.N) (he : 2 ∣ g.N) (hbuf : g.Ns + L ≤ g.N + 1 ∨ L ∣ g.Ns ∧ g.Ns ≤ g.N)
    (hfl : g.f.length = g.N) (gd : GoodNeighbours g.nb)
    (hnb : ∀ q < nbs.length, ∀ k ∈ g.nb q, k < nbs.length)
    (hy : ∀ k < nbs.length, ∀ ch ∈ y k, ch.length = n)
    (hU : ∀ k h, (∀ b ∈ (U.rows k h).int, b.length = g.N / 2 + 1) ∧
      (∀ b ∈ (U.rows k h).ext, b.length = g.N / 2 + 1) ∧ ∀ b ∈ (U.rows k h).loc, b.length = g.N / 2 + 1)
    (hw : ∀ k i, (∀ b ∈ g.wInt k i, b.length = g.N / 2 + 1) ∧
      (∀ b ∈ g.wExt k i, b.length = g.N / 2 + 1) ∧ ∀ b ∈ g.wLoc k i, b.length = g.N / 2 + 1)
    (M : Nat → Nat) :
    ∃ out a, initEventsFC g.bc g.N g.Ns seq sim ri first minF (syncNodes fs n nbs) =
        .ok (out, List.replicate nbs.length fs) ∧
      adaptRun U y (.init g n M) (flatEvents out) = .ok a := by
  obtain ⟨out, a, h1, h2, _⟩ := sync_alive (y := y) U hn hfs hf nbs (seq := seq) (sim := sim) (ri := ri) first minF hri
    hg hb hL0 hLNs hN he hbuf hfl gd hnb hy hU hw M
  exact ⟨out, a, h1, h2⟩

/-- C80 (b): the same for a run with given filters. -/
theorem C80_given {n L : Nat} (hn : 0 < n) {fs : ℚ} (hfs : 0 < fs)
    (hf : inferFs (clockStamps fs n) = .ok fs) (nbs : List (List Nat)) {seq sim : Bool}
    {ri : Nat} (first minF : Int) (hri : sim = true → ri < nbs.length)
    (hg : ∀ k, g.fs k = fs) (hb : g.bc = .few L false) (hL0 : 0 < L) (hLNs : L ≤ g.Ns)
    (hN : 0 < g.N) (he : 2 ∣ g.N) (hbuf : g.Ns + L ≤ g.N + 1 ∨ L ∣ g.Ns ∧ g.Ns ≤ g.N)
    (hfl : g.f.length = g.N) (gd : GoodNeighbours g.nb)
    (hnb : ∀ q < nbs.length, ∀ k ∈ g.nb q, k < nbs.length)
    (hy : ∀ k < nbs.length, ∀ ch ∈ y k, ch.length = n)
    (hw : ∀ k i, (∀ b ∈ g.wInt k i, b.length = g.N / 2 + 1) ∧
      (∀ b ∈ g.wExt k i, b.length = g.N / 2 + 1) ∧ ∀ b ∈ g.wLoc k i, b.length = g.N / 2 + 1)
    (M : Nat → Nat) :
    ∃ out s, initEventsFC g.bc g.N g.Ns seq sim ri first minF (syncNodes fs n nbs) =
        .ok (out, List.replicate nbs.length fs) ∧
      g.run y (.init g.N g.refSensor n M) (flatEvents out) = .ok s := by
  let U : Strategy K := ⟨fun k h => g.rot k (h.length - 1),
    fun k h => ⟨g.wInt k h.length, g.wExt k h.length, g.wLoc k h.length⟩⟩
  obtain ⟨out, a, h1, h2⟩ := C80_completes (y := y) U hn hfs hf nbs (seq := seq) (sim := sim) (ri := ri)
    first minF hri hg hb hL0 hLNs hN he hbuf hfl gd hnb hy (fun k h => hw k h.length) hw M
  obtain ⟨w1, w2, w3⟩ := C77_written h2
  have hobs := fun k => (C77_observed h2 k).1
  have hlen : ∀ k, (a.hist k).length = evUps (flatEvents out) k := by
    intro k
    rw [← evUps_length, ← hobs, List.length_map]
  refine ⟨out, a.st, h1, ?_⟩
  rw [← w3]
  symm
  obtain ⟨w, -⟩ := adaptRun_written (fun _ => rfl) _ h2
  refine C77_rows w.fixed (fun k i ha hb => ?_) (fun k i hi => ?_) (fun k i hi => ?_) _ _ _ _
  · obtain ⟨e1, _, e3, _⟩ := w1 k i ha hb
    have hl : ((a.hist k).take i).length = i := by rw [List.length_take, hlen]; omega
    simp only [U, hl] at e1 e3
    exact ⟨e1, e3⟩
  · obtain ⟨_, _, _, e4⟩ := w1 k (i + 1) (by omega) (by omega)
    have hl : ((a.hist k).take (i + 1)).length = i + 1 := by rw [List.length_take, hlen]; omega
    simp only [U, hl, Nat.add_sub_cancel] at e4
    exact e4
  · rcases Nat.eq_zero_or_pos i with rfl | h0
    · exact (w2 k).2.1
    · obtain ⟨_, e2, _, _⟩ := w1 k i h0 hi
      have hl : ((a.hist k).take i).length = i := by rw [List.length_take, hlen]; omega
      simp only [U, hl] at e2
      exact e2

/-- C80 (c): when in addition `L` divides the hop and the hop divides the frame length, no buffer of any
node ever has too many or too few samples: the flags of every update of every node are all zero. -/
theorem C80_flags (U : Strategy K) {n L : Nat} (hn : 0 < n) {fs : ℚ} (hfs : 0 < fs)
    (hf : inferFs (clockStamps fs n) = .ok fs) (nbs : List (List Nat)) {seq sim : Bool}
    {ri : Nat} (first minF : Int) (hri : sim = true → ri < nbs.length)
    (hg : ∀ k, g.fs k = fs) (hb : g.bc = .few L false) (hL0 : 0 < L) (hLd : L ∣ g.Ns) (hNd : g.Ns ∣ g.N)
    (hN : 0 < g.N) (he : 2 ∣ g.N) (hfl : g.f.length = g.N) (gd : GoodNeighbours g.nb)
    (hnb : ∀ q < nbs.length, ∀ k ∈ g.nb q, k < nbs.length)
    (hy : ∀ k < nbs.length, ∀ ch ∈ y k, ch.length = n)
    (hU : ∀ k h, (∀ b ∈ (U.rows k h).int, b.length = g.N / 2 + 1) ∧
      (∀ b ∈ (U.rows k h).ext, b.length = g.N / 2 + 1) ∧ ∀ b ∈ (U.rows k h).loc, b.length = g.N / 2 + 1)
    (hw : ∀ k i, (∀ b ∈ g.wInt k i, b.length = g.N / 2 + 1) ∧
      (∀ b ∈ g.wExt k i, b.length = g.N / 2 + 1) ∧ ∀ b ∈ g.wLoc k i, b.length = g.N / 2 + 1)
    {M : Nat → Nat} {out : List (Instant ℚ)} {fsInf : List ℚ} {a : AdaptSt K}
    (hout : initEventsFC g.bc g.N g.Ns seq sim ri first minF (syncNodes fs n nbs) = .ok (out, fsInf))
    (ha : adaptRun U y (.init g n M) (flatEvents out) = .ok a) {q : Nat} (hq : q < nbs.length) :
    (a.st.net.flags q).length = (n - 1) / g.Ns - g.N / g.Ns ∧
    ∀ fl ∈ a.st.net.flags q, fl = List.replicate (g.nb q).length 0 := by
  have hNs : 0 < g.Ns := Nat.pos_of_dvd_of_pos hNd hN
  have hLNs : L ≤ g.Ns := Nat.le_of_dvd hNs hLd
  have hNsN : g.Ns ≤ g.N := Nat.le_of_dvd hN hNd
  obtain ⟨out', a', h1, h2, h3⟩ := sync_alive (y := y) U hn hfs hf nbs (seq := seq) (sim := sim) (ri := ri)
    first minF hri hg hb hL0 hLNs hN he (.inr ⟨hLd, hNsN⟩) hfl gd hnb hy hU hw M
  obtain ⟨out'', h1', hall, _⟩ := C78_schedule (seq := seq) (sim := sim) (r := ri) (N := g.N) (bc := g.bc)
    hNs hn hfs hf (by rw [hb]; intro h; cases h)
    (by rw [hb]; intro L' e' h; injection h with h1 h2; exact ⟨h1 ▸ hL0, h2.symm⟩) nbs first minF hri
  rw [hout] at h1 h1'
  injection h1 with h1
  injection h1 with h1
  injection h1' with h1'
  injection h1' with h1'
  subst h1 h1'
  rw [ha] at h2
  injection h2 with h2
  subst h2
  obtain ⟨ops, ho, hnet⟩ := h3.net
  obtain ⟨arg, hbuilt, hti⟩ := initEventsFC_built hout
  have hord := schedule_order hbuilt hti
  have hceil : ⌈(g.N : ℚ) / g.Ns⌉₊ = g.N / g.Ns := by
    obtain ⟨R, hR⟩ := hNd
    have : (g.N : ℚ) / g.Ns = R := by
      rw [hR]
      push_cast
      field_simp
    rw [this, Nat.ceil_natCast]
    conv_rhs => rw [hR]
    rw [Nat.mul_div_cancel_left _ hNs]
  have hu := (hall q hq).1
  rw [hceil] at hu
  have hfl := flags_zero gd (q := q) ho hnet (by
    intro pre t post hsp k hk
    have hbk := (hall k (hnb q hq k hk)).2
    rw [hb] at hbk
    by_cases h0 : evUps pre q = 0
    · rw [if_pos h0]
      obtain ⟨i1, i2⟩ := sync_index hu hsp
      rw [h0, Nat.add_zero] at i1 i2
      rw [evSince_none q pre h0, sync_bcs hL0 hLNs hfs hord hsp hbk i1 i2, Nat.div_mul_cancel hNd,
        Nat.div_mul_cancel (hLd.trans hNd)]
    · rw [if_neg h0]
      exact (sync_between hL0 hLNs hfs hord hsp hu hbk (by omega)).2 hLd)
  rw [hfl]
  refine ⟨?_, fun fl hf => List.eq_of_mem_replicate hf⟩
  rw [List.length_replicate, ← evUps_length, hu, everySep_length]

end

/-- The hypotheses of `C80_completes`, `C80_given` and `C80_flags` are met. -/
example : letI : StarRing ℚ := starRingOfComm
    let g := exPair false [[1, 1], [0, 0]]
    (∀ k, g.fs k = 1) ∧ g.bc = .few 1 false ∧ 1 ∣ g.Ns ∧ g.Ns ∣ g.N ∧ g.Ns + 1 ≤ g.N + 1 ∧ 0 < g.N ∧
    2 ∣ g.N ∧ g.f.length = g.N ∧ (∀ q < 2, ∀ k ∈ g.nb q, k < 2) ∧ (∀ k < 2, ∀ ch ∈ exSync k, ch.length = 7) ∧
    (∀ k h, (∀ b ∈ (exStrategy.rows k h).int, b.length = g.N / 2 + 1) ∧
      (∀ b ∈ (exStrategy.rows k h).ext, b.length = g.N / 2 + 1) ∧
      ∀ b ∈ (exStrategy.rows k h).loc, b.length = g.N / 2 + 1) ∧
    (∀ k i, (∀ b ∈ g.wInt k i, b.length = g.N / 2 + 1) ∧
      (∀ b ∈ g.wExt k i, b.length = g.N / 2 + 1) ∧ ∀ b ∈ g.wLoc k i, b.length = g.N / 2 + 1) ∧
    (adaptRun exStrategy exSync (.init g 7 fun _ => 1) exSyncEvs).toOption.map
      (fun a => (a.st.net.flags 0, a.st.net.flags 1)) = some ([[0], [0], [0], [0]], [[0], [0], [0], [0]]) := by
  refine ⟨fun _ => rfl, rfl, by decide, by decide, by decide, by decide, by decide, by decide, by decide,
    by decide, fun k h => ?_, fun k i => ?_, by decide +kernel⟩
  · simp [exStrategy, exPair, exGiven]
  · simp [exPair, exGiven]

end Danse
