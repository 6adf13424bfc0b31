import Verif.Proofs.Total7
import Verif.Props.Total2

/-!
# Property C132: with efficient few-sample broadcasts a synchronous run completes, also with the centralised estimates

`efficientSpSBC` (on by default): a node gathers its samples and broadcasts only right before its neighbours update.
-/

set_option linter.unusedSectionVars false

namespace Danse
section
variable {K : Type} [Field K] [StarRing K] [DecidableEq K] {g : GivenCfg K} {y : Nat → List (List K)}

/-- C132 (a): all clocks at the same rate, efficient broadcasts of multiples of `L` samples, `L ≤ Ns`, `Ns + L ≤ N + 1`
or `L` a divisor of `Ns ≤ N`, signals of `n` samples, every node a neighbour of its neighbours: the schedule is built and the
whole run goes through without an exception, whatever the signals and whatever filters (with the right number of
bins) the nodes compute. -/
theorem C132_completes (U : Strategy K) {n L : Nat} (hn : 0 < n) {fs : ℚ} (hfs : 0 < fs)
    (hf : inferFs (clockStamps fs n) = .ok fs) (nbs : List (List Nat))
    (hne : ∀ nb ∈ nbs, nb ≠ [] ∧ ∀ q ∈ nb, q < nbs.length) {seq sim : Bool}
    {ri : Nat} (first minF : Int) (hri : sim = true → ri < nbs.length)
    (hg : ∀ k, g.fs k = fs) (hst : ∀ k, g.stamps k = clockStamps fs n)
    (hb : g.bc = .few L true) (hL0 : 0 < L) (hLNs : L ≤ g.Ns) (hLn : L < n)
    (hN : 0 < g.N) (he : 2 ∣ g.N) (hbuf : g.Ns + L ≤ g.N + 1 ∨ L ∣ g.Ns ∧ g.Ns ≤ g.N)
    (hfl : g.f.length = g.N) (gd : GoodNeighbours g.nb)
    (hnb : ∀ q < nbs.length, ∀ k ∈ g.nb q, k < nbs.length)
    (hy : ∀ k < nbs.length, ∀ ch ∈ y k, ch.length = n)
    (hU : ∀ k h, (∀ b ∈ (U.rows k h).int, b.length = g.N / 2 + 1) ∧
      (∀ b ∈ (U.rows k h).ext, b.length = g.N / 2 + 1) ∧ ∀ b ∈ (U.rows k h).loc, b.length = g.N / 2 + 1)
    (hw : ∀ k i, (∀ b ∈ g.wInt k i, b.length = g.N / 2 + 1) ∧
      (∀ b ∈ g.wExt k i, b.length = g.N / 2 + 1) ∧ ∀ b ∈ g.wLoc k i, b.length = g.N / 2 + 1)
    (M : Nat → Nat) :
    ∃ out a, initEventsFC g.bc g.N g.Ns seq sim ri first minF (syncNodes fs n nbs) =
        .ok (out, List.replicate nbs.length fs) ∧
      adaptRun U y (.init g n M) (flatEvents out) = .ok a := by
  obtain ⟨out, a, h1, h2, -⟩ := eff_alive (y := y) U hn hfs hf nbs hne (seq := seq) (sim := sim) (ri := ri) first minF hri hg hst hb
    hL0 hLNs hLn hN he hbuf hfl gd hnb hy hU hw M
  exact ⟨out, a, h1, h2⟩

end

section
variable {D : DanseCfg ℂ} {y : Nat → List (List ℂ)}
open scoped ComplexOrder

/-- C132 (b): so does the whole of online DANSE with the MWF update, under the conditions of `C117_completes` on the
covariance matrices. -/
theorem C132_danse (hrule : D.rule = mwfRule) (href : ∀ k, D.g.refSensor < D.M k)
    (hβ : ∀ k, ∃ b : ℝ, 0 < b ∧ b ≤ 1 ∧ D.beta k = (b : ℂ))
    (hv : ∀ m Rnn Ryy, D.valid m Rnn Ryy = true → ∀ κ, (Rnn κ).det ≠ 0 ∧ (Ryy κ).det ≠ 0)
    (hR : D.use1st = true ∨ ∀ k m κ, (D.R0 k m κ).PosSemidef)
    {n L : Nat} (hn : 0 < n) {fs : ℚ} (hfs : 0 < fs)
    (hf : inferFs (clockStamps fs n) = .ok fs) (nbs : List (List Nat))
    (hne : ∀ nb ∈ nbs, nb ≠ [] ∧ ∀ q ∈ nb, q < nbs.length) {seq sim : Bool}
    {ri : Nat} (first minF : Int) (hri : sim = true → ri < nbs.length)
    (hg : ∀ k, D.g.fs k = fs) (hst : ∀ k, D.g.stamps k = clockStamps fs n)
    (hb : D.g.bc = .few L true) (hL0 : 0 < L) (hLNs : L ≤ D.g.Ns) (hLn : L < n)
    (hN : 0 < D.g.N) (he : 2 ∣ D.g.N) (hbuf : D.g.Ns + L ≤ D.g.N + 1 ∨ L ∣ D.g.Ns ∧ D.g.Ns ≤ D.g.N)
    (hfl : D.g.f.length = D.g.N) (gd : GoodNeighbours D.g.nb)
    (hnb : ∀ q < nbs.length, ∀ k ∈ D.g.nb q, k < nbs.length)
    (hy : ∀ k < nbs.length, ∀ ch ∈ y k, ch.length = n)
    (hw : ∀ k i, (∀ b ∈ D.g.wInt k i, b.length = D.nb) ∧
      (∀ b ∈ D.g.wExt k i, b.length = D.nb) ∧ ∀ b ∈ D.g.wLoc k i, b.length = D.nb) :
    ∃ out a, initEventsFC D.g.bc D.g.N D.g.Ns seq sim ri first minF (syncNodes fs n nbs) =
        .ok (out, List.replicate nbs.length fs) ∧
      danseRun D y n (flatEvents out) = .ok a := by
  obtain ⟨out, a, h1, h2⟩ := C132_completes (y := y) D.strategy hn hfs hf nbs hne (seq := seq) (sim := sim) (ri := ri)
    first minF hri hg hst hb hL0 hLNs hLn hN he hbuf hfl gd hnb hy strategy_bins hw D.M
  obtain ⟨b, hb, -⟩ := danseRun_of_adapt (fun k h => by
    obtain ⟨b, b0, b1, bb⟩ := hβ k
    exact nodeFold_total b0 b1 bb (fun m hm Ryy Rnn p _ => by
      rw [hrule]; exact mwfRule_total (lt_of_lt_of_le (href k) hm) p) hv (hR.imp_right fun h => h k) h) _ h2
  exact ⟨out, b, h1, hb⟩

/-- C132 (c): and with the GEVD-based update, under the conditions of `C117_completes_gevd`. -/
theorem C132_danse_gevd {lib : (m : Nat) → LinAlg m} {rank : Nat} (hrule : D.rule = gevdRule lib rank)
    (hrank : ∀ k, rank ≤ D.M k)
    (hlib : ∀ m A B, Matrix.PosDef A → Matrix.PosDef B → ∃ σ X, (lib m).Ok A B σ X)
    (href : ∀ k, D.g.refSensor < D.M k)
    (hβ : ∀ k, ∃ b : ℝ, 0 < b ∧ b ≤ 1 ∧ D.beta k = (b : ℂ))
    (hv : ∀ m Rnn Ryy, D.valid m Rnn Ryy = true → ∀ κ, (Rnn κ).det ≠ 0 ∧ (Ryy κ).det ≠ 0)
    (hR : D.use1st = true ∨ ∀ k m κ, (D.R0 k m κ).PosSemidef)
    {n L : Nat} (hn : 0 < n) {fs : ℚ} (hfs : 0 < fs)
    (hf : inferFs (clockStamps fs n) = .ok fs) (nbs : List (List Nat))
    (hne : ∀ nb ∈ nbs, nb ≠ [] ∧ ∀ q ∈ nb, q < nbs.length) {seq sim : Bool}
    {ri : Nat} (first minF : Int) (hri : sim = true → ri < nbs.length)
    (hg : ∀ k, D.g.fs k = fs) (hst : ∀ k, D.g.stamps k = clockStamps fs n)
    (hb : D.g.bc = .few L true) (hL0 : 0 < L) (hLNs : L ≤ D.g.Ns) (hLn : L < n)
    (hN : 0 < D.g.N) (he : 2 ∣ D.g.N) (hbuf : D.g.Ns + L ≤ D.g.N + 1 ∨ L ∣ D.g.Ns ∧ D.g.Ns ≤ D.g.N)
    (hfl : D.g.f.length = D.g.N) (gd : GoodNeighbours D.g.nb)
    (hnb : ∀ q < nbs.length, ∀ k ∈ D.g.nb q, k < nbs.length)
    (hy : ∀ k < nbs.length, ∀ ch ∈ y k, ch.length = n)
    (hw : ∀ k i, (∀ b ∈ D.g.wInt k i, b.length = D.nb) ∧
      (∀ b ∈ D.g.wExt k i, b.length = D.nb) ∧ ∀ b ∈ D.g.wLoc k i, b.length = D.nb) :
    ∃ out a, initEventsFC D.g.bc D.g.N D.g.Ns seq sim ri first minF (syncNodes fs n nbs) =
        .ok (out, List.replicate nbs.length fs) ∧
      danseRun D y n (flatEvents out) = .ok a := by
  obtain ⟨out, a, h1, h2⟩ := C132_completes (y := y) D.strategy hn hfs hf nbs hne (seq := seq) (sim := sim) (ri := ri)
    first minF hri hg hst hb hL0 hLNs hLn hN he hbuf hfl gd hnb hy strategy_bins hw D.M
  obtain ⟨b, hb, -⟩ := danseRun_of_adapt (fun k h => by
    obtain ⟨b, b0, b1, bb⟩ := hβ k
    exact nodeFold_total b0 b1 bb (fun m hm Ryy Rnn p q => by
      rw [hrule]
      exact gevdRule_total (lt_of_lt_of_le (href k) hm) (le_trans (hrank k) hm) (hlib m Ryy Rnn p q))
      hv (hR.imp_right fun h => h k) h) _ h2
  exact ⟨out, b, h1, hb⟩

variable {C : CDanseCfg ℂ}

/-- C132 (d): asking for the centralised estimate, or for this and the single-sensor-broadcast estimate, never stops such a
run, if `L` divides `Ns`: if the run without them completes, so does the run with them, under the conditions of
`C131_adds`. -/
theorem C132_adds (hc : C.centr = true)
    (hrule : ∀ m r Ryy Rnn, r < m → (∃ k < C.n, C.D.M k ≤ m) → Matrix.PosDef Ryy → Matrix.PosDef Rnn →
      ∃ w, C.D.rule m Ryy Rnn r = .ok w)
    (href : ∀ k, C.D.g.refSensor < C.D.M k)
    (hβ : ∀ k, ∃ b : ℝ, 0 < b ∧ b ≤ 1 ∧ C.D.beta k = (b : ℂ))
    (hv : ∀ m Rnn Ryy, C.D.valid m Rnn Ryy = true → ∀ κ, (Rnn κ).det ≠ 0 ∧ (Ryy κ).det ≠ 0)
    (hR : C.D.use1st = true ∨ ∀ k m κ, (C.D.R0 k m κ).PosSemidef)
    (hsv : ∀ k < C.n, C.SoundVad k)
    (hss : C.ssbc = true → C.compensateSROs = false ∧ ∀ k < C.n, (C.D.g.nb k).length = C.n - 1)
    {n L : Nat} {fs : ℚ} {nbs : List (List Nat)} {out : List (Instant ℚ)} (hs : C.Sync y fs n nbs out)
    (hb : C.D.g.bc = .few L true) (he : 2 ∣ C.D.g.N) (hfl : C.D.g.f.length = C.D.g.N)
    {b : DanseSt C.D} (hrun : danseRun C.D y n (flatEvents out) = .ok b) :
    ∃ a, cdanseRun C y n (flatEvents out) = .ok a := by
  obtain ⟨seq, sim, ri, first, minF, fsInf, hri, hout⟩ := hs.sched
  have hNs := hs.hNs
  have hNsN : C.D.g.Ns ≤ C.D.g.N := Nat.le_of_dvd hs.hN hs.dvd
  obtain ⟨hL, hLn⟩ : L ∣ C.D.g.Ns ∧ L < n := by
    rcases hs.bc with h | ⟨L', h, h1, h2⟩
    · rw [hb] at h; cases h
    · rw [hb] at h
      injection h with h _
      subst h
      exact ⟨h1, h2⟩
  have hL0 : 0 < L := Nat.pos_of_dvd_of_pos hL hNs
  have hLNs : L ≤ C.D.g.Ns := Nat.le_of_dvd hNs hL
  obtain ⟨out', hout', hall, hty⟩ := C87_schedule_efficient (seq := seq) (sim := sim) (r := ri) (N := C.D.g.N) (L := L)
    hNs hs.hN hs.hn hL0 hLNs hLn hs.hfs hs.infer nbs hs.neighbours first minF hri
  rw [hb] at hout
  rw [hout] at hout'
  injection hout' with hout'
  injection hout' with hout'
  subst hout'
  obtain ⟨arg, ha, hti⟩ := initEventsFC_built hout
  have hord := schedule_order ha hti
  rw [← hs.nodes] at hall hty
  obtain ⟨hbc, hsn⟩ := eff_event (g := C.D.g) hs.hn hs.hfs hL0 hLNs hord hs.stamps hall hty
  by_cases hne : flatEvents out = []
  · rw [hne]; exact ⟨_, rfl⟩
  have hR1 : 1 ≤ ⌈(C.D.g.N : ℚ) / C.D.g.Ns⌉₊ := by
    rw [Nat.one_le_iff_ne_zero, ← Nat.pos_iff_ne_zero, Nat.ceil_pos]
    have h1 : (0 : ℚ) < C.D.g.N := by exact_mod_cast hs.hN
    have h2 : (0 : ℚ) < C.D.g.Ns := by exact_mod_cast hNs
    positivity
  have hRN : C.D.g.N ≤ ⌈(C.D.g.N : ℚ) / C.D.g.Ns⌉₊ * C.D.g.Ns := by
    have h1 : (C.D.g.N : ℚ) / C.D.g.Ns ≤ (⌈(C.D.g.N : ℚ) / C.D.g.Ns⌉₊ : ℚ) := Nat.le_ceil _
    rw [div_le_iff₀ (by exact_mod_cast hNs)] at h1
    exact_mod_cast h1
  have hNn : C.D.g.N < n := by
    obtain ⟨⟨t, q, ty⟩, hm⟩ := List.exists_mem_of_ne_nil _ hne
    obtain ⟨hq, h | h⟩ := hty _ hm
    · simp only at h hq
      subst h
      refine (cdanse_long hs hq (t := t) ?_).1
      unfold upTimes
      rw [List.mem_filterMap]
      exact ⟨_, hm, by simp⟩
    · simp only at h hq
      subst h
      obtain ⟨p1, p2, hp⟩ := List.append_of_mem hm
      obtain ⟨-, b2, -, -⟩ := hbc p1 t q p2 hp
      have h3 : (⌈(C.D.g.N : ℚ) / C.D.g.Ns⌉₊ + evBcs p1 q) * C.D.g.Ns / L * L < n := b2
      rw [Nat.div_mul_cancel (hL.trans (Dvd.intro_left _ rfl)), Nat.add_mul] at h3
      omega
  have hge := (cdanse_times hs).2
  obtain ⟨a, ha, -⟩ := cdanse_of_danse (C := C) (y := y) (T := n) hc (fun h => (hss h).1) hs.hN he hNsN hfl
    hs.sensors (fun q hq x hx => by rw [hs.samples q hq x hx]; omega)
    (fun _ q _ => lt_of_le_of_lt (Nat.zero_le _) (href q))
    (fun h k hk => by unfold DanseCfg.dim; rw [(hss h).2 k hk])
    (fun k hk => by
      obtain ⟨β, b0, b1, bb⟩ := hβ k
      refine kindC_total b0 b1 bb (fun Ryy Rnn p q => hrule _ _ _ _ ?_ ⟨k, hk, ?_⟩ p q) hv (hsv k hk) (hR.imp_right fun h => h k)
      · exact sum_range_lt hk (href k)
      · exact List.le_sum_of_mem (List.mem_map.mpr ⟨k, List.mem_range.mpr hk, rfl⟩))
    (fun _ k hk l => by
      obtain ⟨β, b0, b1, bb⟩ := hβ k
      refine kind_total b0 b1 bb (fun Ryy Rnn p q => hrule _ _ _ _ ?_ ⟨k, hk, ?_⟩ p q) (hv _) (hR.imp_right fun h => h k _) _ l
      all_goals
        unfold DanseCfg.dim
        have := href k
        omega)
    (flatEvents out) (by
      intro pre ev post hsp
      have hmem : ev ∈ flatEvents out := by rw [hsp]; simp
      refine ⟨(hge ev hmem).1, (hge ev hmem).2, fun h => ?_, ?_, ?_⟩
      · obtain ⟨t, q, ty⟩ := ev
        simp only at h
        subst h
        obtain ⟨-, -, -, b4⟩ := hbc pre t q post hsp
        unfold CanSend
        rw [hb]
        refine ⟨rfl, ?_⟩
        change effLen C.D.g L pre t q ≠ 0
        rw [b4]
        exact (Nat.sub_pos_of_lt (effEnd_strict hs.hN hL0 hLNs _)).ne'
      all_goals
        obtain ⟨t, q, ty⟩ := ev
        intro hty'
        simp only at hty'
        subst hty'
        have hq := (hge _ hmem).1
        simp only at hq ⊢
        obtain ⟨i1, i2⟩ := sync_index (hall q hq).1 hsp
      · generalize ⌈(C.D.g.N : ℚ) / C.D.g.Ns⌉₊ = R at *
        generalize hI : R + evUps pre q = I at i1 i2
        have hlow : C.D.g.N ≤ I * C.D.g.Ns := hRN.trans (Nat.mul_le_mul_right _ (by omega))
        have hup : I * C.D.g.Ns ≤ n - 1 := (Nat.le_div_iff_mul_le hNs).mp i1.le
        have hfl' : frameEnd C.D.g.bc C.D.g.N C.D.g.Ns t (C.D.g.fs q) = ((I * C.D.g.Ns : Nat) : Int) := by
          unfold frameEnd
          rw [hb]
          simp only
          rw [i2, hs.clock, floor_everySep hs.hfs]
        have hN := hs.hN
        rw [hfl']
        refine ⟨?_, ?_, fun _ => ?_⟩ <;> omega
      · intro h0 k hk hkq m hm
        refine (raw_since_eff hb q k m pre fun e he => (hty e (by rw [hsp]; simp [he])).2).trans ?_
        obtain ⟨j, hj⟩ := hsn pre t q post hsp h0 k hk
        rw [hj, (effEnd_diff hL0).2 hL]
        exact hNsN) hrun
  exact ⟨a, ha⟩

/-- C132 (e): so with the MWF update the whole run with these estimates completes. -/
theorem C132_centr (hc : C.centr = true) (hrule : C.D.rule = mwfRule) (href : ∀ k, C.D.g.refSensor < C.D.M k)
    (hβ : ∀ k, ∃ b : ℝ, 0 < b ∧ b ≤ 1 ∧ C.D.beta k = (b : ℂ))
    (hv : ∀ m Rnn Ryy, C.D.valid m Rnn Ryy = true → ∀ κ, (Rnn κ).det ≠ 0 ∧ (Ryy κ).det ≠ 0)
    (hR : C.D.use1st = true ∨ ∀ k m κ, (C.D.R0 k m κ).PosSemidef)
    (hsv : ∀ k < C.n, C.SoundVad k)
    (hss : C.ssbc = true → C.compensateSROs = false ∧ ∀ k < C.n, (C.D.g.nb k).length = C.n - 1)
    {n L : Nat} {fs : ℚ} {nbs : List (List Nat)} {out : List (Instant ℚ)} (hs : C.Sync y fs n nbs out)
    (hb : C.D.g.bc = .few L true) (he : 2 ∣ C.D.g.N)
    (hfl : C.D.g.f.length = C.D.g.N) (gd : GoodNeighbours C.D.g.nb)
    (hnb : ∀ q < nbs.length, ∀ k ∈ C.D.g.nb q, k < nbs.length)
    (hw : ∀ k i, (∀ b ∈ C.D.g.wInt k i, b.length = C.D.nb) ∧
      (∀ b ∈ C.D.g.wExt k i, b.length = C.D.nb) ∧ ∀ b ∈ C.D.g.wLoc k i, b.length = C.D.nb) :
    ∃ a, cdanseRun C y n (flatEvents out) = .ok a := by
  obtain ⟨seq, sim, ri, first, minF, fsInf, hri, hout⟩ := hs.sched
  have hNs := hs.hNs
  obtain ⟨hL, hLn⟩ : L ∣ C.D.g.Ns ∧ L < n := by
    rcases hs.bc with h | ⟨L', h, h1, h2⟩
    · rw [hb] at h; cases h
    · rw [hb] at h
      injection h with h _
      subst h
      exact ⟨h1, h2⟩
  obtain ⟨out', b, h1, hrun⟩ := C132_danse (y := y) hrule href hβ hv hR hs.hn hs.hfs hs.infer nbs hs.neighbours (seq := seq) (sim := sim)
    (ri := ri) first minF hri hs.clock hs.stamps hb (Nat.pos_of_dvd_of_pos hL hNs) (Nat.le_of_dvd hNs hL) hLn hs.hN he
    (.inr ⟨hL, Nat.le_of_dvd hs.hN hs.dvd⟩) hfl gd hnb (hs.nodes ▸ hs.samples) hw
  rw [hout] at h1
  injection h1 with h1
  injection h1 with h1
  subst h1
  refine C132_adds hc (fun m r Ryy Rnn hr _ p _ => ?_) href hβ hv hR hsv hss hs hb he hfl hrun
  rw [hrule]
  exact mwfRule_total hr p

end
end Danse
