import Verif.Proofs.DanseCentr9
import Verif.Props.Danse2

/-!
# Property C131: with whole-chunk broadcasts a synchronous run completes, also with the centralised estimates
-/

set_option linter.unusedSectionVars false

namespace Danse
section
variable {K : Type} [Field K] [StarRing K] [DecidableEq K] {g : GivenCfg K} {y : Nat → List (List K)}

/-- C131 (a): all clocks at the same rate, whole-chunk broadcasts, frames that overlap by half (`N = 2 Ns`, both windows
of length `N`), signals of `n` samples, every node a neighbour of its neighbours: the schedule is built and the
whole run goes through without an exception, whatever the signals and whatever filters (with the right number of
bins) the nodes compute. -/
theorem C131_completes (U : Strategy K) {n : Nat} (hn : 0 < n) {fs : ℚ} (hfs : 0 < fs)
    (hf : inferFs (clockStamps fs n) = .ok fs) (nbs : List (List Nat)) {seq sim : Bool}
    {ri : Nat} (first minF : Int) (hri : sim = true → ri < nbs.length)
    (hg : ∀ k, g.fs k = fs) (hb : g.bc = .whole) (hNs : 0 < g.Ns) (h2 : g.N = 2 * g.Ns) (hhl : g.h.length = g.N)
    (hfl : g.f.length = g.N) (gd : GoodNeighbours g.nb)
    (hnb : ∀ q < nbs.length, ∀ k ∈ g.nb q, k < nbs.length)
    (hy : ∀ k < nbs.length, ∀ ch ∈ y k, ch.length = n)
    (hU : ∀ k h, (∀ b ∈ (U.rows k h).int, b.length = g.N / 2 + 1) ∧
      (∀ b ∈ (U.rows k h).ext, b.length = g.N / 2 + 1) ∧ ∀ b ∈ (U.rows k h).loc, b.length = g.N / 2 + 1)
    (hw : ∀ k i, (∀ b ∈ g.wInt k i, b.length = g.N / 2 + 1) ∧
      (∀ b ∈ g.wExt k i, b.length = g.N / 2 + 1) ∧ ∀ b ∈ g.wLoc k i, b.length = g.N / 2 + 1)
    (M : Nat → Nat) :
    ∃ out a, initEventsFC g.bc g.N g.Ns seq sim ri first minF (syncNodes fs n nbs) =
        .ok (out, List.replicate nbs.length fs) ∧
      adaptRun U y (.init g n M) (flatEvents out) = .ok a := by
  obtain ⟨out, a, h1, h2, _⟩ := whole_alive (y := y) U hn hfs hf nbs (seq := seq) (sim := sim) (ri := ri) first minF hri
    hg hb hNs h2 hhl hfl gd hnb hy hU hw M
  exact ⟨out, a, h1, h2⟩

end

section
variable {D : DanseCfg ℂ} {y : Nat → List (List ℂ)}
open scoped ComplexOrder

/-- C131 (b): so does the whole of online DANSE with the MWF update, under the conditions of `C117_completes` on the
covariance matrices. -/
theorem C131_danse (hrule : D.rule = mwfRule) (href : ∀ k, D.g.refSensor < D.M k)
    (hβ : ∀ k, ∃ b : ℝ, 0 < b ∧ b ≤ 1 ∧ D.beta k = (b : ℂ))
    (hv : ∀ m Rnn Ryy, D.valid m Rnn Ryy = true → ∀ κ, (Rnn κ).det ≠ 0 ∧ (Ryy κ).det ≠ 0)
    (hR : D.use1st = true ∨ ∀ k m κ, (D.R0 k m κ).PosSemidef)
    {n : Nat} (hn : 0 < n) {fs : ℚ} (hfs : 0 < fs)
    (hf : inferFs (clockStamps fs n) = .ok fs) (nbs : List (List Nat)) {seq sim : Bool}
    {ri : Nat} (first minF : Int) (hri : sim = true → ri < nbs.length)
    (hg : ∀ k, D.g.fs k = fs) (hb : D.g.bc = .whole) (hNs : 0 < D.g.Ns) (h2 : D.g.N = 2 * D.g.Ns)
    (hhl : D.g.h.length = D.g.N) (hfl : D.g.f.length = D.g.N) (gd : GoodNeighbours D.g.nb)
    (hnb : ∀ q < nbs.length, ∀ k ∈ D.g.nb q, k < nbs.length)
    (hy : ∀ k < nbs.length, ∀ ch ∈ y k, ch.length = n)
    (hw : ∀ k i, (∀ b ∈ D.g.wInt k i, b.length = D.nb) ∧
      (∀ b ∈ D.g.wExt k i, b.length = D.nb) ∧ ∀ b ∈ D.g.wLoc k i, b.length = D.nb) :
    ∃ out a, initEventsFC D.g.bc D.g.N D.g.Ns seq sim ri first minF (syncNodes fs n nbs) =
        .ok (out, List.replicate nbs.length fs) ∧
      danseRun D y n (flatEvents out) = .ok a := by
  obtain ⟨out, a, h1, h2⟩ := C131_completes (y := y) D.strategy hn hfs hf nbs (seq := seq) (sim := sim) (ri := ri)
    first minF hri hg hb hNs h2 hhl hfl gd hnb hy strategy_bins hw D.M
  obtain ⟨b, hb, -⟩ := danseRun_of_adapt (fun k h => by
    obtain ⟨b, b0, b1, bb⟩ := hβ k
    exact nodeFold_total b0 b1 bb (fun m hm Ryy Rnn p _ => by
      rw [hrule]; exact mwfRule_total (lt_of_lt_of_le (href k) hm) p) hv (hR.imp_right fun h => h k) h) _ h2
  exact ⟨out, b, h1, hb⟩

/-- C131 (c): and with the GEVD-based update, under the conditions of `C117_completes_gevd`. -/
theorem C131_danse_gevd {lib : (m : Nat) → LinAlg m} {rank : Nat} (hrule : D.rule = gevdRule lib rank)
    (hrank : ∀ k, rank ≤ D.M k)
    (hlib : ∀ m A B, Matrix.PosDef A → Matrix.PosDef B → ∃ σ X, (lib m).Ok A B σ X)
    (href : ∀ k, D.g.refSensor < D.M k)
    (hβ : ∀ k, ∃ b : ℝ, 0 < b ∧ b ≤ 1 ∧ D.beta k = (b : ℂ))
    (hv : ∀ m Rnn Ryy, D.valid m Rnn Ryy = true → ∀ κ, (Rnn κ).det ≠ 0 ∧ (Ryy κ).det ≠ 0)
    (hR : D.use1st = true ∨ ∀ k m κ, (D.R0 k m κ).PosSemidef)
    {n : Nat} (hn : 0 < n) {fs : ℚ} (hfs : 0 < fs)
    (hf : inferFs (clockStamps fs n) = .ok fs) (nbs : List (List Nat)) {seq sim : Bool}
    {ri : Nat} (first minF : Int) (hri : sim = true → ri < nbs.length)
    (hg : ∀ k, D.g.fs k = fs) (hb : D.g.bc = .whole) (hNs : 0 < D.g.Ns) (h2 : D.g.N = 2 * D.g.Ns)
    (hhl : D.g.h.length = D.g.N) (hfl : D.g.f.length = D.g.N) (gd : GoodNeighbours D.g.nb)
    (hnb : ∀ q < nbs.length, ∀ k ∈ D.g.nb q, k < nbs.length)
    (hy : ∀ k < nbs.length, ∀ ch ∈ y k, ch.length = n)
    (hw : ∀ k i, (∀ b ∈ D.g.wInt k i, b.length = D.nb) ∧
      (∀ b ∈ D.g.wExt k i, b.length = D.nb) ∧ ∀ b ∈ D.g.wLoc k i, b.length = D.nb) :
    ∃ out a, initEventsFC D.g.bc D.g.N D.g.Ns seq sim ri first minF (syncNodes fs n nbs) =
        .ok (out, List.replicate nbs.length fs) ∧
      danseRun D y n (flatEvents out) = .ok a := by
  obtain ⟨out, a, h1, h2⟩ := C131_completes (y := y) D.strategy hn hfs hf nbs (seq := seq) (sim := sim) (ri := ri)
    first minF hri hg hb hNs h2 hhl hfl gd hnb hy strategy_bins hw D.M
  obtain ⟨b, hb, -⟩ := danseRun_of_adapt (fun k h => by
    obtain ⟨b, b0, b1, bb⟩ := hβ k
    exact nodeFold_total b0 b1 bb (fun m hm Ryy Rnn p q => by
      rw [hrule]
      exact gevdRule_total (lt_of_lt_of_le (href k) hm) (le_trans (hrank k) hm) (hlib m Ryy Rnn p q))
      hv (hR.imp_right fun h => h k) h) _ h2
  exact ⟨out, b, h1, hb⟩

variable {C : CDanseCfg ℂ}

/-- C131 (d): asking for the centralised estimate, or for this and the single-sensor-broadcast estimate, never stops a
synchronous run with whole-chunk broadcasts: if the run without them completes, so does the run with them, provided the
update rule accepts positive definite matrices, the rank test rejects singular ones, the matrices of the centralised
estimate are averages, and, for the single-sensor-broadcast estimate, that the network is fully connected, all nodes have
a sensor and SROs are not compensated. -/
theorem C131_adds (hc : C.centr = true)
    (hrule : ∀ m r Ryy Rnn, r < m → (∃ k < C.n, C.D.M k ≤ m) → Matrix.PosDef Ryy → Matrix.PosDef Rnn →
      ∃ w, C.D.rule m Ryy Rnn r = .ok w)
    (href : ∀ k, C.D.g.refSensor < C.D.M k)
    (hβ : ∀ k, ∃ b : ℝ, 0 < b ∧ b ≤ 1 ∧ C.D.beta k = (b : ℂ))
    (hv : ∀ m Rnn Ryy, C.D.valid m Rnn Ryy = true → ∀ κ, (Rnn κ).det ≠ 0 ∧ (Ryy κ).det ≠ 0)
    (hR : C.D.use1st = true ∨ ∀ k m κ, (C.D.R0 k m κ).PosSemidef)
    (hsv : ∀ k < C.n, C.SoundVad k)
    (hss : C.ssbc = true → C.compensateSROs = false ∧ ∀ k < C.n, (C.D.g.nb k).length = C.n - 1)
    {n : Nat} {fs : ℚ} {nbs : List (List Nat)} {out : List (Instant ℚ)} (hs : C.Sync y fs n nbs out)
    (hb : C.D.g.bc = .whole) (h2 : C.D.g.N = 2 * C.D.g.Ns) (hfl : C.D.g.f.length = C.D.g.N)
    {b : DanseSt C.D} (hrun : danseRun C.D y n (flatEvents out) = .ok b) :
    ∃ a, cdanseRun C y n (flatEvents out) = .ok a := by
  obtain ⟨seq, sim, ri, first, minF, fsInf, hri, hout⟩ := hs.sched
  have hNs := hs.hNs
  obtain ⟨out', hout', hall, hty⟩ := C78_schedule (seq := seq) (sim := sim) (r := ri) (N := C.D.g.N) (bc := C.D.g.bc)
    hNs hs.hn hs.hfs hs.infer (fun _ => hs.dvd) (by rw [hb]; intro L' e' h; cases h) nbs first minF hri
  rw [hout] at hout'
  injection hout' with hout'
  injection hout' with hout'
  subst hout'
  obtain ⟨arg, ha, hti⟩ := initEventsFC_built hout
  have hord := schedule_order ha hti
  have hcl : ⌈(C.D.g.N : ℚ) / C.D.g.Ns⌉₊ = 2 := by
    have : (C.D.g.N : ℚ) / C.D.g.Ns = (2 : Nat) := by
      rw [h2]
      push_cast
      field_simp
    rw [this, Nat.ceil_natCast]
  have hdv : C.D.g.N / C.D.g.Ns = 2 := by rw [h2, Nat.mul_div_cancel _ hNs]
  rw [hb] at hall
  simp only [syncBc, hcl, hdv] at hall
  rw [← hs.nodes] at hall hty
  have hbt : ∀ {t : ℚ} {q : Nat}, (t, q, EvType.bc) ∈ flatEvents out → q < C.n → C.D.g.N < n := by
    intro t q hm hq
    have : t ∈ bcTimes (flatEvents out) q := by
      unfold bcTimes
      rw [List.mem_filterMap]
      exact ⟨(t, q, .bc), hm, by simp⟩
    rw [(hall q hq).2] at this
    unfold everySep at this
    obtain ⟨j, hj, rfl⟩ := List.mem_map.mp this
    have hj' := List.mem_range.mp hj
    have hup : (2 + j) * C.D.g.Ns ≤ n - 1 := (Nat.le_div_iff_mul_le hNs).mp (by omega)
    have : 2 * C.D.g.Ns ≤ (2 + j) * C.D.g.Ns := Nat.mul_le_mul_right _ (by omega)
    have := hs.hn
    omega
  by_cases hne : flatEvents out = []
  · rw [hne]; exact ⟨_, rfl⟩
  have hNn : C.D.g.N < n := by
    obtain ⟨⟨t, q, ty⟩, hm⟩ := List.exists_mem_of_ne_nil _ hne
    obtain ⟨hq, h | h⟩ := hty _ hm
    · simp only at h hq
      subst h
      refine (cdanse_long hs hq (t := t) ?_).1
      unfold upTimes
      rw [List.mem_filterMap]
      exact ⟨_, hm, by simp⟩
    · simp only at h hq
      subst h
      exact hbt hm hq
  have hge := (cdanse_times hs).2
  obtain ⟨a, ha, -⟩ := cdanse_of_danse (C := C) (y := y) (T := n) hc (fun h => (hss h).1) hs.hN ⟨C.D.g.Ns, h2⟩ (by omega) hfl
    hs.sensors (fun q hq x hx => by rw [hs.samples q hq x hx]; omega)
    (fun _ q _ => lt_of_le_of_lt (Nat.zero_le _) (href q))
    (fun h k hk => by unfold DanseCfg.dim; rw [(hss h).2 k hk])
    (fun k hk => by
      obtain ⟨β, b0, b1, bb⟩ := hβ k
      refine kindC_total b0 b1 bb (fun Ryy Rnn p q => hrule _ _ _ _ ?_ ⟨k, hk, ?_⟩ p q) hv (hsv k hk) (hR.imp_right fun h => h k)
      · exact sum_range_lt hk (href k)
      · exact List.le_sum_of_mem (List.mem_map.mpr ⟨k, List.mem_range.mpr hk, rfl⟩))
    (fun _ k hk l => by
      obtain ⟨β, b0, b1, bb⟩ := hβ k
      refine kind_total b0 b1 bb (fun Ryy Rnn p q => hrule _ _ _ _ ?_ ⟨k, hk, ?_⟩ p q) (hv _) (hR.imp_right fun h => h k _) _ l
      all_goals
        unfold DanseCfg.dim
        have := href k
        omega)
    (flatEvents out) (by
      intro pre ev post hsp
      have hmem : ev ∈ flatEvents out := by rw [hsp]; simp
      refine ⟨(hge ev hmem).1, (hge ev hmem).2, fun _ => ?_, ?_, ?_⟩
      · unfold CanSend; rw [hb]; exact hNs
      all_goals
        obtain ⟨t, q, ty⟩ := ev
        intro hty'
        simp only at hty'
        subst hty'
        have hq := (hge _ hmem).1
        simp only at hq ⊢
        obtain ⟨i1, i2⟩ := sync_index (hall q hq).1 hsp
      · generalize hI : 2 + evUps pre q = I at i1 i2
        have hlow : 2 * C.D.g.Ns ≤ I * C.D.g.Ns := Nat.mul_le_mul_right _ (by omega)
        have hup : I * C.D.g.Ns ≤ n - 1 := (Nat.le_div_iff_mul_le hNs).mp i1.le
        have hfl' : frameEnd C.D.g.bc C.D.g.N C.D.g.Ns t (C.D.g.fs q) = ((I * C.D.g.Ns : Nat) : Int) - ((C.D.g.N : Int) - C.D.g.Ns) := by
          unfold frameEnd
          rw [hb]
          simp only
          rw [i2, hs.clock, floor_everySep hs.hfs]
        rw [hfl']
        refine ⟨?_, ?_, fun _ => ?_⟩ <;> omega
      · intro h0 k hk hkq m hm
        refine (raw_since_whole hb q k m pre fun e he => (hty e (by rw [hsp]; simp [he])).2).trans ?_
        rw [whole_between hNs hs.hfs hord hsp (hall q hq).1 (hall k hk).2 h0]
        omega) hrun
  exact ⟨a, ha⟩

/-- C131 (e): so with the MWF update the whole run with these estimates completes. -/
theorem C131_centr (hc : C.centr = true) (hrule : C.D.rule = mwfRule) (href : ∀ k, C.D.g.refSensor < C.D.M k)
    (hβ : ∀ k, ∃ b : ℝ, 0 < b ∧ b ≤ 1 ∧ C.D.beta k = (b : ℂ))
    (hv : ∀ m Rnn Ryy, C.D.valid m Rnn Ryy = true → ∀ κ, (Rnn κ).det ≠ 0 ∧ (Ryy κ).det ≠ 0)
    (hR : C.D.use1st = true ∨ ∀ k m κ, (C.D.R0 k m κ).PosSemidef)
    (hsv : ∀ k < C.n, C.SoundVad k)
    (hss : C.ssbc = true → C.compensateSROs = false ∧ ∀ k < C.n, (C.D.g.nb k).length = C.n - 1)
    {n : Nat} {fs : ℚ} {nbs : List (List Nat)} {out : List (Instant ℚ)} (hs : C.Sync y fs n nbs out)
    (hb : C.D.g.bc = .whole) (h2 : C.D.g.N = 2 * C.D.g.Ns) (hhl : C.D.g.h.length = C.D.g.N)
    (hfl : C.D.g.f.length = C.D.g.N) (gd : GoodNeighbours C.D.g.nb)
    (hnb : ∀ q < nbs.length, ∀ k ∈ C.D.g.nb q, k < nbs.length)
    (hw : ∀ k i, (∀ b ∈ C.D.g.wInt k i, b.length = C.D.nb) ∧
      (∀ b ∈ C.D.g.wExt k i, b.length = C.D.nb) ∧ ∀ b ∈ C.D.g.wLoc k i, b.length = C.D.nb) :
    ∃ a, cdanseRun C y n (flatEvents out) = .ok a := by
  obtain ⟨seq, sim, ri, first, minF, fsInf, hri, hout⟩ := hs.sched
  obtain ⟨out', b, h1, hrun⟩ := C131_danse (y := y) hrule href hβ hv hR hs.hn hs.hfs hs.infer nbs (seq := seq) (sim := sim)
    (ri := ri) first minF hri hs.clock hb hs.hNs h2 hhl hfl gd hnb (hs.nodes ▸ hs.samples) hw
  rw [hout] at h1
  injection h1 with h1
  injection h1 with h1
  subst h1
  refine C131_adds hc (fun m r Ryy Rnn hr _ p _ => ?_) href hβ hv hR hsv hss hs hb h2 hfl hrun
  rw [hrule]
  exact mwfRule_total hr p

end
end Danse
