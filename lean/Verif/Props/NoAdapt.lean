import Verif.Proofs.NoAdapt
import Verif.Props.Danse2
import Verif.Props.Online2

/-!
# Property C129: no adaptation without enough speech and enough noise
-/

set_option linter.unusedSectionVars false

namespace Danse
section
variable {K : Type} [Field K] [StarRing K] [DecidableEq K] {D : DanseCfg K} {y : Nat → List (List K)} {T : Nat}
  {evs : List (ℚ × Nat × EvType)} {a : DanseSt D}

/-- C129 (a): a node whose filters have no reason to change in the schedule keeps its initial filters to the end of the run,
in every bin and channel; so does the local estimate. -/
theorem C129_frozen (h : danseRun D y T evs = .ok a) {k : Nat} :
    (D.Idle evs k (D.dim k) → (∀ j, D.g.wInt k j = D.g.wInt k 0) →
      ∀ i ≤ evUps evs k, ∀ (κ : Fin D.nb) (c : Fin (D.dim k)), coef (a.run.cfg.wInt k i) κ c = coef (D.g.wInt k 0) κ c) ∧
    (D.Idle evs k (D.M k) → (∀ j, D.g.wLoc k j = D.g.wLoc k 0) →
      ∀ i ≤ evUps evs k, ∀ (κ : Fin D.nb) (c : Fin (D.M k)), coef (a.run.cfg.wLoc k i) κ c = coef (D.g.wLoc k 0) κ c) := by
  obtain ⟨w, -⟩ := adaptRun_written (fun _ => rfl) evs (danseRun_adapt evs h).1
  obtain ⟨e1, e2, e3⟩ := w.old k 0 (.inl rfl)
  have ht := (C77_observed (C117_instance h) k).1
  have hlen : (a.run.hist k).length = evUps evs k := w.len k
  constructor
  · intro hid hc
    refine idle_rows (fun i _ => ?_) hc e1 fun i hi => (danseRun_rowOk h k i hi).1
    by_cases hb : D.bypassAll = true
    · exact .inl hb
    · exact .inr (idle_not_started hid hb (heard_prefix k (a.run.hist k) (i + 1)) (by rw [heard_vad, hlen]) (by rw [heard_t, ht]))
  · intro hid hc
    refine idle_rows (fun i _ => ?_) hc e3 fun i hi => (danseRun_rowOk h k i hi).2
    by_cases hb : D.bypassAll = true
    · exact .inl hb
    · exact .inr (idle_not_started hid hb (heardLoc_prefix k (a.run.hist k) (i + 1)) (by rw [heardLoc_vad, hlen])
        (by rw [heardLoc_t, ht]))

/-- C129 (b): with the filters that select the reference sensor to begin with (the default), no rotation of that sensor by
SRO compensation, synchronous nodes and windows that add up to one, the output of an idle node is the signal of its
reference sensor, sample by sample, from the first update on (or from the first sample on, with whole-chunk broadcasts)
to within two frames of the end: what the other nodes do does not reach it. -/
theorem C129_output [CharZero K] {n : Nat} (hn : 0 < n) {fs : ℚ} (hfs : 0 < fs)
    (hf : inferFs (clockStamps fs n) = .ok fs) (nbs : List (List Nat)) {seq sim : Bool}
    {ri : Nat} {first minF : Int} {fsInf : List ℚ} {out : List (Instant ℚ)} (hg : ∀ k, D.g.fs k = fs)
    (hL : ∀ L eff, D.g.bc = .few L eff → 0 < L ∧ eff = false)
    (hout : initEventsFC D.g.bc D.g.N D.g.Ns seq sim ri first minF (syncNodes fs n nbs) = .ok (out, fsInf))
    (hri : sim = true → ri < nbs.length)
    (r : DftRoot D.g.ζ D.g.N) (he : 2 ∣ D.g.N) (hc : D.g.c ≠ 0)
    (hcr : star D.g.c = D.g.c) (hh : IsReal D.g.h) (hhl : D.g.h.length = D.g.N) (hfl : D.g.f.length = D.g.N)
    (hconv : D.g.conv = false) {k : Nat} (hk : k < nbs.length) {x : List K} (hx : (y k)[D.g.refSensor]? = some x)
    (hxn : x.length = n) (hxr : IsReal x) (hM : (y k).length = D.M k)
    (hw : ∀ i, D.g.wInt k i = selector (D.dim k) D.g.refSensor D.nb)
    (hrot : ∀ l κ, D.rot k l D.g.refSensor κ = 1) {R : Nat} (hNs : 0 < D.g.Ns) (hR : 0 < R)
    (hN : D.g.N = R * D.g.Ns) (hcola : ∀ ρ < D.g.Ns, ∑ m ∈ Finset.range R,
      D.g.h.getD (ρ + m * D.g.Ns) 0 * D.g.f.getD (ρ + m * D.g.Ns) 0 = 1)
    (h : danseRun D y n (flatEvents out) = .ok a) (hid : D.Idle (flatEvents out) k (D.dim k)) {m : Nat}
    (hm : match D.g.bc with
      | .few _ _ => D.g.N ≤ m + D.g.Ns ∧ m + D.g.N < (n - 1) / D.g.Ns * D.g.Ns
      | .whole => m + 2 * D.g.N < (n - 1) / D.g.Ns * D.g.Ns + D.g.Ns) :
    (a.run.st.d k)[m]? = x[m]? := by
  obtain ⟨w, hrun⟩ := adaptRun_written (s0 := .init D.g.N D.g.refSensor n D.M) (fun _ => rfl) _ (danseRun_adapt _ h).1
  have hfix := w.fixed
  unfold GivenCfg.fixed at hfix
  let f : GivenCfg K := { a.run.cfg with
    rot := fun k i => if i < evUps (flatEvents out) k then a.run.cfg.rot k i else fun _ _ => 1 }
  have hsame : f.run y (.init D.g.N D.g.refSensor n D.M) (flatEvents out) =
      a.run.cfg.run y (.init D.g.N D.g.refSensor n D.M) (flatEvents out) := by
    refine C77_rows (f := f) (g := a.run.cfg) rfl (fun _ _ _ _ => ⟨rfl, rfl⟩) (fun k i hi => ?_) (fun _ _ _ => rfl) _ _ _ _
    change (if i < evUps (flatEvents out) k then _ else _) = _
    rw [if_pos hi]
  rw [← hsame] at hrun
  have e1 : f.N = D.g.N := by change a.run.cfg.N = _; rw [hfix]
  have e2 : f.Ns = D.g.Ns := by change a.run.cfg.Ns = _; rw [hfix]
  have e3 : f.fs = D.g.fs := by change a.run.cfg.fs = _; rw [hfix]
  have e4 : f.bc = D.g.bc := by change a.run.cfg.bc = _; rw [hfix]
  have e5 : f.nb = D.g.nb := by change a.run.cfg.nb = _; rw [hfix]
  have e6 : f.refSensor = D.g.refSensor := by change a.run.cfg.refSensor = _; rw [hfix]
  have e7 : f.h = D.g.h := by change a.run.cfg.h = _; rw [hfix]
  have e8 : f.f = D.g.f := by change a.run.cfg.f = _; rw [hfix]
  have e9 : f.c = D.g.c := by change a.run.cfg.c = _; rw [hfix]
  have e10 : f.ζ = D.g.ζ := by change a.run.cfg.ζ = _; rw [hfix]
  have e11 : f.conv = D.g.conv := by change a.run.cfg.conv = _; rw [hfix]
  have hsel : ∀ i, f.wInt k (i + 1) = selector (D.dim k) D.g.refSensor D.nb := by
    intro i
    change a.run.cfg.wInt k (i + 1) = _
    by_cases hi : i < evUps (flatEvents out) k
    · have hfr := (C129_frozen h).1 hid (fun j => by rw [hw, hw]) (i + 1) (by omega)
      rw [hw] at hfr
      exact row_of_coef (danseRun_rowOk h k i hi).1.1 ⟨by simp [selector], by simp [selector]⟩ hfr
    · rw [(w.old k (i + 1) (.inr (by omega))).1, hw]
  have hfr : ∀ i κ, f.rot k i D.g.refSensor κ = 1 := by
    intro i κ
    change (if i < evUps (flatEvents out) k then a.run.cfg.rot k i else fun _ _ => 1) D.g.refSensor κ = 1
    by_cases hi : i < evUps (flatEvents out) k
    · rw [if_pos hi, (w.rows k i hi).2.2.2]
      exact hrot _ _
    · rw [if_neg hi]
  clear_value f
  exact C78_passthrough (g := f) (y := y) hn hfs hf nbs (fun k => by rw [e3]; exact hg k) (by rw [e4]; exact hL)
    (by rw [e4, e1, e2]; exact hout) hri (by rw [e10, e1]; exact r) (by rw [e1]; exact he) (by rw [e9]; exact hc)
    (by rw [e9]; exact hcr) (by rw [e7]; exact hh) (by rw [e7, e1]; exact hhl) (by rw [e8, e1]; exact hfl)
    (by rw [e11]; exact hconv) hk hx hxn hxr (fun i => by rw [hsel, e5, e1, hM]) hfr D.M
    (by rw [e2]; exact hNs) hR (by rw [e1, e2]; exact hN) (by rw [e2, e7, e8]; exact hcola)
    (by rw [e1, e6]; exact hrun) (by rw [e1, e2, e4]; exact hm)

end

/-- `exOnline` with a detector that finds speech in all the frames, and windows that add up to one. -/
noncomputable def exIdle : DanseCfg ℂ :=
  { exOnline with vad := fun _ _ => true, g := { exOnlineG with wInt := fun _ _ => selector 2 0 2 } }

open scoped ComplexOrder in
/-- The hypotheses of C129 are met: on real recordings of 12 samples, both nodes of `exIdle` pass on their own sensor. -/
example (y : Nat → List (List ℂ)) (hy : ∀ k < 2, ∃ x, y k = [x] ∧ x.length = 12 ∧ IsReal x) :
    ∃ a, ∀ k < 2, ∀ m, 1 ≤ m → m < 9 → ((DanseSt.run (D := exIdle) a).st.d k)[m]? = ((y k).getD 0 [])[m]? := by
  have hf : inferFs (clockStamps 1 12) = .ok 1 := by decide_cbv
  obtain ⟨out, a, h1, h2⟩ := C117_completes (D := exIdle) (y := y) rfl (fun _ => Nat.one_pos)
    (fun _ => ⟨1 / 2, by norm_num, by norm_num, rfl⟩)
    (fun m Rnn Ryy h κ => (of_decide_eq_true h) κ) (.inr fun k m κ => (exOnline_R0 k m κ).posSemidef)
    (n := 12) (L := 1) (by norm_num) one_pos hf [[1], [0]] (seq := false) (sim := false) (ri := 0) 0 0
    (by simp) (fun _ => rfl) rfl one_pos (le_refl _) (by change 0 < 2; norm_num) (by change 2 ∣ 2; norm_num)
    (.inl (by change 1 + 1 ≤ 2 + 1; norm_num)) rfl
    ⟨fun k => by change [if k % 2 = 0 then k + 1 else k - 1].Nodup; simp, fun k q => by
      change q ∈ [if k % 2 = 0 then k + 1 else k - 1] → k ∈ [if q % 2 = 0 then q + 1 else q - 1]
      simp only [List.mem_singleton]; split <;> split <;> omega⟩
    (by intro q hq k hk; change k ∈ [if q % 2 = 0 then q + 1 else q - 1] at hk; simp at hk hq ⊢; split at hk <;> omega)
    (by intro k hk ch hch; obtain ⟨x, e, hx, -⟩ := hy k hk; rw [e, List.mem_singleton] at hch; rw [hch, hx])
    (fun k i => by simp [exIdle, exOnline, exOnlineG, DanseCfg.nb, selector])
  refine ⟨a, fun k hk m m1 m2 => ?_⟩
  obtain ⟨x, e, hx, hxr⟩ := hy k hk
  rw [e]
  have hr : DftRoot (-1 : ℂ) 2 := ⟨by norm_num, IsPrimitiveRoot.neg_one 0 (by norm_num), by norm_num⟩
  refine C129_output (D := exIdle) (y := y) (n := 12) (R := 2) (by norm_num) one_pos hf [[1], [0]] (fun _ => rfl)
    (by intro L eff h; injection h with a b; subst a b; exact ⟨one_pos, rfl⟩) h1 (by simp) hr (by change 2 ∣ 2; norm_num) one_ne_zero
    (star_one _) (by intro v hv; change v ∈ [1, 1] at hv; simp at hv; subst hv; exact star_one _) rfl rfl rfl hk
    (by rw [e]; rfl) hx hxr (by rw [e]; rfl) (fun _ => rfl) (fun _ _ => rfl) (by change 0 < 1; norm_num) (by norm_num) rfl ?_ h2
    (.inr (.inl ⟨false, ?_⟩)) ?_
  · intro ρ hρ
    change ρ < 1 at hρ
    obtain rfl : ρ = 0 := by omega
    change ∑ m ∈ Finset.range 2, ([1, 1] : List ℂ).getD (0 + m * 1) 0 * ([1 / 2, 1 / 2] : List ℂ).getD (0 + m * 1) 0 = 1
    norm_num [Finset.sum_range_succ]
  · have : ((List.range (evUps (flatEvents out) k)).map (exIdle.vad k)).countP (· == false) = 0 := by
      rw [List.countP_eq_zero]
      intro b hb
      obtain ⟨i, -, rfl⟩ := List.mem_map.mp hb
      change ¬ (true == false) = true
      decide
    rw [this]
    exact Nat.zero_le _
  · change 2 ≤ m + 1 ∧ m + 2 < (12 - 1) / 1 * 1
    omega

end Danse
