import Verif.Proofs.GainTI
import Verif.Props.DeadTI

/-!
# Property C141: what a TI-DANSE node outputs whose filters select a sensor

`U` is any way in which the nodes compute their filters; `(s.node k).hist` are the observations that node `k` made at its
updates, `(U.rows k ((s.node k).hist.take (i + 1))).int` the filter that it used at update `i`.
-/

set_option linter.unusedSectionVars false

namespace Danse
section
variable {n : Nat} {K : Type} [Field K] [StarRing K] [DecidableEq K] {g : GivenCfg K} {U : TIStrategy n K}
  {y : Fin n → List (List K)} {trees : List (TreeObj n)} {out : List (Instant ℚ)} {T : Nat}
  {up0 : Fin n → List (Fin n)}

theorem getElem?_of_at0 {l : List K} {T m : Nat} {v : K} (hl : l.length = T) (hm : m < T) (h : at0 l m = v) : l[m]? = some v := by
  rw [List.getElem?_eq_getElem (by omega), Option.some.injEq, ← h]
  unfold at0
  rw [List.getD_eq_getElem?_getD, List.getElem?_eq_getElem (by omega), Option.getD_some]

/-- C141 (a): when the filters of node `k` select one of its sensors at every update, each sample of its output is the
sample of that sensor times the sum, over the frames of its updates, of the products of the windows; whatever the schedule,
the trees and the other nodes. The same for its local output. -/
theorem C141_gain [CharZero K] (r : DftRoot g.ζ g.N) (he : 2 ∣ g.N) (hc : g.c ≠ 0)
    (hcr : star g.c = g.c) (hh : IsReal g.h) (hhl : g.h.length = g.N) (hfl : g.f.length = g.N)
    (hconv : g.conv = false) {k : Fin n} {ref : Nat} {x : List K} (hx : (y k)[ref]? = some x) (hxr : IsReal x)
    (hT : T ≤ x.length) {ext : Fin n → List (List K)} {s : TISt n K}
    (h : tiRun g U y trees (.init g.N g.refSensor T y ext up0) out = .ok s)
    (hE : ∀ e ∈ frameEnds g.bc g.N g.Ns (g.fs k) k (flatEvents out), 0 < e ∧ e ≤ T) {m : Nat} (hm : m < T) :
    ((∀ i < (s.node k).hist.length, (U.rows k ((s.node k).hist.take (i + 1))).int =
        selector ((y k).length + 1) ref (g.N / 2 + 1)) →
      (s.node k).d[m]? = some
        (((frameEnds g.bc g.N g.Ns (g.fs k) k (flatEvents out)).map (windowGain g.N g.h g.f m)).sum * x.getD m 0)) ∧
    ((∀ i < (s.node k).hist.length, (U.rows k ((s.node k).hist.take (i + 1))).loc =
        selector (y k).length ref (g.N / 2 + 1)) →
      (s.node k).dLoc[m]? = some
        (((frameEnds g.bc g.N g.Ns (g.fs k) k (flatEvents out)).map (windowGain g.N g.h g.f m)).sum * x.getD m 0)) := by
  have ht := tiRun_upTimes out h k
  have h0 : ((TISt.init g.N g.refSensor T y ext up0 : TISt n K).node k).hist = [] := rfl
  rw [h0, List.map_nil, List.nil_append] at ht
  have hfe : frameEnds g.bc g.N g.Ns (g.fs k) k (flatEvents out) =
      (s.node k).hist.map fun o => frameEnd g.bc g.N g.Ns o.t (g.fs k) := by
    rw [frameEnds_eq, ← ht, List.map_map]
    rfl
  rw [hfe] at hE ⊢
  obtain ⟨g1, g2⟩ := tiRun_gain r he hc hcr hh hhl hfl hconv hx hxr hT out h
    (fun o ho => hE _ (List.mem_map_of_mem (f := fun o : TIObs K => frameEnd g.bc g.N g.Ns o.t (g.fs k)) ho))
  rw [List.map_map]
  constructor
  · intro hr
    obtain ⟨e1, e2⟩ := g1 hr
    exact getElem?_of_at0 e1 hm (e2 m hm)
  · intro hr
    obtain ⟨e1, e2⟩ := g2 hr
    exact getElem?_of_at0 e1 hm (e2 m hm)

/-- C141 (b): synchronous nodes, the schedule of the code, windows the products of which add up to one: the output of a node
whose filters select one of its sensors is the signal of that sensor, sample for sample, from the first update on to within
two frames of the end; whatever the network and its trees. -/
theorem C141_passthrough [CharZero K] {fs : ℚ} {M : Nat} (hg : SyncTI g fs M y) {nbs : List (List Nat)} (hn : nbs.length = n)
    {seq keep sim : Bool} {ri start : Nat} {minF : Int} (hri : sim = true → ri < n) (hstart : start < n)
    {ordOf : Nat → List Level} {treeOf : Nat → TreeObj n} (hT : ∀ k < n, OrientedTree (treeOf k) (ordOf k))
    {fsInf : List ℚ}
    (hev : initEventsTI g.bc g.N g.Ns seq keep sim ri start minF (syncNodes fs M nbs) ordOf treeOf = .ok (out, fsInf, trees))
    (r : DftRoot g.ζ g.N) (he : 2 ∣ g.N) (hc : g.c ≠ 0) (hcr : star g.c = g.c) (hh : IsReal g.h) (hhl : g.h.length = g.N)
    (hconv : g.conv = false) {R : Nat} (hN : g.N = R * g.Ns)
    (hcola : ∀ ρ < g.Ns, ∑ m ∈ Finset.range R, g.h.getD (ρ + m * g.Ns) 0 * g.f.getD (ρ + m * g.Ns) 0 = 1)
    {k : Fin n} {ref : Nat} {x : List K} (hx : (y k)[ref]? = some x) (hxr : IsReal x)
    {ext : Fin n → List (List K)} {s : TISt n K}
    (h : tiRun g U y trees (.init g.N g.refSensor M y ext up0) out = .ok s) {m : Nat}
    (hm : match g.bc with
      | .few _ _ => g.N ≤ m + g.Ns ∧ m + g.N < (M - 1) / g.Ns * g.Ns
      | .whole => g.N ≤ m ∧ m + 2 * g.N < (M - 1) / g.Ns * g.Ns + g.Ns) :
    ((∀ i < (s.node k).hist.length, (U.rows k ((s.node k).hist.take (i + 1))).int =
        selector ((y k).length + 1) ref (g.N / 2 + 1)) → (s.node k).d[m]? = x[m]?) ∧
    ((∀ i < (s.node k).hist.length, (U.rows k ((s.node k).hist.take (i + 1))).loc =
        selector (y k).length ref (g.N / 2 + 1)) → (s.node k).dLoc[m]? = x[m]?) := by
  have hNs := hg.shift
  have hov := hg.overlap
  have hR : 0 < R := by
    rcases Nat.eq_zero_or_pos R with hz | hz
    · rw [hz, zero_mul] at hN; omega
    · exact hz
  have hxM : x.length = M := hg.signals k x (List.mem_of_getElem? hx)
  have hut := syncTI_upTimes hg hn hri hstart hT hev k
  have hcl : ∀ q : Nat, ⌈((q * g.N : Nat) : ℚ) / g.Ns⌉₊ = q * R := by
    intro q
    have : ((q * g.N : Nat) : ℚ) / g.Ns = (q * R : Nat) := by
      have h2 : (g.Ns : ℚ) ≠ 0 := by exact_mod_cast hNs.ne'
      rw [hN]
      push_cast
      field_simp
    rw [this, Nat.ceil_natCast]
  have hdiv : (M - 1) / g.Ns * g.Ns ≤ M - 1 := Nat.div_mul_le_self _ _
  have hM := hg.pos
  -- the frames
  obtain ⟨e0, J, hE, a1, a2, a3, a4⟩ : ∃ (e0 : Int) (J : Nat),
      frameEnds g.bc g.N g.Ns (g.fs k) k (flatEvents out) = (List.range J).map (fun (j : Nat) => e0 + j * g.Ns) ∧
      0 < e0 ∧ e0 + J * g.Ns ≤ M + g.Ns ∧ e0 ≤ m + g.Ns ∧ (m : Int) + (R * g.Ns : Nat) < e0 + J * g.Ns := by
    have key : ∀ q : Nat, q * R ≤ (M - 1) / g.Ns → (((M - 1) / g.Ns - q * R : Nat) : Int) * g.Ns =
        ((M - 1) / g.Ns * g.Ns : Nat) - q * g.N := by
      intro q hq
      rw [Nat.cast_sub hq, hN]
      push_cast
      ring
    have hs : ∀ (q : Nat) (j : Nat), (((q * R + j : Nat) * g.Ns : Nat) : Int) = q * g.N + j * g.Ns := by
      intro q j
      rw [hN]
      push_cast
      ring
    cases hbc : g.bc with
    | few L eff =>
      rw [hbc] at hm hut
      simp only at hm
      have c1 := hcl 1
      rw [one_mul, one_mul] at c1
      have hJ : R ≤ (M - 1) / g.Ns := by
        refine Nat.le_of_mul_le_mul_right ?_ hNs
        rw [← hN]; omega
      have k1 := key 1 (by omega)
      rw [one_mul, Nat.cast_one, one_mul] at k1
      refine ⟨g.N, (M - 1) / g.Ns - R, ?_, by omega, ?_, by omega, ?_⟩
      · rw [frameEnds_eq, hut, hg.rates]
        unfold syncUpTI everySep
        rw [List.map_map]
        simp only [c1]
        apply List.map_congr_left
        intro j _
        have e := floor_everySep hg.rate (R + j) g.Ns
        have e2 := hs 1 j
        rw [one_mul, Nat.cast_one, one_mul] at e2
        simp only [Function.comp_apply, frameEnd]
        rw [e, e2]
      · rw [k1]
        generalize (M - 1) / g.Ns * g.Ns = X at hm hdiv
        omega
      · rw [k1, ← hN]
        generalize (M - 1) / g.Ns * g.Ns = X at hm hdiv
        omega
    | whole =>
      rw [hbc] at hm hut
      simp only at hm
      have c2 := hcl 2
      have hJ : 2 * R ≤ (M - 1) / g.Ns := by
        have h1 : (2 * R) * g.Ns < ((M - 1) / g.Ns + 1) * g.Ns := by
          have : (2 * R) * g.Ns = 2 * g.N := by rw [hN]; ring
          rw [this, Nat.add_mul, one_mul]
          omega
        have := Nat.lt_of_mul_lt_mul_right h1
        omega
      have k2 := key 2 hJ
      refine ⟨g.N + g.Ns, (M - 1) / g.Ns - 2 * R, ?_, by omega, ?_, by omega, ?_⟩
      · rw [frameEnds_eq, hut, hg.rates]
        unfold syncUpTI everySep
        rw [List.map_map]
        simp only [c2]
        apply List.map_congr_left
        intro j _
        have e := floor_everySep hg.rate (2 * R + j) g.Ns
        have e2 := hs 2 j
        simp only [Function.comp_apply, frameEnd]
        rw [e, e2]
        push_cast
        ring
      · rw [k2]
        generalize (M - 1) / g.Ns * g.Ns = X at hm hdiv
        omega
      · rw [k2, ← hN]
        generalize (M - 1) / g.Ns * g.Ns = X at hm hdiv
        omega
  have hEb : ∀ e ∈ frameEnds g.bc g.N g.Ns (g.fs k) k (flatEvents out), 0 < e ∧ e ≤ M := by
    rw [hE]
    intro e he
    obtain ⟨j, hj, rfl⟩ := List.mem_map.mp he
    have hj' := List.mem_range.mp hj
    have e1 : ((j : Int) + 1) * g.Ns ≤ J * g.Ns := by
      apply mul_le_mul_of_nonneg_right <;> omega
    have e2 : 0 ≤ (j : Int) * g.Ns := by positivity
    rw [add_mul, one_mul] at e1
    constructor <;> omega
  have hmM : m < M := by
    have h1 : g.Ns ≤ R * g.Ns := Nat.le_mul_of_pos_left _ hR
    generalize (J : Int) * g.Ns = X at a2 a4
    push_cast at a4
    omega
  obtain ⟨g1, g2⟩ := C141_gain (U := U) r he hc hcr hh hhl hg.window hconv hx hxr (by omega) h hEb hmM
  have hsum : ((frameEnds g.bc g.N g.Ns (g.fs k) k (flatEvents out)).map (windowGain g.N g.h g.f m)).sum = 1 := by
    rw [hE, hN]
    exact regular_gain hNs hR hcola a3 a4
  rw [hsum, one_mul] at g1 g2
  have hx2 : x[m]? = some (x.getD m 0) := by
    rw [List.getD_eq_getElem?_getD, List.getElem?_eq_getElem (by omega), Option.getD_some]
  rw [hx2]
  exact ⟨g1, g2⟩

end

section
variable {n : Nat} {K : Type} [Field K] [StarRing K] [DecidableEq K] {D : DanseCfg K}
  {y : Fin n → List (List K)} {trees : List (TreeObj n)} {out : List (Instant ℚ)}
  {up0 : Fin n → List (Fin n)} {a : TIDanseSt n D}

/-- C141 (c): so a TI-DANSE node that has no reason to adapt (C139) and starts from the default filters passes on its
reference sensor, whatever the others send (except node 0 when nodes update in turns: see C119_refuted_default); and
so does its local filter. -/
theorem C141_idle [CharZero K] {fs : ℚ} {M : Nat} (hg : SyncTI D.g fs M y) {nbs : List (List Nat)} (hn : nbs.length = n)
    {seq keep sim : Bool} {ri start : Nat} {minF : Int} (hri : sim = true → ri < n) (hstart : start < n)
    {ordOf : Nat → List Level} {treeOf : Nat → TreeObj n} (hT : ∀ k < n, OrientedTree (treeOf k) (ordOf k))
    {fsInf : List ℚ}
    (hev : initEventsTI D.g.bc D.g.N D.g.Ns seq keep sim ri start minF (syncNodes fs M nbs) ordOf treeOf =
      .ok (out, fsInf, trees))
    (r : DftRoot D.g.ζ D.g.N) (he : 2 ∣ D.g.N) (hc : D.g.c ≠ 0) (hcr : star D.g.c = D.g.c) (hh : IsReal D.g.h)
    (hhl : D.g.h.length = D.g.N) (hconv : D.g.conv = false) {R : Nat} (hN : D.g.N = R * D.g.Ns)
    (hcola : ∀ ρ < D.g.Ns, ∑ m ∈ Finset.range R, D.g.h.getD (ρ + m * D.g.Ns) 0 * D.g.f.getD (ρ + m * D.g.Ns) 0 = 1)
    {k : Fin n} {x : List K} (hx : (y k)[D.g.refSensor]? = some x) (hxr : IsReal x) (hM : (y k).length = D.M k)
    (h : tiDanseRun D M y up0 trees out = .ok a) {m : Nat}
    (hm : match D.g.bc with
      | .few _ _ => D.g.N ≤ m + D.g.Ns ∧ m + D.g.N < (M - 1) / D.g.Ns * D.g.Ns
      | .whole => D.g.N ≤ m ∧ m + 2 * D.g.N < (M - 1) / D.g.Ns * D.g.Ns + D.g.Ns) :
    (¬ (D.seq = true ∧ k.val = 0) → (∀ i, D.g.wInt k i = selector (D.M k + 1) D.g.refSensor D.nb) →
      D.TIIdle (a.run.node k).hist k (D.M k + 1) ∨ D.Deficient (D.tiHeard k (a.run.node k).hist) →
      (a.run.node k).d[m]? = x[m]?) ∧
    ((∀ i, D.g.wLoc k i = selector (D.M k) D.g.refSensor D.nb) →
      D.TIIdle (a.run.node k).hist k (D.M k) ∨ D.Deficient (D.tiHeardLoc k (a.run.node k).hist) →
      (a.run.node k).dLoc[m]? = x[m]?) := by
  have hs := C119_times hg hn hri hstart hT hev
  have hp := C141_passthrough (U := D.tiStrategy n) hg hn hri hstart hT hev r he hc hcr hh hhl hconv hN hcola hx hxr
    (C119_instance h) hm
  have ha := (tiDanse_run (tiDanse_init_ok M up0) out h).2
  have hrow : ∀ i < (a.run.node k).hist.length,
      ((D.tiStrategy n).rows k ((a.run.node k).hist.take (i + 1))).int = a.row k (i + 1) ∧
      ((D.tiStrategy n).rows k ((a.run.node k).hist.take (i + 1))).loc = a.rowLoc k (i + 1) ∧
      ((a.row k (i + 1)).length = D.M k + 1 ∧ ∀ ch ∈ a.row k (i + 1), ch.length = D.nb) ∧
      ((a.rowLoc k (i + 1)).length = D.M k ∧ ∀ ch ∈ a.rowLoc k (i + 1), ch.length = D.nb) := by
    intro i hi
    obtain ⟨-, e2, q, p, r0, hq, hpp, hu, -, -, k3, k4⟩ := tiRun_update ha (List.getElem?_eq_getElem hi)
    obtain ⟨-, -, V, W, wl, -, -, hpW, hpl, -, hr⟩ := tiNodeUpdate_inv (tiNodeFold_inv _ hq) hu
    rw [e2] at hpW hpl
    have e3 : a.row k (i + 1) = frameRow W := by unfold TIDanseSt.row; rw [k3, hpW]; rfl
    have e4 : a.rowLoc k (i + 1) = frameRow wl := by unfold TIDanseSt.rowLoc; rw [k4, hpl]; rfl
    rw [(tiStrategy_of hpp).1, hr, e3, e4]
    exact ⟨rfl, rfl, frameRow_shape W, frameRow_shape wl⟩
  constructor
  · intro hq hw hid
    apply hp.1
    intro i hi
    obtain ⟨e1, -, e3, -⟩ := hrow i hi
    have hf := (C139_frozen h hs hid (fun j => by rw [hw, hw])).1 hq (i + 1) (by omega)
    rw [hw] at hf
    rw [e1, hM]
    exact row_of_coef e3 ⟨by simp [selector], by simp [selector, DanseCfg.nb]⟩ hf
  · intro hw hid
    apply hp.2
    intro i hi
    obtain ⟨-, e2, -, e4⟩ := hrow i hi
    have hf := C139_frozen_local h hs hid (fun j => by rw [hw, hw]) (i + 1) (by omega)
    rw [hw] at hf
    rw [e2, hM]
    exact row_of_coef e4 ⟨by simp [selector], by simp [selector, DanseCfg.nb]⟩ hf

end

/-! ## Concrete networks -/

/-- No frame is inactive. -/
noncomputable def exTIMute : DanseCfg ℚ := { exLevelTI true with vad := fun _ _ => true }

/-- The hypotheses of C141 are met by a run of two nodes (`exStar_sched2` is the schedule) that hear no noise only: from
sample 1 to sample 6 both pass on their sensor. -/
example : letI : StarRing ℚ := starRingOfComm
    SyncTI exTIMute.g 1 10 ![[[4, 2, 2, 1, 5, 1, 3, 2, 4, 1]], [[1, 0, 2, 3, -1, 2, 4, 2, 5, 3]]] ∧
    OrientedTree (exStar 1).1 (exStar 1).2 ∧ DftRoot exTIMute.g.ζ exTIMute.g.N ∧ 2 ∣ exTIMute.g.N ∧ exTIMute.g.c ≠ 0 ∧
    exTIMute.g.N = 2 * exTIMute.g.Ns ∧ exTIMute.seq = false ∧
    (∀ ρ < exTIMute.g.Ns, ∑ m ∈ Finset.range 2, exTIMute.g.h.getD (ρ + m * exTIMute.g.Ns) 0 *
      exTIMute.g.f.getD (ρ + m * exTIMute.g.Ns) 0 = 1) ∧
    (∀ k i, exTIMute.g.wInt k i = selector (exTIMute.M k + 1) exTIMute.g.refSensor exTIMute.nb) ∧
    (∀ k, ∀ h : List (TIObs ℚ), exTIMute.TIIdle h k (exTIMute.M k + 1)) ∧
    (tiDanseRun exTIMute 10 ![[[4, 2, 2, 1, 5, 1, 3, 2, 4, 1]], [[1, 0, 2, 3, -1, 2, 4, 2, 5, 3]]] (fun _ => [])
      [(exStar 1).1] (exStarOut [1, 0] [0, 1])).map (fun s => ((s.run.node 0).d, (s.run.node 1).d)) =
      .ok ([2, 2, 2, 1, 5, 1, 3, 1, 0, 0], [1 / 2, 0, 2, 3, -1, 2, 4, 1, 0, 0]) := by
  refine ⟨exStar_sync ?_, exStar_ok 1, ⟨by change 0 < 2; norm_num, IsPrimitiveRoot.neg_one 0 (by norm_num),
    by change (-1 : ℚ) = (-1 : ℚ)⁻¹; norm_num⟩,
    by change 2 ∣ 2; norm_num, one_ne_zero, rfl, rfl, ?_, fun k i => rfl, ?_, by decide +kernel⟩
  · intro k
    fin_cases k <;> simp
  · intro ρ hρ
    change ρ < 1 at hρ
    obtain rfl : ρ = 0 := by omega
    decide +kernel
  · intro k h
    have hv : exTIMute.vad k = fun _ => true := rfl
    refine .inr (.inl ⟨false, ?_⟩)
    rw [hv, List.countP_eq_zero.mpr (by simp)]
    exact Nat.zero_le _

end Danse
