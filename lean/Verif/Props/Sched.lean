import Verif.Proofs.Sched3
import Verif.Props.Clock

/-!
# Property C78: the schedule of a synchronous network, and what a run with it does

`initEventsFC` models `initialize_events` (d_base.py 513-571) for fully connected networks; its
schedule is then run by `danse` (`GivenCfg.run` over `flatEvents`). The nodes are synchronous: sample `i`
of every node is taken at time `i / fs`.
-/

namespace Danse

/-- C78 (a): for synchronous nodes with `n` samples each, and a sampling frequency that is inferred
exactly, the schedule is produced; every node updates at the samples `⌈N/Ns⌉ Ns`, `(⌈N/Ns⌉ + 1) Ns`, ...
and broadcasts at the samples `L`, `2 L`, ... (few samples) or at the same samples as it updates (whole
chunks), each up to (not including) the last multiple of the step in the recording; and nothing else
happens. -/
theorem C78_schedule {bc : BcType} {N Ns n : Nat} (hNs : 0 < Ns) (hn : 0 < n) {fs : ℚ} (hfs : 0 < fs)
    (hf : inferFs (clockStamps fs n) = .ok fs) (hw : bc = .whole → Ns ∣ N)
    (hL : ∀ L eff, bc = .few L eff → 0 < L ∧ eff = false) (nbs : List (List Nat)) {seq sim : Bool}
    {r : Nat} (first minF : Int) (hr : sim = true → r < nbs.length) :
    ∃ out, initEventsFC bc N Ns seq sim r first minF (syncNodes fs n nbs) =
        .ok (out, List.replicate nbs.length fs) ∧
      (∀ k < nbs.length, upTimes (flatEvents out) k = everySep Ns fs ⌈(N : ℚ) / Ns⌉₊ ((n - 1) / Ns) ∧
        bcTimes (flatEvents out) k = syncBc bc N Ns n fs) ∧
      ∀ ev ∈ flatEvents out, ev.2.1 < nbs.length ∧ (ev.2.2 = .up ∨ ev.2.2 = .bc) := by
  obtain ⟨out, h1, _, h3, h4⟩ := initEventsFC_sync (seq := seq) (sim := sim) (r := r) (first := first)
    (minF := minF) hNs hn hfs hf nbs hr (fcInstants_sync hNs hn hfs nbs hw hL)
    (everySep_sorted hNs hfs _ _) (by
      match bc, hL with
      | .whole, _ => exact everySep_sorted hNs hfs _ _
      | .few L eff, hL => exact everySep_sorted (hL L eff rfl).1 hfs _ _)
  exact ⟨out, h1, h3, h4⟩

/-- The schedule is the one that the event matrix function builds. -/
theorem initEventsFC_built {bc : BcType} {N Ns : Nat} {seq sim : Bool} {r : Nat} {first minF : Int}
    {nodes : List ClockNode} {out : List (Instant ℚ)} {f : List ℚ}
    (h : initEventsFC bc N Ns seq sim r first minF nodes = .ok (out, f)) :
    ∃ a, buildEvents a = .ok out ∧ a.tiFlag = false := by
  unfold initEventsFC at h
  obtain ⟨_, _, h⟩ := Except.bind_ok h
  obtain ⟨_, _, h⟩ := Except.bind_ok h
  obtain ⟨ub, _, h⟩ := Except.bind_ok h
  obtain ⟨o, ho, h⟩ := Except.bind_ok h
  injection h with h
  injection h with h1 h2
  subst h1
  refine ⟨_, ho, ?_⟩
  have := fcArgs_ti ub.1 ub.2 seq first minF nodes.length
  unfold fcArgs at this
  rwa [← List.map_const'] at this

section
variable {K : Type} [Field K] [StarRing K] [DecidableEq K] {g : GivenCfg K} {y : Nat → List (List K)}

/-- C78 (b): with the schedule of the code, the output of a node whose filters select its reference
sensor is the signal of that sensor, from the first update on (or from the first sample on, with
whole-chunk broadcasts) to within two frames of the end of the recording. -/
theorem C78_passthrough [CharZero K] {n : Nat} (hn : 0 < n) {fs : ℚ} (hfs : 0 < fs)
    (hf : inferFs (clockStamps fs n) = .ok fs) (nbs : List (List Nat)) {seq sim : Bool}
    {ri : Nat} {first minF : Int} {fsInf : List ℚ} {out : List (Instant ℚ)} (hg : ∀ k, g.fs k = fs)
    (hL : ∀ L eff, g.bc = .few L eff → 0 < L ∧ eff = false)
    (hout : initEventsFC g.bc g.N g.Ns seq sim ri first minF (syncNodes fs n nbs) = .ok (out, fsInf))
    (hri : sim = true → ri < nbs.length)
    (r : DftRoot g.ζ g.N) (he : 2 ∣ g.N) (hc : g.c ≠ 0)
    (hcr : star g.c = g.c) (hh : IsReal g.h) (hhl : g.h.length = g.N) (hfl : g.f.length = g.N)
    (hconv : g.conv = false) {k ref : Nat} (hk : k < nbs.length) {x : List K} (hx : (y k)[ref]? = some x)
    (hxn : x.length = n) (hxr : IsReal x)
    (hw : ∀ i, g.wInt k (i + 1) = selector ((y k).length + (g.nb k).length) ref (g.N / 2 + 1))
    (hrot : ∀ i κ, g.rot k i ref κ = 1) (M : Nat → Nat) {R : Nat} (hNs : 0 < g.Ns) (hR : 0 < R)
    (hN : g.N = R * g.Ns) (hcola : ∀ ρ < g.Ns, ∑ m ∈ Finset.range R,
      g.h.getD (ρ + m * g.Ns) 0 * g.f.getD (ρ + m * g.Ns) 0 = 1) {s : GivenSt K}
    (h : g.run y (.init g.N g.refSensor n M) (flatEvents out) = .ok s) {m : Nat}
    (hm : match g.bc with
      | .few _ _ => g.N ≤ m + g.Ns ∧ m + g.N < (n - 1) / g.Ns * g.Ns
      | .whole => m + 2 * g.N < (n - 1) / g.Ns * g.Ns + g.Ns) :
    (s.d k)[m]? = x[m]? := by
  have hdvd : g.Ns ∣ g.N := ⟨R, by rw [hN]; ring⟩
  obtain ⟨out', ho', hup, _⟩ := C78_schedule (seq := seq) (sim := sim) (r := ri) (N := g.N) hNs hn hfs hf
    (fun _ => hdvd) hL nbs first minF hri
  rw [hout] at ho'
  injection ho' with ho'
  injection ho' with ho'
  subst ho'
  have hcl : ⌈(g.N : ℚ) / g.Ns⌉₊ = R := by
    have : (g.N : ℚ) / g.Ns = R := by
      rw [hN]
      push_cast
      field_simp
    rw [this, Nat.ceil_natCast]
  have hu := (hup k hk).1
  rw [hcl] at hu
  have hE : frameEnds g.bc g.N g.Ns (g.fs k) k (flatEvents out) =
      (List.range ((n - 1) / g.Ns - R)).map fun (j : Nat) => frameEnd g.bc g.N g.Ns 0 0 + g.N + j * g.Ns := by
    rw [frameEnds_eq, hu, hg]
    unfold everySep
    rw [List.map_map]
    apply List.map_congr_left
    intro j hj
    have e := floor_everySep hfs (R + j) g.Ns
    have e2 : ((R + j) * g.Ns : Nat) = g.N + j * g.Ns := by rw [hN]; ring
    simp only [Function.comp_apply, frameEnd]
    rw [e, e2]
    cases g.bc <;> simp <;> ring
  have hJ : R ≤ (n - 1) / g.Ns := by
    have : R * g.Ns ≤ (n - 1) / g.Ns * g.Ns := by
      rw [← hN]
      cases hbc : g.bc with
      | few L eff => rw [hbc] at hm; simp only at hm; omega
      | whole =>
        rw [hbc] at hm
        simp only at hm
        have : g.Ns ≤ g.N := Nat.le_of_dvd (by rw [hN]; positivity) hdvd
        omega
    exact Nat.le_of_mul_le_mul_right this hNs
  have hJ2 : (((n - 1) / g.Ns - R : Nat) : Int) * g.Ns = ((n - 1) / g.Ns * g.Ns : Nat) - g.N := by
    rw [Nat.cast_sub hJ, hN]
    push_cast
    ring
  have hdiv : (n - 1) / g.Ns * g.Ns ≤ n - 1 := Nat.div_mul_le_self _ _
  have hNsN : g.Ns ≤ g.N := Nat.le_of_dvd (by rw [hN]; positivity) hdvd
  generalize (n - 1) / g.Ns * g.Ns = D at hJ2 hm hdiv
  refine C75_passthrough r he hc hcr hh hhl hfl hconv hx hxr hw hrot (T := n) (by omega) M hNs hR hN hcola
    hE ?_ ?_ h ?_ ?_
  · cases g.bc <;> simp [frameEnd] <;> omega
  · rw [hJ2]
    cases g.bc <;> simp [frameEnd] <;> omega
  · cases hbc : g.bc with
    | few L eff => rw [hbc] at hm; simp only [frameEnd] at hm ⊢; simp; omega
    | whole => simp [frameEnd]
  · rw [hJ2]
    cases hbc : g.bc with
    | few L eff => rw [hbc] at hm; simp only [frameEnd] at hm ⊢; simp; omega
    | whole => rw [hbc] at hm; simp only [frameEnd] at hm ⊢; simp; omega

/-- C78 (c): few-sample broadcasts, `L ≤ Ns` samples at a time. At the update of node `q` at sample
`i Ns`, the frame it holds of a neighbour `k` with its initial filter is the frame of the reference sensor
of node `k` that ends at sample `⌊i Ns / L⌋ L`: at the same sample as its own frames when `L` divides
`Ns`, and less than `L` samples earlier otherwise. -/
theorem C78_neighbour_frame {n L : Nat} (hn : 0 < n) {fs : ℚ} (hfs : 0 < fs)
    (hf : inferFs (clockStamps fs n) = .ok fs) (nbs : List (List Nat)) {seq sim : Bool}
    {ri : Nat} {first minF : Int} {fsInf : List ℚ} {out : List (Instant ℚ)} (hg : ∀ k, g.fs k = fs)
    (hb : g.bc = .few L false) (hL0 : 0 < L) (hLNs : L ≤ g.Ns)
    (hout : initEventsFC g.bc g.N g.Ns seq sim ri first minF (syncNodes fs n nbs) = .ok (out, fsInf))
    (hri : sim = true → ri < nbs.length) (hN : 2 ≤ g.N) (hLN : L ≤ g.N)
    (hnb : GoodNeighbours g.nb) {k : Nat} (hkn : k < nbs.length) {x : List K}
    (hx : (y k)[g.refSensor]? = some x) (hxn : x.length = n) {M : Nat → Nat} (hM : M k = (y k).length)
    {q idx : Nat} (hqn : q < nbs.length) (hk : (g.nb q)[idx]? = some k) {t : ℚ}
    {pre post : List (ℚ × Nat × EvType)} (hev : flatEvents out = pre ++ (t, q, .up) :: post)
    (hkeep : (g.noFusion = true ∧ (y k).length = 1) ∨ ∀ ev ∈ pre, |ev.1| < g.upTDEvery)
    {T : Nat} {s : GivenSt K}
    (h : g.run y (.init g.N g.refSensor T M) (pre ++ [(t, q, .up)]) = .ok s) :
    ∃ i : Nat, t = (i : ℚ) * g.Ns / fs ∧ g.N ≤ i * g.Ns ∧ i * g.Ns < n ∧
      ∃ col, (s.net.z q)[idx]? = some col ∧ LastSamples g.N (x.take (i * g.Ns / L * L)) col ∧
        (g.N ≤ i * g.Ns / L * L → col = frameAt x (i * g.Ns / L * L - g.N) g.N) := by
  have hNs : 0 < g.Ns := by omega
  have hsch := C78_schedule (seq := seq) (sim := sim) (r := ri) (N := g.N) (bc := g.bc) hNs hn hfs hf
    (by rw [hb]; intro h; cases h) (by rw [hb]; intro L' e' h; injection h with h1 h2; exact ⟨h1 ▸ hL0, h2.symm⟩)
    nbs first minF hri
  rw [hout] at hsch
  obtain ⟨out', ho', hall, _⟩ := hsch
  injection ho' with ho'
  injection ho' with ho'
  subst ho'
  obtain ⟨a, ha, hti⟩ := initEventsFC_built hout
  have hord := schedule_order ha hti
  obtain ⟨i, hi, hiN, hit⟩ : ∃ i, i < (n - 1) / g.Ns ∧ g.N ≤ i * g.Ns ∧ t = (i : ℚ) * g.Ns / fs := by
    have hm : t ∈ upTimes (flatEvents out) q := by
      rw [hev]
      unfold upTimes
      rw [List.mem_filterMap]
      exact ⟨(t, q, .up), by simp, by simp⟩
    rw [(hall q hqn).1] at hm
    unfold everySep at hm
    obtain ⟨j, hj, rfl⟩ := List.mem_map.mp hm
    have hj' := List.mem_range.mp hj
    refine ⟨⌈(g.N : ℚ) / g.Ns⌉₊ + j, by omega, ?_, rfl⟩
    have h1 : (g.N : ℚ) / g.Ns ≤ (⌈(g.N : ℚ) / g.Ns⌉₊ : ℚ) := Nat.le_ceil _
    rw [div_le_iff₀ (by exact_mod_cast hNs)] at h1
    have h2 : g.N ≤ ⌈(g.N : ℚ) / g.Ns⌉₊ * g.Ns := by exact_mod_cast h1
    exact h2.trans (Nat.mul_le_mul_right _ (by omega))
  have h3 : (i + 1) * g.Ns ≤ n - 1 := (Nat.le_div_iff_mul_le hNs).mp hi
  rw [Nat.add_mul, Nat.one_mul] at h3
  refine ⟨i, hit, hiN, by omega, ?_⟩
  have hbc : bcTimes pre k = everySep L fs 1 (i * g.Ns / L + 1) := by
    rw [bcTimes_before hord hev k]
    have := (hall k hkn).2
    rw [hb, syncBc] at this
    rw [this, hit]
    have e : (i : ℚ) * g.Ns / fs = ((i * g.Ns : Nat) : ℚ) / fs := by push_cast; ring
    rw [e, everySep_filter hL0 hfs, Nat.min_eq_right]
    have h4 : i * g.Ns / L + 1 ≤ (i * g.Ns + L) / L := by rw [Nat.add_div_right _ hL0]
    exact h4.trans (Nat.div_le_div_right (by omega))
  have hreg : bcEnds (g.fs k) k pre =
      (List.range (i * g.Ns / L)).map fun (j : Nat) => ((0 + (j + 1) * L : Nat) : Int) := by
    rw [bcEnds_eq, hbc, hg]
    unfold everySep
    rw [List.map_map]
    apply List.map_congr_left
    intro j _
    rw [Function.comp_apply, floor_everySep hfs]
    congr 1
    ring
  have hd : i * g.Ns / L * L ≤ i * g.Ns := Nat.div_mul_le_self _ _
  have hlen : 0 + i * g.Ns / L * L ≤ x.length := by omega
  obtain ⟨col, c1, c2⟩ := C76_delivery hb hN hLN hnb hx hM hk hkeep hreg hlen h
  refine ⟨col, c1, by simpa using c2, fun hle => ?_⟩
  have c3 := C76_frame hb hN hLN hnb hx hM hk hkeep hreg hlen hle h
  rw [c1] at c3
  injection c3 with c3
  rw [c3, Nat.zero_add]

end

/-- Two nodes with seven samples each. -/
def exSync (k : Nat) : List (List ℚ) := if k = 0 then [[3, 1, 4, 1, 5, 9, 2]] else [[2, 7, 1, 8, 2, 8, 1]]

/-- The schedule of two synchronous nodes with `L = Ns = 1`, `N = 2` and seven samples. -/
def exSyncEvs : List (ℚ × Nat × EvType) :=
  [(1, 0, .bc), (1, 1, .bc), (2, 0, .bc), (2, 1, .bc), (2, 0, .up), (2, 1, .up),
   (3, 0, .bc), (3, 1, .bc), (3, 0, .up), (3, 1, .up), (4, 0, .bc), (4, 1, .bc), (4, 0, .up), (4, 1, .up),
   (5, 0, .bc), (5, 1, .bc), (5, 0, .up), (5, 1, .up)]

/-- The hypotheses of `C78_schedule` are met, and the schedule is as it says. -/
example : inferFs (clockStamps 1 7) = .ok 1 ∧
    (initEventsFC (.few 1 false) 2 1 true false 0 0 1 (syncNodes 1 7 [[1], [0]])).toOption.map
      (fun o => (flatEvents o.1, o.2)) = some (exSyncEvs, [1, 1]) := by
  decide_cbv

/-- The hypotheses of `C78_passthrough` and `C78_neighbour_frame` are met (those on the windows, the root
of unity and the filters as in the example of C75): on the schedule above, the outputs are the signals of
the nodes at the samples 1 to 3 (`m + 2 < 6`), and at the end node 0 has the samples 3 and 4 of node 1. -/
example : letI : StarRing ℚ := starRingOfComm
    let g := exPair false [[1, 1], [0, 0]]
    g.N = 2 ∧ g.Ns = 1 ∧ g.bc = .few 1 false ∧
    (g.run exSync (.init 2 0 7 fun _ => 1) exSyncEvs).toOption.map (fun s => (s.d 0, s.d 1)) =
      some ([3 / 2, 1, 4, 1, 5 / 2, 0, 0], [1, 7, 1, 8, 1, 0, 0]) ∧
    (g.run exSync (.init 2 0 7 fun _ => 1) exSyncEvs).toOption.map (fun s => (s.net.z 0, s.net.z 1)) =
      some ([[8, 2]], [[1, 5]]) := by
  decide +kernel

end Danse
