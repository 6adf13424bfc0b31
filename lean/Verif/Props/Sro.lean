import Verif.Proofs.Sro4

/-!
# Properties C54, C55, C70: compensation of sampling-rate offsets

`SroSt.run` runs the SRO part of an arbitrary sequence of updates of one node; `SroOut.applied` is the
vector of shifts (in samples, one per channel of the DANSE observation: first the node's own sensors,
then one per neighbour) compensated at that update, `appliedC` the same for the centralised
observation. Vocabulary: `Verif/Spec/Sro.lean`.
-/

namespace Danse

/-! ## C54 -/

/-- C54 (a): with oracle SROs, at the `i`-th update (from 0) the shift compensated in the channel of
the neighbour number `q` is minus `i` hops of relative offset, plus the sample-drift flags seen so
far if these are accounted for; the node's own channels are not shifted. Estimation enters neither
the signals nor the flags. -/
theorem C54_oracle {c : SroCfg} (hc : c.compensate = true) (hm : c.method = .oracle)
    {xs : List SroIn} {s : SroSt} {os : List SroOut}
    (h : (SroSt.init c).run c xs = .ok (s, os)) :
    os.length = xs.length ∧ ∀ (i : Nat) (o : SroOut), os[i]? = some o →
      ∃ a, o.applied = some a ∧ a.length = c.nLocal + c.neighbors.length ∧
        (∀ j < c.nLocal, a[j]? = some 0) ∧
        ∀ (q nq : Nat), c.neighbors[q]? = some nq → a[c.nLocal + q]? = some
          ((if c.includeFSD then flagTotal (xs.take (i + 1)) q else 0) -
            i * ((c.ppm.getD nq 0 - c.ppm.getD c.k 0) * (1 / 1000000)) * c.Ns) := by
  obtain ⟨_, h2, h3⟩ := sroRun_inv hc xs (sroInv_init c) h
  refine ⟨h2, fun i o ho => ?_⟩
  have hlt : i < xs.length := by
    rw [← h2]; exact (List.getElem?_eq_some_iff.mp ho).1
  have hx := List.getElem?_eq_getElem hlt
  obtain ⟨_, ⟨a, ha, hal, hloc, hnb⟩, _⟩ := h3 i _ o hx ho
  simp only [List.nil_append] at hnb
  refine ⟨a, ha, hal, fun j hj => ?_, fun q nq hq => ?_⟩
  · have := hloc j hj
    rw [List.getD_eq_getElem?_getD, List.getElem?_eq_getElem (by omega)] at this
    rw [List.getElem?_eq_getElem (by omega)]; simpa using this
  · have hql := (List.getElem?_eq_some_iff.mp hq).1
    have := hnb q hql
    rw [sroSum_const (v := c.oracleSro nq) (fun i x => by
      simp [sroAt, newEstimate, hm, List.getD_eq_getElem?_getD, hq])] at this
    rw [← List.take_succ_eq_append_getElem hlt, List.length_take, min_eq_left hlt.le] at this
    rw [List.getD_eq_getElem?_getD, List.getElem?_eq_getElem (by omega)] at this
    rw [List.getElem?_eq_getElem (by omega)]
    simp only [Option.getD_some] at this
    rw [this]
    rfl

/-- C54 (b): without compensation, no shift is applied, whatever the estimation method. -/
theorem C54_off {c : SroCfg} (hc : c.compensate = false) {s s' : SroSt} {x : SroIn} {o : SroOut}
    (h : s.step c x = .ok (s', o)) :
    o.applied = none ∧ o.appliedC = none ∧ s'.psf = s.psf ∧ s'.psfC = s.psfC := by
  unfold SroSt.step at h
  split at h
  · cases h
  obtain ⟨⟨s1, o1⟩, h1, h⟩ := bind_ok_inv h
  obtain ⟨s2, h2, h⟩ := bind_ok_inv h
  simp only [Except.ok.injEq, Prod.mk.injEq] at h
  obtain ⟨rfl, rfl⟩ := h
  unfold SroSt.compensate at h1
  simp only [hc, Bool.false_eq_true, false_and, and_false, if_false, Except.ok.injEq,
    Prod.mk.injEq] at h1
  obtain ⟨rfl, rfl⟩ := h1
  unfold SroSt.estimate at h2
  split at h2
  · cases h2
  split at h2
  · cases h2
  rw [if_pos (by simp [hc])] at h2
  injection h2 with h2
  subst h2
  exact ⟨rfl, rfl, rfl, rfl⟩

/-- C54 (c): the compensation only turns phases: the magnitude of every bin is kept, and a shift of
zero changes nothing. -/
theorem C54_phase_only (N : Nat) (shift : ℝ) (Y : List ℂ) :
    (applyShift N shift Y).length = Y.length ∧
    (∀ κ (h : κ < Y.length) (h' : κ < (applyShift N shift Y).length),
      ‖(applyShift N shift Y)[κ]‖ = ‖Y[κ]‖) ∧
    applyShift N 0 Y = Y := by
  refine ⟨by simp [applyShift], fun κ h h' => ?_, ?_⟩
  · simp [applyShift, phaseFactor_norm]
  · unfold applyShift phaseFactor
    apply List.ext_getElem
    · simp
    · intro i h1 h2; simp

/-- C54 (d): compensating an integer shift `d` delays the frame (circularly) by `d` samples: going
back to the time domain gives the delayed frame. -/
theorem C54_is_delay {N : Nat} (hN : 0 < N) (he : 2 ∣ N) (d : Int) {x : List ℝ} (hx : x.length = N) :
    backToTD (Complex.exp (2 * Real.pi * Complex.I / N)) N (applyShift N (d : ℝ)
      ((dft (Complex.exp (2 * Real.pi * Complex.I / N)) N (x.map Complex.ofReal)).take (N / 2 + 1))) =
      .ok ((circDelay N d x).map Complex.ofReal) := by
  have hmap : (circDelay N d x).map Complex.ofReal = circDelay N d (x.map Complex.ofReal) := by
    unfold circDelay
    rw [List.map_map]
    apply List.map_congr_left
    intro t _
    simp only [Function.comp_apply, List.getD_eq_getElem?_getD, List.getElem?_map]
    cases x[(((t : Int) - d) % N).toNat]? <;> simp
  rw [applyShift_dft hN, hmap]
  apply backToTD_dft (dft_root N hN) he (by simp [circDelay])
  intro t ht
  rw [← hmap]
  unfold at0
  simp only [List.getD_eq_getElem?_getD, List.getElem?_map]
  cases (circDelay N d x)[t]? <;> simp

/-- C54 (e): what the compensation achieves. Node `k` runs on its own clock `fk`, its neighbour on
`fq`; `R` is the number of samples received from the neighbour up to the latest update, `L` the
number of own samples at that update (`Ndft` at the first and `Ns` more at each of the following).
With the flags of the buffers and oracle SROs, the misalignment that remains after the compensation
is the constant `-Ndft * d` (with `d` the relative offset), plus a second-order term that vanishes
when node `k` has no offset of its own. Updates are never skipped. -/
theorem C54_alignment {α : Type} [Zero α] {nb : Nat → List Nat} (g : GoodNeighbours nb)
    {Ndft Ns : Nat} {ops : List (BufOp α)} {st : NetSt α} (hnet : netRun nb Ndft Ns ops = .ok st)
    {c : SroCfg} (hc : c.compensate = true) (hm : c.method = .oracle) (hf : c.includeFSD = true)
    (hnb : c.neighbors = nb c.k) (hNs : c.Ns = Ns)
    {xs : List SroIn}
    (hxs : xs.map (·.flags) = (st.flags c.k).map fun f => f.map fun (v : Int) => some (Int.cast v : ℚ))
    {s : SroSt} {os : List SroOut} (h : (SroSt.init c).run c xs = .ok (s, os))
    {o : SroOut} (ho : os.getLast? = some o)
    {q nq : Nat} (hq : (nb c.k)[q]? = some nq) {fs ek eq : ℚ} (hek : -1 < ek) (hfs : 0 < fs)
    (h1 : c.ppm.getD c.k 0 = ek * 1000000) (h2 : c.ppm.getD nq 0 = eq * 1000000) :
    o.skip = false ∧ ∃ a shift, o.applied = some a ∧ a[c.nLocal + q]? = some shift ∧
      misalign (sent (untilUp c.k ops) nq).length (Ndft + ((numUps c.k ops : ℚ) - 1) * Ns)
          (fs * (1 + eq)) (fs * (1 + ek)) - shift =
        -(Ndft * (eq - ek)) +
          (Ndft + ((numUps c.k ops : ℚ) - 1) * Ns) * (eq - ek) * (ek / (1 + ek)) := by
  obtain ⟨hl, hrun⟩ := C54_oracle hc hm h
  obtain ⟨f1, f2, f3⟩ := C17_flags_account g hnet c.k
  have hxl : xs.length = numUps c.k ops := by
    rw [← f1, ← List.length_map (f := (·.flags)), hxs, List.length_map]
  have hpos : 0 < xs.length := by
    rw [← hl]
    rcases os with _ | ⟨o', os'⟩
    · simp at ho
    · simp
  have hoi : os[xs.length - 1]? = some o := by
    rw [List.getLast?_eq_getElem?] at ho; rw [← hl]; exact ho
  constructor
  · obtain ⟨_, _, h3⟩ := sroRun_inv hc xs (sroInv_init c) h
    have hxi := List.getElem?_eq_getElem (show xs.length - 1 < xs.length by omega)
    have hsk := (h3 _ _ o hxi hoi).skip
    rw [Bool.eq_false_iff]
    intro hcon
    have hmem := hsk.mp hcon
    have : xs[xs.length - 1].flags ∈ xs.map (·.flags) := List.mem_map.mpr ⟨_, List.getElem_mem _, rfl⟩
    rw [hxs] at this
    obtain ⟨f, _, hf2⟩ := List.mem_map.mp this
    rw [← hf2] at hmem
    simp at hmem
  · obtain ⟨a, ha, hal, _, hnbr⟩ := hrun _ o hoi
    refine ⟨a, _, ha, hnbr q nq (hnb ▸ hq), ?_⟩
    have hft : flagTotal xs q = (((st.flags c.k).map fun f => f.getD q 0).sum : Int) := by
      unfold flagTotal
      rw [show (xs.map fun x => flagAt x.flags q) = (xs.map (·.flags)).map (fun l => flagAt l q) by
        rw [List.map_map]; rfl, hxs, List.map_map]
      generalize st.flags c.k = L
      induction L with
      | nil => simp
      | cons f L ih => simp only [List.map_cons, List.sum_cons, Function.comp_apply, flagAt_map_some, ih]; push_cast; ring
    rw [if_pos hf, List.take_of_length_le (by omega), hft, f3 (by omega) q nq hq, hNs, h1, h2,
      Nat.cast_sub hpos, hxl]
    unfold misalign
    have hk : (1 + ek) ≠ 0 := by linarith
    have hf0 := hfs.ne'
    push_cast
    field_simp
    ring

/-- A node 0 with one sensor and two neighbours, offsets 0, 50 and -20 ppm. -/
def exSro : SroCfg :=
  { k := 0, Ns := 1000, neighbors := [1, 2], nSensors := [1, 1, 1], ppm := [0, 50, -20], nIter := 5,
    method := .oracle, startAfterNups := 0, estEvery := 1, compensate := true, includeFSD := true,
    centralised := true, ssbc := false, networkWide := false }

/-- Updates with a flag at the third one. -/
def exSroIn : List SroIn :=
  [⟨[some 0, some 0], [some 0, some 0, some 0], fun _ => 0, fun _ => 0⟩,
   ⟨[some 0, some 0], [some 0, some 0, some 0], fun _ => 0, fun _ => 0⟩,
   ⟨[some 1, some 0], [some 0, some 1, some 0], fun _ => 0, fun _ => 0⟩]

example : ((SroSt.init exSro).run exSro exSroIn).map (fun r => r.2.map fun o => (o.applied, o.appliedC)) =
    .ok [(some [0, 0, 0], some [0, 0, 0]), (some [0, -(1/20), 1/50], some [0, -(1/20), 1/50]),
      (some [0, 9/10, 1/25], some [0, 9/10, 1/25])] := by
  decide +kernel

/-! ## C55 -/

/-- C55 (a): the update is skipped exactly when a neighbour's flag is not a number; a node's skip
flag for the centralised estimate exists exactly when that estimate is computed. -/
theorem C55_skip {c : SroCfg} (hc : c.compensate = true)
    {xs : List SroIn} {s : SroSt} {os : List SroOut}
    (h : (SroSt.init c).run c xs = .ok (s, os)) {i : Nat} {x : SroIn} {o : SroOut}
    (hx : xs[i]? = some x) (ho : os[i]? = some o) : o.skip = true ↔ none ∈ x.flags := by
  obtain ⟨_, _, h3⟩ := sroRun_inv hc xs (sroInv_init c) h
  exact (h3 i x o hx ho).skip

/-- C55 (b): the channels on which the code applies the drift flag of node `q` are the channels of
node `q`, for all `q`, exactly when the updating node is the last one or all nodes from it on have a
single sensor. -/
theorem C55_channels_iff {n : List Nat} {k : Nat} (hk : k < n.length)
    (hp : ∀ q < n.length, 1 ≤ n.getD q 0) :
    (∀ q < n.length, q ≠ k → ∀ j, ((flagRange n k q).1 ≤ j ∧ j < (flagRange n k q).2) ↔
        channelOf n q j) ↔
      (k + 1 = n.length ∨ ∀ j, k ≤ j → j < n.length → n.getD j 0 = 1) := by
  rw [← flagRange_iff hk hp]
  constructor
  · intro h q hq hne
    have hh := h q hq hne
    have e := take_succ_sum n hq
    have hpq := hp q hq
    have hlt : (flagRange n k q).1 < (flagRange n k q).2 := by
      unfold flagRange
      simp only
      have := take_sum_mono (n.eraseIdx k) (show q ≤ q + 1 by omega)
      split <;> omega
    unfold channelOf at hh
    unfold nodeRange
    have a1 := hh (flagRange n k q).1
    have a2 := hh ((flagRange n k q).2 - 1)
    have a3 := hh (n.take q).sum
    have a4 := hh ((n.take (q + 1)).sum - 1)
    rw [Prod.ext_iff]
    simp only
    omega
  · intro h q hq hne j
    rw [h q hq hne]
    exact Iff.rfl

/-- C55 (c): in those configurations, with oracle SROs, the shift applied at the `i`-th update to
each centralised channel of node `q` is the sum of its flags minus `i` hops of relative offset; the
node's own channels are not shifted. -/
theorem C55_centralised {c : SroCfg} (hc : c.compensate = true) (hm : c.method = .oracle)
    (hcc : c.centralised = true) (hk : c.k < c.nSensors.length)
    (hp : ∀ q < c.nSensors.length, 1 ≤ c.nSensors.getD q 0)
    (hcfg : c.k + 1 = c.nSensors.length ∨
      ∀ j, c.k ≤ j → j < c.nSensors.length → c.nSensors.getD j 0 = 1)
    {xs : List SroIn} (hl : ∀ x ∈ xs, x.flagsC.length = c.nSensors.length)
    {s : SroSt} {os : List SroOut} (h : (SroSt.init c).run c xs = .ok (s, os))
    {i : Nat} {o : SroOut} (ho : os[i]? = some o) :
    ∃ a, o.appliedC = some a ∧ a.length = c.nSensors.sum ∧
      ∀ q j, channelOf c.nSensors q j → a[j]? = some
        (if q = c.k then 0 else (if c.includeFSD then flagTotalC (xs.take (i + 1)) q else 0) -
          i * ((c.ppm.getD q 0 - c.ppm.getD c.k 0) * (1 / 1000000)) * c.Ns) := by
  obtain ⟨_, h2, h3⟩ := sroRun_inv hc xs (sroInv_init c) h
  have hlt : i < xs.length := by rw [← h2]; exact (List.getElem?_eq_some_iff.mp ho).1
  obtain ⟨a, ha, hal, hch⟩ := (h3 i _ o (List.getElem?_eq_getElem hlt) ho).appC hcc
  refine ⟨a, ha, hal, fun q j hj => ?_⟩
  have := hch q j hj
  obtain ⟨hq, hjs⟩ := channelOf_lt hj
  rw [List.nil_append, ← List.take_succ_eq_append_getElem hlt,
    extraSumC_right ((flagRange_iff hk hp).mpr hcfg) (fun x hx => hl x (List.mem_of_mem_take hx)) hj,
    sroSumC_const (v := c.oracleSro q) (fun i x => by simp [sroAtC, newEstimate, hm]),
    List.length_take, min_eq_left hlt.le, List.getD_eq_getElem?_getD,
    List.getElem?_eq_getElem (by omega)] at this
  rw [List.getElem?_eq_getElem (by omega)]
  simp only [Option.getD_some] at this
  rw [this]
  by_cases hqk : q = c.k
  · subst hqk; simp [SroCfg.oracleSro]
  · rw [if_neg hqk, if_neg hqk]; rfl

/-- C55 (d): without drift flags the centralised shifts are right in every configuration. -/
theorem C55_centralised_no_flags {c : SroCfg} (hc : c.compensate = true) (hm : c.method = .oracle)
    (hcc : c.centralised = true) (hf : c.includeFSD = false)
    {xs : List SroIn} {s : SroSt} {os : List SroOut} (h : (SroSt.init c).run c xs = .ok (s, os))
    {i : Nat} {o : SroOut} (ho : os[i]? = some o) :
    ∃ a, o.appliedC = some a ∧ a.length = c.nSensors.sum ∧
      ∀ q j, channelOf c.nSensors q j → a[j]? = some
        (-(i * ((c.ppm.getD q 0 - c.ppm.getD c.k 0) * (1 / 1000000)) * c.Ns)) := by
  obtain ⟨_, h2, h3⟩ := sroRun_inv hc xs (sroInv_init c) h
  have hlt : i < xs.length := by rw [← h2]; exact (List.getElem?_eq_some_iff.mp ho).1
  obtain ⟨a, ha, hal, hch⟩ := (h3 i _ o (List.getElem?_eq_getElem hlt) ho).appC hcc
  refine ⟨a, ha, hal, fun q j hj => ?_⟩
  have := hch q j hj
  obtain ⟨hq, hjs⟩ := channelOf_lt hj
  rw [List.nil_append, 
    sroSumC_const (v := c.oracleSro q) (fun i x => by simp [sroAtC, newEstimate, hm]),
    List.length_take, min_eq_left hlt.le, List.getD_eq_getElem?_getD,
    List.getElem?_eq_getElem (by omega), if_neg (by simp [hf])] at this
  rw [List.getElem?_eq_getElem (by omega)]
  simp only [Option.getD_some] at this
  rw [this, zero_sub]; rfl

/-- C55 (e), disagreement: two nodes with two sensors each. A drift of one sample of node 1 is
compensated in only one of its two channels in node 0's centralised observation. With three sensors
at node 0 and one at node 1, the drift of node 1 shifts one of node 0's own channels instead. -/
theorem C55_refuted_wrong_channels :
    ((SroSt.init { exSro with neighbors := [1], nSensors := [2, 2], ppm := [0, 0] }).run
      { exSro with neighbors := [1], nSensors := [2, 2], ppm := [0, 0] }
      [⟨[some 1], [some 0, some 1], fun _ => 0, fun _ => 0⟩]).map
        (fun r => r.2.map fun o => (o.applied, o.appliedC)) =
      .ok [(some [0, 0, 1], some [0, 0, 1, 0])] ∧
    ((SroSt.init { exSro with neighbors := [1], nSensors := [3, 1], ppm := [0, 0] }).run
      { exSro with neighbors := [1], nSensors := [3, 1], ppm := [0, 0] }
      [⟨[some 1], [some 0, some 1], fun _ => 0, fun _ => 0⟩]).map
        (fun r => r.2.map fun o => (o.applied, o.appliedC)) =
      .ok [(some [0, 0, 0, 1], some [0, 1, 0, 0])] := by
  decide +kernel

/-! ## C70 -/

/-- C70 (a): with coherence drift, the SRO estimate stored at an update and used from then on for
one hop is computed from that update's estimator output only: zero unless an estimate is scheduled
(`estEvery` updates after the start delay, then every `estEvery`); the total shift is minus the sum
of these, plus the flags. -/
theorem C70_coherence {c : SroCfg} (hc : c.compensate = true)
    {al : ℚ} (hm : c.method = .closed al ∨ (c.method = .open ∧ al = 1))
    {xs : List SroIn} {s : SroSt} {os : List SroOut} (h : (SroSt.init c).run c xs = .ok (s, os)) :
    let used := fun (i : Nat) (x : SroIn) (q : Nat) =>
      if c.scheduled i then x.coh q / (1 + x.coh q) * al else 0
    (∀ (i q : Nat) (x : SroIn), xs[i]? = some x → q < c.neighbors.length → s.est i q = used i x q) ∧
    ∀ (i : Nat) (o : SroOut), os[i]? = some o → ∃ a, o.applied = some a ∧
      (∀ j < c.nLocal, a[j]? = some 0) ∧
      ∀ q < c.neighbors.length, a[c.nLocal + q]? = some
        ((if c.includeFSD then flagTotal (xs.take (i + 1)) q else 0) -
          ((xs.take i).zipIdx.map fun p => used p.2 p.1 q).sum * c.Ns) := by
  intro used
  have hu : ∀ i x q, sroAt c i x q = used i x q := by
    intro i x q
    simp only [sroAt, used]
    rcases hm with hm | ⟨hm, rfl⟩
    · simp only [newEstimate, hm, SroCfg.residual]
      split <;> simp
    · simp only [newEstimate, hm, SroCfg.residual]
      split <;> simp
  obtain ⟨h1, h2, h3⟩ := sroRun_inv hc xs (sroInv_init c) h
  rw [List.nil_append] at h1
  refine ⟨fun i q x hx hq => by rw [h1.est i q x hx hq, hu], fun i o ho => ?_⟩
  have hlt : i < xs.length := by rw [← h2]; exact (List.getElem?_eq_some_iff.mp ho).1
  obtain ⟨a, ha, hal, hloc, hnb⟩ := (h3 i _ o (List.getElem?_eq_getElem hlt) ho).app
  refine ⟨a, ha, fun j hj => ?_, fun q hq => ?_⟩
  · have := hloc j hj
    rw [List.getD_eq_getElem?_getD, List.getElem?_eq_getElem (by omega)] at this
    rw [List.getElem?_eq_getElem (by omega)]; simpa using this
  · have := hnb q hq
    rw [List.nil_append, ← List.take_succ_eq_append_getElem hlt, List.getD_eq_getElem?_getD,
      List.getElem?_eq_getElem (by omega)] at this
    rw [List.getElem?_eq_getElem (by omega)]
    simp only [Option.getD_some] at this
    rw [this]
    unfold sroSum
    simp only [hu]

/-- C70 (a'): the same for the centralised estimate: one value per node from that update's estimator
outputs, zero for the node itself and outside the schedule; the shift of every channel of node `q` is
minus the sum of them (drift flags excluded). -/
theorem C70_coherence_centralised {c : SroCfg} (hc : c.compensate = true) (hcc : c.centralised = true)
    (hf : c.includeFSD = false)
    {al : ℚ} (hm : c.method = .closed al ∨ (c.method = .open ∧ al = 1))
    {xs : List SroIn} {s : SroSt} {os : List SroOut} (h : (SroSt.init c).run c xs = .ok (s, os)) :
    let used := fun (i : Nat) (x : SroIn) (q : Nat) =>
      if c.scheduled i ∧ q ≠ c.k then x.cohC q / (1 + x.cohC q) * al else 0
    (∀ (i q : Nat) (x : SroIn), xs[i]? = some x → q < c.nSensors.length → s.estC i q = used i x q) ∧
    ∀ (i : Nat) (o : SroOut), os[i]? = some o → ∃ a, o.appliedC = some a ∧
      a.length = c.nSensors.sum ∧
      ∀ q j, channelOf c.nSensors q j → a[j]? = some
        (-(((xs.take i).zipIdx.map fun p => used p.2 p.1 q).sum * c.Ns)) := by
  intro used
  have hu : ∀ i x q, sroAtC c i x q = used i x q := by
    intro i x q
    simp only [sroAtC, used]
    rcases hm with hm | ⟨hm, rfl⟩
    · simp only [newEstimate, hm, SroCfg.residualC]
      split <;> simp
    · simp only [newEstimate, hm, SroCfg.residualC]
      split <;> simp
  obtain ⟨h1, h2, h3⟩ := sroRun_inv hc xs (sroInv_init c) h
  rw [List.nil_append] at h1
  refine ⟨fun i q x hx hq => by rw [h1.estC hcc i q x hx hq, hu], fun i o ho => ?_⟩
  have hlt : i < xs.length := by rw [← h2]; exact (List.getElem?_eq_some_iff.mp ho).1
  obtain ⟨a, ha, hal, hch⟩ := (h3 i _ o (List.getElem?_eq_getElem hlt) ho).appC hcc
  refine ⟨a, ha, hal, fun q j hj => ?_⟩
  have := hch q j hj
  obtain ⟨hq, hjs⟩ := channelOf_lt hj
  rw [List.nil_append, List.getD_eq_getElem?_getD, List.getElem?_eq_getElem (by omega),
    if_neg (by simp [hf])] at this
  rw [List.getElem?_eq_getElem (by omega)]
  simp only [Option.getD_some] at this
  rw [this, zero_sub]
  unfold sroSumC
  simp only [hu]

/-- C70 (b): estimates are scheduled every `estEvery` updates after `startAfterNups`, from
`startAfterNups + estEvery` on and within the expected number of iterations. -/
theorem C70_schedule (c : SroCfg) (he : 0 < c.estEvery) (i : Nat) :
    c.scheduled i = true ↔
      i < c.nIter ∧ ∃ m, 1 ≤ m ∧ i = c.startAfterNups + m * c.estEvery := by
  unfold SroCfg.scheduled
  rw [decide_eq_true_iff]
  constructor
  · rintro ⟨h1, h2, h3⟩
    refine ⟨h2, (i - (c.startAfterNups + c.estEvery)) / c.estEvery + 1, Nat.le_add_left 1 _, ?_⟩
    have := Nat.div_add_mod (i - (c.startAfterNups + c.estEvery)) c.estEvery
    rw [h3, add_zero] at this
    rw [Nat.add_mul, one_mul, Nat.mul_comm]; omega
  · rintro ⟨h1, m, hm, rfl⟩
    obtain ⟨m, rfl⟩ : ∃ m', m = m' + 1 := ⟨m - 1, by omega⟩
    have e : c.startAfterNups + (m + 1) * c.estEvery - (c.startAfterNups + c.estEvery) = m * c.estEvery := by
      rw [Nat.add_mul, one_mul]; omega
    refine ⟨by rw [Nat.add_mul]; omega, h1, by rw [e, Nat.mul_mod_left]⟩

/-- C70 (c): the pipeline goes through unless the estimation method is DXCP-PhaT, the strategy is
network-wide with other than one neighbour, single-sensor broadcasting is compensated, node 0 has no
neighbours, or there are more updates than expected. -/
theorem C70_runs {c : SroCfg} (hm : c.method ≠ .dxcp)
    (hn : c.networkWide = true → c.neighbors.length = 1) (hs : c.ssbc = true → c.compensate = false)
    (hk : c.compensate = true → c.k = 0 → c.neighbors ≠ []) (xs : List SroIn)
    (hl : xs.length ≤ c.nIter) : ∃ s os, (SroSt.init c).run c xs = .ok (s, os) :=
  sroRun_ok hm hn hs hk xs (SroSt.init c) (by simpa [SroSt.init] using hl)

/-- C70 (d): the accepted method 'DXCPPhaT' and the network-wide strategy (with other than one
neighbour) fail at the first update, even when no compensation is asked for. -/
theorem C70_refuted_accepted_options {c : SroCfg} (x : SroIn) (hi : 0 < c.nIter)
    (hs : c.ssbc = true → c.compensate = false) (hk : c.compensate = true → c.k = 0 → c.neighbors ≠ []) :
    (c.method = .dxcp → (SroSt.init c).step c x = .error .notImplementedError) ∧
    (c.method ≠ .dxcp → c.networkWide = true → c.neighbors.length ≠ 1 →
      (SroSt.init c).step c x = .error .valueError) := by
  have e1 : ¬ (c.compensate = true ∧ c.k = 0 ∧ c.neighbors = []) := fun h => hk h.1 h.2.1 h.2.2
  have e2 : ¬ (c.ssbc = true ∧ c.compensate = true) := fun h => by
    have := hs h.1; rw [h.2] at this; cases this
  constructor
  · intro hm
    unfold SroSt.step SroSt.compensate
    rw [if_neg (show ¬ (SroSt.init c).i ≥ c.nIter by simp [SroSt.init]; omega)]
    simp only [if_neg e1, if_neg e2, bind, Except.bind]
    unfold SroSt.estimate
    rw [if_pos hm]
  · intro hm hn hl
    unfold SroSt.step SroSt.compensate
    rw [if_neg (show ¬ (SroSt.init c).i ≥ c.nIter by simp [SroSt.init]; omega)]
    simp only [if_neg e1, if_neg e2, bind, Except.bind]
    unfold SroSt.estimate
    rw [if_neg hm, if_pos ⟨hn, hl⟩]

/-- A closed-loop configuration with an estimate at every update from the second on. -/
def exLoop (m : SroMethod) (every : Nat) : SroCfg :=
  { exSro with neighbors := [1], nSensors := [1, 1], ppm := [0, 100], method := m, estEvery := every,
               centralised := false, nIter := 9 }

/-- An update without flags whose coherence-drift output is `r`. -/
def exCoh (r : ℚ) : SroIn := ⟨[some 0], [some 0, some 0], fun _ => r, fun _ => r⟩

/-- C70 (e), disagreement: the documented closed-loop recursion "new estimate = previous estimate
plus `alphaEps` times the residual" does not hold: the array row that is incremented is a fresh row
of zeros. As soon as the residual is zero, i.e. the offset is compensated, the estimate is zero again
and the compensation stops growing although the clocks keep drifting. -/
theorem C70_refuted_closed_loop :
    ∃ s os, (SroSt.init (exLoop (.closed (1 / 2)) 1)).run (exLoop (.closed (1 / 2)) 1)
        [exCoh 0, exCoh (1 / 1000), exCoh 0, exCoh 0] = .ok (s, os) ∧
      s.est 1 0 = 1 / 2002 ∧ s.est 2 0 = 0 ∧ s.est 3 0 = 0 ∧
      os.map (·.applied) = [some [0, 0], some [0, 0], some [0, -(1000 / 2002)], some [0, -(1000 / 2002)]] := by
  refine ⟨_, _, rfl, ?_⟩
  decide +kernel

/-- C70 (f), disagreement: with an estimate at every second update only, the open-loop compensation
covers only every second hop: for a constant estimate the total shift after six updates is that of
two hops instead of four. -/
theorem C70_refuted_between_estimates :
    ∃ s os, (SroSt.init (exLoop .open 2)).run (exLoop .open 2) (List.replicate 7 (exCoh (1 / 999))) =
        .ok (s, os) ∧
      os.map (·.applied) = [some [0, 0], some [0, 0], some [0, 0], some [0, -1], some [0, -1],
        some [0, -2], some [0, -2]] := by
  refine ⟨_, _, rfl, ?_⟩
  decide +kernel

/-- The centralised statement is not vacuous: node 0 with a neighbour, an estimate at the second
update. -/
example : ((SroSt.init { exLoop .open 1 with centralised := true, includeFSD := false }).run
      { exLoop .open 1 with centralised := true, includeFSD := false }
      [⟨[some 0], [some 0, some 0], fun _ => 0, fun _ => 1 / 999⟩,
       ⟨[some 0], [some 0, some 0], fun _ => 0, fun _ => 1 / 999⟩,
       ⟨[some 0], [some 0, some 0], fun _ => 0, fun _ => 1 / 999⟩]).map
        (fun r => r.2.map fun o => o.appliedC) =
      .ok [some [0, 0], some [0, 0], some [0, -1]] := by
  decide +kernel

end Danse
