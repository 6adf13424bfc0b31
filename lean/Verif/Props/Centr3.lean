import Verif.Proofs.Centr9

/-!
# Properties C90-C91: whose sensors the centralised estimate uses, and filters that select a sensor
-/

set_option linter.unusedSectionVars false

namespace Danse
section
variable {K : Type} [Field K] [StarRing K] [DecidableEq K] {c : CentrCfg K} {y : Nat → List (List K)}

/-- C91: with the schedule of the code for synchronous nodes with `n` samples each and whole-chunk or efficient
few-sample broadcasts (of `L` samples, `L` a divisor of `Ns`), the centralised estimate of a node whose
centralised filters select one sensor - its own or one of another node - is the signal of that sensor, sample
by sample, from the first update on (or from the first sample on, with whole-chunk broadcasts) to within two
frames of the end of the recording. -/
theorem C91_select [CharZero K] {n : Nat} (hn : 0 < n) {fs : ℚ} (hfs : 0 < fs)
    (hf : inferFs (clockStamps fs n) = .ok fs) (nbs : List (List Nat))
    (hne : ∀ nb ∈ nbs, nb ≠ [] ∧ ∀ q ∈ nb, q < nbs.length) {seq sim : Bool} {ri : Nat}
    {first minF : Int} {fsInf : List ℚ} {out : List (Instant ℚ)} (hcn : c.n = nbs.length)
    (hg : ∀ k, c.g.fs k = fs) (hst : ∀ k, c.g.stamps k = clockStamps fs n) (hc1 : c.centr = true)
    (hb : c.g.bc = .whole ∨ ∃ L, c.g.bc = .few L true ∧ L ∣ c.g.Ns ∧ L < n)
    (hlen : ∀ q < c.n, ∀ x ∈ y q, x.length = n)
    (hout : initEventsFC c.g.bc c.g.N c.g.Ns seq sim ri first minF (syncNodes fs n nbs) = .ok (out, fsInf))
    (hri : sim = true → ri < nbs.length)
    (r : DftRoot c.g.ζ c.g.N) (he : 2 ∣ c.g.N) (hc : c.g.c ≠ 0) (hcr : star c.g.c = c.g.c) (hh : IsReal c.g.h)
    (hhl : c.g.h.length = c.g.N) (hfl : c.g.f.length = c.g.N) (hconv : c.g.conv = false)
    {R : Nat} (hNs : 0 < c.g.Ns) (hR : 0 < R) (hN : c.g.N = R * c.g.Ns)
    (hcola : ∀ ρ < c.g.Ns, ∑ m ∈ Finset.range R,
      c.g.h.getD (ρ + m * c.g.Ns) 0 * c.g.f.getD (ρ + m * c.g.Ns) 0 = 1)
    {k q μ : Nat} (hk : k < c.n) (hq : q < c.n) {x : List K} (hx : (y q)[μ]? = some x) (hxr : IsReal x)
    (hw : ∀ i, c.wC k (i + 1) = selector (sensorCount y c.n) (sensorIndex y q μ) (c.g.N / 2 + 1))
    (hrot : ∀ i κ, c.rotC k i (sensorIndex y q μ) κ = 1) {s : CentrSt K}
    (h : c.run y (.init c.n c.g.N c.g.refSensor n fun q => (y q).length) (flatEvents out) = .ok s) {m : Nat}
    (hm : match c.g.bc with
      | .few _ _ => c.g.N ≤ m + c.g.Ns ∧ m + c.g.N < (n - 1) / c.g.Ns * c.g.Ns
      | .whole => m + 2 * c.g.N < (n - 1) / c.g.Ns * c.g.Ns + c.g.Ns) :
    (s.dC k)[m]? = x[m]? := by
  have hdvd : c.g.Ns ∣ c.g.N := ⟨R, by rw [hN]; ring⟩
  have hN0 : 0 < c.g.N := by rw [hN]; positivity
  have hNsN : c.g.Ns ≤ c.g.N := Nat.le_of_dvd hN0 hdvd
  have hxm : x ∈ y q := List.mem_of_getElem? hx
  have hxn := hlen q hq x hxm
  have hμ : μ < (y q).length := by
    by_contra hcon
    rw [List.getElem?_eq_none (by omega)] at hx
    cases hx
  -- the update times and the observations
  have key : upTimes (flatEvents out) k = everySep c.g.Ns fs ⌈(c.g.N : ℚ) / c.g.Ns⌉₊ ((n - 1) / c.g.Ns) ∧
      ∀ pre t post s, flatEvents out = pre ++ (t, k, .up) :: post →
        c.run y (.init c.n c.g.N c.g.refSensor n fun q => (y q).length) (pre ++ [(t, k, .up)]) = .ok s →
        s.yCentr k = (List.range c.n).flatMap fun q =>
          (y q).map fun x => frameBefore c.g.N x (frameEnd c.g.bc c.g.N c.g.Ns t (c.g.fs k)).toNat := by
    rcases hb with hb | ⟨L, hb, hL, hLn⟩
    · refine ⟨?_, ?_⟩
      · obtain ⟨out', ho', hup, _⟩ := C78_schedule (seq := seq) (sim := sim) (r := ri) (N := c.g.N) (bc := c.g.bc)
          hNs hn hfs hf (fun _ => hdvd) (by rw [hb]; intro L e h; cases h) nbs first minF hri
        rw [hout] at ho'
        injection ho' with ho'
        injection ho' with ho'
        subst ho'
        exact (hup k (hcn ▸ hk)).1
      · intro pre t post s hev hs
        obtain ⟨i, hit, hiN, hin, hy⟩ := C87_whole_chunk hn hfs hf nbs hcn hg hc1 hb hNs hdvd hN0 hlen hout hri hk hev hs
        rw [hy]
        have hfe : frameEnd c.g.bc c.g.N c.g.Ns t (c.g.fs k) = ((i * c.g.Ns - (c.g.N - c.g.Ns) : Nat) : Int) := by
          unfold frameEnd
          rw [hb, hg, hit]
          simp only
          rw [floor_everySep hfs]
          omega
        rw [hfe, Int.toNat_natCast]
    · have hL0 : 0 < L := Nat.pos_of_dvd_of_pos hL hNs
      have hLNs : L ≤ c.g.Ns := Nat.le_of_dvd hNs hL
      refine ⟨?_, ?_⟩
      · obtain ⟨out', ho', hup, _⟩ := C87_schedule_efficient (seq := seq) (sim := sim) (r := ri) hNs hN0 hn hL0 hLNs
          hLn hfs hf nbs hne first minF hri
        rw [← hb, hout] at ho'
        injection ho' with ho'
        injection ho' with ho'
        subst ho'
        exact (hup k (hcn ▸ hk)).1
      · intro pre t post s hev hs
        obtain ⟨i, hit, hiN, hin, hy⟩ := C87_efficient hn hfs hf nbs hne hcn hg hst hc1 hb hL0 hLNs hLn hN0 hlen hout
          hri hk hev hs
        rw [hy]
        have hfe : frameEnd c.g.bc c.g.N c.g.Ns t (c.g.fs k) = ((i * c.g.Ns : Nat) : Int) := by
          unfold frameEnd
          rw [hb, hg, hit]
          simp only
          rw [floor_everySep hfs]
        have e : i * c.g.Ns / L * L = i * c.g.Ns := Nat.div_mul_cancel (hL.mul_left i)
        simp only [e, ite_self, hfe, Int.toNat_natCast]
  obtain ⟨hup, hobs⟩ := key
  have hcl : ⌈(c.g.N : ℚ) / c.g.Ns⌉₊ = R := by
    have : (c.g.N : ℚ) / c.g.Ns = R := by
      rw [hN]
      push_cast
      field_simp
    rw [this, Nat.ceil_natCast]
  rw [hcl] at hup
  have hE : frameEnds c.g.bc c.g.N c.g.Ns (c.g.fs k) k (flatEvents out) =
      (List.range ((n - 1) / c.g.Ns - R)).map fun (j : Nat) =>
        frameEnd c.g.bc c.g.N c.g.Ns 0 0 + c.g.N + j * c.g.Ns := by
    rw [frameEnds_eq, hup, hg]
    unfold everySep
    rw [List.map_map]
    apply List.map_congr_left
    intro j hj
    have e := floor_everySep hfs (R + j) c.g.Ns
    have e2 : ((R + j) * c.g.Ns : Nat) = c.g.N + j * c.g.Ns := by rw [hN]; ring
    simp only [Function.comp_apply, frameEnd]
    rw [e, e2]
    cases c.g.bc <;> simp <;> ring
  have hJ : R ≤ (n - 1) / c.g.Ns := by
    have : R * c.g.Ns ≤ (n - 1) / c.g.Ns * c.g.Ns := by
      rw [← hN]
      cases hbc : c.g.bc with
      | few L eff => rw [hbc] at hm; simp only at hm; omega
      | whole => rw [hbc] at hm; simp only at hm; omega
    exact Nat.le_of_mul_le_mul_right this hNs
  have hJ2 : (((n - 1) / c.g.Ns - R : Nat) : Int) * c.g.Ns = ((n - 1) / c.g.Ns * c.g.Ns : Nat) - c.g.N := by
    rw [Nat.cast_sub hJ, hN]
    push_cast
    ring
  have hdiv : (n - 1) / c.g.Ns * c.g.Ns ≤ n - 1 := Nat.div_mul_le_self _ _
  have hsel := centr_gain hc1 r he hc hcr hh hhl hfl hconv (k := k) (tot := sensorCount y c.n)
    (ref := sensorIndex y q μ) hxr hw hrot (T := n) (by omega)
    (s0 := .init c.n c.g.N c.g.refSensor n fun q => (y q).length) rfl (flatEvents out)
    (by
      intro pre t post s hev hs
      rw [hobs pre t post s hev hs]
      refine ⟨?_, ?_⟩
      · rw [List.length_flatMap]
        simp only [List.length_map]
        rfl
      · have := flatMap_range_get c.n (fun q => (y q).map fun x => frameBefore c.g.N x
          (frameEnd c.g.bc c.g.N c.g.Ns t (c.g.fs k)).toNat) hq (m := μ) (by simpa using hμ)
        simp only [List.length_map] at this
        rw [sensorIndex, this, List.getElem?_map, hx, Option.map_some])
    (by
      rw [hE]
      intro e hem
      obtain ⟨j, hj, rfl⟩ := List.mem_map.mp hem
      have hj' := List.mem_range.mp hj
      have h5 : ((j : Int) + 1) * c.g.Ns ≤ (((n - 1) / c.g.Ns - R : Nat) : Int) * c.g.Ns :=
        mul_le_mul_of_nonneg_right (by omega) (by omega)
      rw [hJ2] at h5
      have h6 : (0 : Int) ≤ (j : Int) * c.g.Ns := by positivity
      rw [add_mul, one_mul] at h5
      generalize (n - 1) / c.g.Ns * c.g.Ns = D at h5 hdiv
      cases c.g.bc <;> simp [frameEnd] <;> omega) h
  have hmn : m < n := by
    generalize (n - 1) / c.g.Ns * c.g.Ns = D at hm hdiv
    cases hbc : c.g.bc with
    | few L eff => rw [hbc] at hm; simp only at hm; omega
    | whole => rw [hbc] at hm; simp only at hm; omega
  have hv := hsel.2 m hmn
  rw [hE] at hv
  have hgain := regular_gain (K := K) (R := R) (Ns := c.g.Ns) (J := (n - 1) / c.g.Ns - R) (n := m) hNs hR
    (h := c.g.h) (f := c.g.f) hcola (e0 := frameEnd c.g.bc c.g.N c.g.Ns 0 0 + c.g.N)
    (by
      cases hbc : c.g.bc with
      | few L eff => rw [hbc] at hm; simp only [frameEnd] at hm ⊢; simp; omega
      | whole => simp [frameEnd])
    (by
      rw [hJ2, ← hN]
      generalize (n - 1) / c.g.Ns * c.g.Ns = D at hm hdiv
      cases hbc : c.g.bc with
      | few L eff => rw [hbc] at hm; simp only [frameEnd] at hm ⊢; simp; omega
      | whole => rw [hbc] at hm; simp only [frameEnd] at hm ⊢; simp; omega)
  rw [← hN] at hgain
  rw [hgain, one_mul] at hv
  rw [List.getElem?_eq_getElem (by rw [hsel.1]; exact hmn), List.getElem?_eq_getElem (by omega)]
  unfold at0 at hv
  rw [List.getD_eq_getElem?_getD, List.getElem?_eq_getElem (by rw [hsel.1]; exact hmn), Option.getD_some,
    List.getD_eq_getElem?_getD, List.getElem?_eq_getElem (by omega), Option.getD_some] at hv
  rw [hv]

/-- C90 (d), refuted property: with linear-convolution synthesis (`desSigProcessingType = 'conv'`) the centralised
estimate of a node that has no more sensors than the nodes before it together does not depend on what this node
records: the estimate applies the filter of its own sensors to the first sensors of the network. -/
theorem C90_refuted_conv_own_sensors {y' : Nat → List (List K)} (hc : c.centr = true) (hconv : c.g.conv = true)
    (hN : 0 < c.g.N) {k : Nat} (hk : k < c.n) (hy : ∀ q, q ≠ k → y q = y' q) (hyl : (y k).length = (y' k).length)
    (hM : (y k).length ≤ sensorCount y k) (hlen : ∀ q < c.n, ∀ x ∈ y q, c.g.N ≤ x.length)
    (hlen' : ∀ q < c.n, ∀ x ∈ y' q, c.g.N ≤ x.length) {T : Nat} (evs : List (ℚ × Nat × EvType))
    (hev : ∀ ev ∈ evs, ev.2.1 < c.n ∧ 0 ≤ ⌊ev.1 * c.g.fs ev.2.1⌋ ∧
      (ev.2.2 = .up → 0 ≤ frameEnd c.g.bc c.g.N c.g.Ns ev.1 (c.g.fs ev.2.1))) {s s' : CentrSt K}
    (h : c.run y (.init c.n c.g.N c.g.refSensor T fun q => (y q).length) evs = .ok s)
    (h' : c.run y' (.init c.n c.g.N c.g.refSensor T fun q => (y' q).length) evs = .ok s') : s.dC k = s'.dC k :=
  centr_conv hc hconv hN hk hy hyl hM hlen hlen' evs hev h h'

/-- C90 (e), refuted option: with efficient few-sample broadcasts the centralised estimate makes a run fail as soon as
a node broadcasts with fewer than `L` samples recorded since its last broadcast (in any network of several
nodes). -/
theorem C90_refuted_nothing_to_send {L : Nat} (hc : c.centr = true) (hb : c.g.bc = .few L true) (hn : 2 ≤ c.n)
    (hN : 0 < c.g.N) (hlen : ∀ q < c.n, ∀ x ∈ y q, c.g.N ≤ x.length) {T : Nat} {evs : List (ℚ × Nat × EvType)}
    (hev : ∀ ev ∈ evs, ev.2.1 < c.n ∧ 0 ≤ ⌊ev.1 * c.g.fs ev.2.1⌋) {t : ℚ} {k : Nat} (hk : k < c.n)
    (hfew : ((c.g.stamps k).filter fun u => decide (lastBcTime evs k < u) && decide (u ≤ t)).length < L)
    (s : CentrSt K) :
    c.run y (.init c.n c.g.N c.g.refSensor T fun q => (y q).length) (evs ++ [(t, k, .bc)]) ≠ .ok s := by
  intro h
  unfold CentrCfg.run at h
  rw [List.foldlM_append] at h
  obtain ⟨s1, h1, h⟩ := bind_ok_inv h
  rw [List.foldlM_cons] at h
  obtain ⟨s2, h2, _⟩ := bind_ok_inv h
  have hi := CInv.run hc hN hlen T evs hev h1
  obtain ⟨_, _, _, _, h3, _⟩ := centrBroadcast_parts h2
  obtain ⟨raw, m, _, hm, hfill⟩ := h3 hc
  have hm0 : m = 0 := by
    unfold CentrCfg.nSamplesToBC at hm
    rw [hb] at hm
    obtain ⟨l, hl, hm⟩ := bind_ok_inv hm
    injection hm with hm
    unfold GivenCfg.currL bufferSizeEff at hl
    rw [if_pos rfl, if_neg (by omega), hi.last L hb k] at hl
    injection hl with hl
    rw [Nat.div_eq_of_lt hfew] at hl
    omega
  subst hm0
  unfold fillCentr at hfill
  have key : ∀ (l : List Nat), (∃ q ∈ l, q ≠ k) → ∀ (b : Nat → Nat → List (List K)) r,
      l.foldlM (fun buf q =>
        if q = k then .ok buf
        else if (0 : Int) = 0 then .error .valueError
        else (.ok (Function.update buf q (Function.update (buf q) (centrSlot k q)
          (List.zipWith (· ++ ·) (buf q (centrSlot k q)) (raw.map (chunkOf · 0))))) :
            Except PyErr (Nat → Nat → List (List K)))) b ≠ .ok r := by
    intro l
    induction l with
    | nil => rintro ⟨q, hq, _⟩; simp at hq
    | cons q l ih =>
      rintro ⟨q', hq', hne⟩ b r h
      rw [List.foldlM_cons] at h
      obtain ⟨a1, h1, h⟩ := bind_ok_inv h
      by_cases e : q = k
      · rcases List.mem_cons.mp hq' with rfl | h3
        · exact hne e
        · exact ih ⟨q', h3, hne⟩ a1 r h
      · rw [if_neg e, if_pos rfl] at h1
        cases h1
  refine key (List.range c.n) ?_ _ _ hfill
  by_cases e : k = 0
  · exact ⟨1, List.mem_range.mpr (by omega), by omega⟩
  · exact ⟨0, List.mem_range.mpr (by omega), fun h => e h.symm⟩

end

/-! ## Concrete cases for C86-C91 -/

/-- Three nodes with 1, 2 and 1 sensors, seven samples each. -/
def exCSig (k : Nat) : List (List ℚ) :=
  match k with
  | 0 => [[3, 1, 4, 1, 5, 9, 2]]
  | 1 => [[2, 7, 1, 8, 2, 8, 1], [1, 1, 2, 3, 5, 8, 13]]
  | _ => [[1, 6, 1, 8, 0, 3, 4]]

/-- A fully connected network of these nodes, frames of two samples; the centralised filters of node `k` select
the sensor number `sel k` of the network. -/
def exCentr (bc : BcType) (conv : Bool) (sel : Nat → Nat) : CentrCfg ℚ :=
  { g := { N := 2, Ns := 1, ζ := -1, c := 1, h := [1, 1], f := [1 / 2, 1 / 2],
           nb := fun k => if k = 0 then [1, 2] else if k = 1 then [0, 2] else [0, 1],
           fs := fun _ => 1, stamps := fun _ => clockStamps 1 7, bc := bc, upTDEvery := 100, noFusion := false,
           conv := conv, refSensor := 0, wInt := fun k _ => [1, 1] :: List.replicate (if k = 1 then 3 else 2) [0, 0],
           wExt := fun k _ => [1, 1] :: (if k = 1 then [[0, 0]] else []),
           wLoc := fun k _ => [1, 1] :: (if k = 1 then [[0, 0]] else []), rot := fun _ _ _ _ => 1 }
    n := 3, centr := true, ssbc := true, compensateSROs := false
    wC := fun k _ => selector 4 (sel k) 2
    wS := fun k _ => [1, 1] :: List.replicate (if k = 1 then 3 else 2) [0, 0]
    rotC := fun _ _ _ _ => 1 }

/-- Its events. -/
def exCEvs : List (ℚ × Nat × EvType) :=
  ([2, 3, 4, 5] : List ℚ).flatMap fun t =>
    [(t, 0, .bc), (t, 1, .bc), (t, 2, .bc), (t, 0, .up), (t, 1, .up), (t, 2, .up)]

/-- The schedules of the code for whole-chunk and efficient broadcasts (hypotheses of C87 and C91, and conclusion
of `C87_schedule_efficient`). -/
example : inferFs (clockStamps 1 7) = .ok 1 ∧
    (initEventsFC .whole 2 1 true false 0 0 1 (syncNodes 1 7 [[1, 2], [0, 2], [0, 1]])).toOption.map
      (fun o => flatEvents o.1) = some exCEvs ∧
    (initEventsFC (.few 1 true) 2 1 true false 0 0 1 (syncNodes 1 7 [[1, 2], [0, 2], [0, 1]])).toOption.map
      (fun o => flatEvents o.1) = some exCEvs := by
  decide_cbv

set_option maxHeartbeats 4000000 in
/-- With efficient broadcasts of `L = 2` samples that do not divide `Ns = 3`, the broadcasts precede the updates. -/
example : (initEventsFC (.few 2 true) 3 3 true false 0 0 1 (syncNodes 1 10 [[1], [0]])).toOption.map
      (fun o => (bcTimes (flatEvents o.1) 1, upTimes (flatEvents o.1) 1)) =
    some (syncBcEff 2 3 3 10 1, [3, 6]) ∧ syncBcEff 2 3 3 10 1 = [2, 6] := by
  decide_cbv

/-- C86, C87 and C91 on the whole-chunk schedule: the observations at the last update of each node (at sample 5, of
the frames that end at sample 4), the flags, and the centralised estimates, which are the signal 1, 1, 2, 3, 5, ...
of the selected second sensor of node 1 at the samples 0 to 2 (`m + 4 < 6 + 1`). -/
example : letI : StarRing ℚ := starRingOfComm
    (∀ q < 3, ∀ x ∈ exCSig q, x.length = 7) ∧ sensorIndex exCSig 1 1 = 2 ∧ sensorCount exCSig 3 = 4 ∧
    (∀ ρ < 1, ∑ m ∈ Finset.range 2, ([1, 1] : List ℚ).getD (ρ + m * 1) 0 *
      ([1 / 2, 1 / 2] : List ℚ).getD (ρ + m * 1) 0 = 1) ∧
    (∀ k < 3, ((exCentr .whole false fun _ => 2).run exCSig (.init 3 2 0 7 fun q => (exCSig q).length)
        exCEvs).toOption.map (fun s => (s.yCentr k, s.ySSBC k)) =
      some ([[4, 1], [1, 8], [2, 3], [1, 8]],
        [[[4, 1], [1, 8], [1, 8]], [[1, 8], [2, 3], [4, 1], [1, 8]], [[1, 8], [4, 1], [1, 8]]].getD k [])) ∧
    ∀ k < 3, ((exCentr .whole false fun _ => 2).run exCSig (.init 3 2 0 7 fun q => (exCSig q).length)
        exCEvs).toOption.map (fun s => (s.flags k, s.dC k)) =
      some ([[0, -1, -1], [-1, 0, -1], [-1, -1, 0]].getD k [] :: List.replicate 3 [0, 0, 0],
        [1, 1, 2, 3 / 2, 0, 0, 0]) := by
  refine ⟨by decide +kernel, by decide +kernel, by decide +kernel, by decide +kernel, ?_, ?_⟩ <;> decide +kernel

/-- The same with efficient broadcasts: the estimates are that signal at the samples 1 to 3 (`m + 2 < 6`). -/
example : letI : StarRing ℚ := starRingOfComm
    ∀ k < 3, ((exCentr (.few 1 true) false fun _ => 2).run exCSig (.init 3 2 0 7 fun q => (exCSig q).length)
        exCEvs).toOption.map (fun s => (s.yCentr k, s.dC k)) =
      some ([[1, 5], [8, 2], [3, 5], [8, 0]], [1 / 2, 1, 2, 3, 5 / 2, 0, 0]) := by
  decide +kernel

/-- C86 (d): the first sensors of the nodes only. -/
example : letI : StarRing ℚ := starRingOfComm
    let c := { exCentr .whole false fun _ => 2 with
      g := { (exCentr .whole false fun _ => 2).g with
        wInt := fun _ _ => [[1, 1], [0, 0], [0, 0]], wExt := fun _ _ => [[1, 1]], wLoc := fun _ _ => [[1, 1]] }
      wC := fun _ _ => selector 3 0 2, wS := fun _ _ => selector 3 0 2 }
    (c.run (fun k => (exCSig k).take 1) (.init 3 2 0 7 fun _ => 1) exCEvs).toOption.map
      (fun s => (s.yCentr 1, s.ySSBC 1)) = some ([[4, 1], [1, 8], [1, 8]], [[1, 8], [4, 1], [1, 8]]) := by
  decide +kernel

/-- The hypothesis of C88 is met by any signals, e.g. twice the signals and minus the signals add up to the signals. -/
example (k : Nat) : SumsM ((exCSig k).map (·.map (2 * ·))) ((exCSig k).map (·.map (-1 * ·))) (exCSig k) := by
  have h1 : ∀ l : List ℚ, Sums (l.map (2 * ·)) (l.map (-1 * ·)) l := by
    intro l
    induction l with
    | nil => exact .nil
    | cons a l ih => exact .cons (by ring) ih
  have h2 : ∀ l : List (List ℚ), SumsM (l.map (·.map (2 * ·))) (l.map (·.map (-1 * ·))) l := by
    intro l
    induction l with
    | nil => exact .nil
    | cons a l ih => exact .cons (h1 a) ih
  exact h2 _

/-- C88 and C89: runs on twice the signals, on minus the signals and on their sum; and the plain run. -/
example : letI : StarRing ℚ := starRingOfComm
    let c := exCentr (.few 1 true) false fun k => k
    let i : CentrSt ℚ := .init 3 2 0 7 fun q => (exCSig q).length
    (c.run (fun k => (exCSig k).map (·.map (2 * ·))) i exCEvs).toOption.map (fun s => (s.dC 1, s.dS 2)) =
      some ([2, 14, 2, 16, 2, 0, 0], [1, 12, 2, 16, 0, 0, 0]) ∧
    (c.run (fun k => (exCSig k).map (·.map (-1 * ·))) i exCEvs).toOption.map (fun s => (s.dC 1, s.dS 2)) =
      some ([-1, -7, -1, -8, -1, 0, 0], [-1 / 2, -6, -1, -8, 0, 0, 0]) ∧
    (c.run exCSig i exCEvs).toOption.map (fun s => (s.dC 1, s.dS 2, s.base.d 1, s.base.dLoc 1)) =
      some ([1, 7, 1, 8, 1, 0, 0], [1 / 2, 6, 1, 8, 0, 0, 0], [1, 7, 1, 8, 1, 0, 0], [1, 7, 1, 8, 1, 0, 0]) ∧
    (c.g.run exCSig (.init 2 0 7 fun q => (exCSig q).length) exCEvs).toOption.map (fun s => (s.d 1, s.dLoc 1)) =
      some ([1, 7, 1, 8, 1, 0, 0], [1, 7, 1, 8, 1, 0, 0]) := by
  decide +kernel

/-- C90: the runs that fail, and the exceptions; the plain run completes in all of these cases. -/
example : letI : StarRing ℚ := starRingOfComm
    let i : CentrSt ℚ := .init 3 2 0 7 fun q => (exCSig q).length
    let err := fun (c : CentrCfg ℚ) evs => (match c.run exCSig i evs with | .error e => some e | .ok _ => none)
    let c := fun bc => exCentr bc false fun k => k
    err (c (.few 1 false)) exCEvs = some .notImplementedError ∧
    err { c .whole with compensateSROs := true } exCEvs = some .notImplementedError ∧
    err { c .whole with centr := false } exCEvs = some .indexError ∧
    err (c (.few 2 true)) [(2, 0, .bc), (3, 0, .bc)] = some .valueError ∧
    err (c .whole) exCEvs = none ∧
    ∀ bc ∈ [BcType.whole, .few 1 false], ((c bc).g.run exCSig i.base exCEvs).isOk = true := by
  decide +kernel

/-- C90 (d): with linear convolution the centralised estimate of node 2 does not change with its signal, even
if its filters select its own sensor (the estimate is then zero); with the WOLA it does. -/
example : letI : StarRing ℚ := starRingOfComm
    let y' := fun k => if k = 2 then [[1, 2, 3, 4, 5, 6, 7]] else exCSig k
    let o := fun conv sel y => ((exCentr .whole conv fun _ => sel).run y (.init 3 2 0 7 fun q => (exCSig q).length)
      exCEvs).toOption.map fun s => s.dC 2
    (exCSig 2).length ≤ sensorCount exCSig 2 ∧
    o true 0 exCSig = some [0, 3 / 4, 1 / 4, 1, 0, 0, 0] ∧ o true 0 y' = some [0, 3 / 4, 1 / 4, 1, 0, 0, 0] ∧
    o true 3 exCSig = some [0, 0, 0, 0, 0, 0, 0] ∧ o true 3 y' = some [0, 0, 0, 0, 0, 0, 0] ∧
    o false 3 exCSig = some [1, 6, 1, 4, 0, 0, 0] ∧ o false 3 y' = some [1, 2, 3, 2, 0, 0, 0] := by
  decide +kernel

end Danse
