import Verif.Props.Sched
import Verif.Props.Danse
import Verif.Proofs.Dead
import Verif.Proofs.TIRun13

/-! # Single-sensor nodes that do not fuse: what the neighbours hear -/

set_option linter.unusedSectionVars false

namespace Danse
section
variable {K : Type} [Field K] [StarRing K] [DecidableEq K]

theorem split_up (k : Nat) (evs : List (ℚ × Nat × EvType)) : ∀ {i : Nat}, i < evUps evs k →
    ∃ pre t post, evs = pre ++ (t, k, EvType.up) :: post ∧ evUps pre k = i := by
  induction evs with
  | nil => intro i hi; simp [evUps] at hi
  | cons ev evs ih =>
    intro i hi
    by_cases hev : ev.2.1 = k ∧ ev.2.2 = .up
    · have e : evUps (ev :: evs) k = evUps evs k + 1 := by
        unfold evUps
        rw [List.countP_cons_of_pos (by simpa using hev)]
      cases i with
      | zero => exact ⟨[], ev.1, evs, by obtain ⟨t, q, ty⟩ := ev; obtain ⟨rfl, rfl⟩ := hev; rfl, rfl⟩
      | succ i =>
        obtain ⟨pre, t, post, rfl, h⟩ := ih (i := i) (by omega)
        refine ⟨ev :: pre, t, post, rfl, ?_⟩
        unfold evUps at h ⊢
        rw [List.countP_cons_of_pos (by simpa using hev), h]
    · have e : evUps (ev :: evs) k = evUps evs k := by
        unfold evUps
        rw [List.countP_cons_of_neg (by simpa using hev)]
      obtain ⟨pre, t, post, rfl, h⟩ := ih (i := i) (by omega)
      refine ⟨ev :: pre, t, post, rfl, ?_⟩
      unfold evUps at h ⊢
      rw [List.countP_cons_of_neg (by simpa using hev), h]

variable {y : Nat → List (List K)}

theorem adaptStep_hist {U : Strategy K} {a b : AdaptSt K} {ev : ℚ × Nat × EvType} (h : adaptStep U y a ev = .ok b) (k : Nat) :
    a.hist k <+: b.hist k := by
  unfold adaptStep at h
  split at h
  · obtain ⟨o, ho, h⟩ := bind_ok_inv h
    obtain ⟨s, hs, h⟩ := bind_ok_inv h
    injection h with h
    subst h
    by_cases hk : k = ev.2.1
    · subst hk; simp
    · simp [Function.update_of_ne hk]
  · obtain ⟨s, hs, h⟩ := bind_ok_inv h
    injection h with h
    subst h
    simp

theorem adaptRun_hist {U : Strategy K} (evs : List (ℚ × Nat × EvType)) : ∀ {a b : AdaptSt K}, adaptRun U y a evs = .ok b →
    ∀ k, a.hist k <+: b.hist k := by
  induction evs with
  | nil => intro a b h k; injection h with h; subst h; simp
  | cons ev evs ih =>
    intro a b h k
    unfold adaptRun at h
    rw [List.foldlM_cons] at h
    obtain ⟨c, hc, h⟩ := bind_ok_inv h
    exact (adaptStep_hist hc k).trans (ih h k)

/-- The state of a run right after the `i`-th update of node `q`. -/
theorem adaptRun_at {U : Strategy K} {g : GivenCfg K} {T : Nat} {M : Nat → Nat} {evs : List (ℚ × Nat × EvType)} {a : AdaptSt K}
    (h : adaptRun U y (.init g T M) evs = .ok a) {q i : Nat} {o : Obs K} (ho : (a.hist q)[i]? = some o) :
    ∃ pre post b, evs = pre ++ (o.t, q, EvType.up) :: post ∧ adaptRun U y (.init g T M) (pre ++ [(o.t, q, .up)]) = .ok b ∧
      o.z = b.st.net.z q := by
  have hi : i < evUps evs q := by
    rw [← evUps_length, ← (C77_observed h q).1, List.length_map]
    exact (List.getElem?_eq_some_iff.mp ho).1
  obtain ⟨pre, t, post, rfl, hpre⟩ := split_up q evs hi
  have h0 := h
  rw [show pre ++ (t, q, EvType.up) :: post = (pre ++ [(t, q, .up)]) ++ post by simp] at h0
  unfold adaptRun at h0
  rw [List.foldlM_append] at h0
  obtain ⟨b, hb, h2⟩ := bind_ok_inv h0
  have hobs := C77_observed (g := g) hb q
  have hlen : (b.hist q).length = i + 1 := by
    have := congrArg List.length hobs.1
    rw [List.length_map, evUps_length] at this
    rw [this]
    unfold evUps at hpre ⊢
    rw [List.countP_append, hpre]
    simp
  have hget : (b.hist q)[i]? = some o := by
    obtain ⟨r, hr⟩ := adaptRun_hist post h2 q
    rw [← hr, List.getElem?_append_left (by omega)] at ho
    exact ho
  have ht : o.t = t := by
    have h3 : ((b.hist q).map (·.t))[i]? = some o.t := by rw [List.getElem?_map, hget]; rfl
    have h4 : (upTimes pre q).length = i := by rw [evUps_length, hpre]
    rw [hobs.1, upTimes_snoc, if_pos ⟨rfl, rfl⟩, List.getElem?_append_right (by omega), h4] at h3
    simp at h3
    exact h3.symm
  subst ht
  refine ⟨pre, post, b, rfl, hb, hobs.2.2.1 o ?_⟩
  rw [List.getLast?_eq_getElem?, hlen]
  exact hget

theorem heard_take {D : DanseCfg K} (k : Nat) (h : List (Obs K)) (i : Nat) : D.heard k (h.take i) = (D.heard k h).take i := by
  have := (List.prefix_iff_eq_take).mp (heard_prefix (D := D) k h i)
  rw [heard_length, List.length_take] at this
  rw [this]
  by_cases hi : i ≤ h.length
  · rw [min_eq_left hi]
  · rw [min_eq_right (by omega), List.take_of_length_le (by rw [heard_length]), List.take_of_length_le (by rw [heard_length]; omega)]

theorem flatMap_single {y : Nat → List (List K)} (l : List Nat) (h : ∀ k ∈ l, (y k).length = 1) (idx : Nat) {ch : List K}
    (hc : (l.flatMap y)[idx]? = some ch) : ∃ k, l[idx]? = some k ∧ (y k)[0]? = some ch := by
  induction l generalizing idx with
  | nil => simp at hc
  | cons k l ih =>
    have hk : (y k).length = 1 := h k (by simp)
    rw [List.flatMap_cons] at hc
    cases idx with
    | zero => exact ⟨k, rfl, by rw [List.getElem?_append_left (by omega)] at hc; exact hc⟩
    | succ idx =>
      rw [List.getElem?_append_right (by omega), hk] at hc
      exact ih (fun k hk => h k (by simp [hk])) idx (by simpa using hc)

/-- What a node whose neighbours have one sensor and do not fuse observes at an update. -/
theorem single_obs {g : GivenCfg K} {U : Strategy K} {n L : Nat} (hn : 0 < n) {fs : ℚ} (hfs : 0 < fs)
    (hf : inferFs (clockStamps fs n) = .ok fs) (nbs : List (List Nat)) {seq sim : Bool}
    {ri : Nat} {first minF : Int} {fsInf : List ℚ} {out : List (Instant ℚ)} (hg : ∀ k, g.fs k = fs)
    (hb : g.bc = .few L false) (hL0 : 0 < L) (hLNs : L ∣ g.Ns) (hNs : 0 < g.Ns)
    (hout : initEventsFC g.bc g.N g.Ns seq sim ri first minF (syncNodes fs n nbs) = .ok (out, fsInf))
    (hri : sim = true → ri < nbs.length) (hN : 2 ≤ g.N) (hLN : L ≤ g.N) (gd : GoodNeighbours g.nb)
    {q : Nat} (hq : q < nbs.length) (hnb : ∀ k ∈ g.nb q, k < nbs.length) (hone : ∀ k ∈ g.nb q, (y k).length = 1)
    (hy : ∀ k < nbs.length, ∀ ch ∈ y k, ch.length = n) {M : Nat → Nat} (hM : ∀ k ∈ g.nb q, M k = 1)
    (href : g.refSensor = 0) (hfus : g.noFusion = true) {T : Nat} {a : AdaptSt K}
    (h : adaptRun U y (.init g T M) (flatEvents out) = .ok a) {i : Nat} {o : Obs K} (ho : (a.hist q)[i]? = some o) :
    ∃ j : Nat, j = ⌈(g.N : ℚ) / g.Ns⌉₊ + i ∧ o.t = (j : ℚ) * g.Ns / fs ∧ g.N ≤ j * g.Ns ∧ j * g.Ns < n ∧
      ∀ (c : Nat) (ch : List K),
      (y q ++ (g.nb q).flatMap y)[c]? = some ch → (o.loc ++ o.z)[c]? = some (frameAt ch (j * g.Ns - g.N) g.N) := by
  obtain ⟨pre, post, b, hev, hbr, hz⟩ := adaptRun_at h ho
  have hNe : upTimes (flatEvents out) q = everySep g.Ns fs ⌈(g.N : ℚ) / g.Ns⌉₊ ((n - 1) / g.Ns) := by
    obtain ⟨out', h3, h4, -⟩ := C78_schedule (bc := g.bc) (N := g.N) (Ns := g.Ns) (n := n) hNs hn hfs hf
      (by rw [hb]; intro h; cases h) (by rw [hb]; intro L e h; injection h with a b; subst a b; exact ⟨hL0, rfl⟩)
      nbs (seq := seq) (sim := sim) (r := ri) first minF hri
    rw [hout] at h3
    injection h3 with h3
    injection h3 with h3
    subst h3
    exact (h4 q hq).1
  have hobs := C77_observed h q
  have hti : o.t = ((⌈(g.N : ℚ) / g.Ns⌉₊ + i : Nat) : ℚ) * g.Ns / fs ∧ i < (n - 1) / g.Ns - ⌈(g.N : ℚ) / g.Ns⌉₊ := by
    have h1 : ((a.hist q).map (·.t))[i]? = some o.t := by rw [List.getElem?_map, ho]; rfl
    rw [hobs.1, hNe] at h1
    unfold everySep at h1
    rw [List.getElem?_map] at h1
    cases hr : (List.range ((n - 1) / g.Ns - ⌈(g.N : ℚ) / g.Ns⌉₊))[i]? with
    | none => rw [hr] at h1; cases h1
    | some v =>
      obtain ⟨hlt, hv⟩ := List.getElem?_eq_some_iff.mp hr
      rw [List.getElem_range] at hv
      subst hv
      rw [hr] at h1
      injection h1 with h1
      exact ⟨h1.symm, by simpa using hlt⟩
  obtain ⟨ht, hilt⟩ := hti
  generalize hj : ⌈(g.N : ℚ) / g.Ns⌉₊ + i = j at ht
  have hjn : j * g.Ns < n := by
    have h1 : j < (n - 1) / g.Ns := by omega
    have h2 : j * g.Ns < (n - 1) / g.Ns * g.Ns := Nat.mul_lt_mul_of_pos_right h1 hNs
    have := Nat.div_mul_le_self (n - 1) g.Ns
    omega
  have hjN : g.N ≤ j * g.Ns := by
    have h1 : (g.N : ℚ) / g.Ns ≤ (⌈(g.N : ℚ) / g.Ns⌉₊ : ℚ) := Nat.le_ceil _
    rw [div_le_iff₀ (by exact_mod_cast hNs)] at h1
    have h2 : g.N ≤ ⌈(g.N : ℚ) / g.Ns⌉₊ * g.Ns := by exact_mod_cast h1
    exact h2.trans (Nat.mul_le_mul_right _ (by omega))
  refine ⟨j, rfl, ht, hjN, hjn, fun c ch hc => ?_⟩
  have hfl : ⌊o.t * fs⌋ = ((j * g.Ns : Nat) : Int) := by
    rw [ht, div_mul_cancel₀ _ hfs.ne']
    exact_mod_cast Int.floor_natCast (R := ℚ) (j * g.Ns)
  obtain ⟨fr, hfr, hloc⟩ := hobs.2.2.2 o (List.mem_of_getElem? ho)
  have hll : o.loc.length = (y q).length := by rw [hloc, List.length_map, (mapM_get hfr).1]
  by_cases hcl : c < (y q).length
  · rw [List.getElem?_append_left hcl] at hc
    rw [List.getElem?_append_left (by omega), hloc, List.getElem?_map]
    obtain ⟨p, hp, hF⟩ := (mapM_get hfr).2 c ch hc
    have hchl := hy q hq ch (List.mem_of_getElem? hc)
    rw [hp]
    rw [hb] at hF
    simp only [frameEnd] at hF
    rw [hg, hfl, localChunk_frame (by omega)] at hF
    injection hF with hF
    rw [← hF]
    rw [frameBefore_eq_frameAt ch hjN (by omega)]
    rfl
  · rw [List.getElem?_append_right (by omega)] at hc
    rw [List.getElem?_append_right (by omega), hll]
    obtain ⟨k, hk, hch⟩ := flatMap_single _ hone _ hc
    have hkm := List.mem_of_getElem? hk
    have hw := adaptRun_written (s0 := .init g.N g.refSensor T M) (fun _ => rfl) _ hbr
    have hfix := hw.1.fixed
    unfold GivenCfg.fixed at hfix
    generalize hb' : b.cfg = f at *
    have e1 : f.N = g.N := by rw [hfix]
    have e2 : f.Ns = g.Ns := by rw [hfix]
    have e3 : f.fs = g.fs := by rw [hfix]
    have e4 : f.bc = g.bc := by rw [hfix]
    have e5 : f.nb = g.nb := by rw [hfix]
    have e6 : f.refSensor = g.refSensor := by rw [hfix]
    have e7 : f.noFusion = g.noFusion := by rw [hfix]
    obtain ⟨i', h1, h2, h3, col, h4, -, h6⟩ := C78_neighbour_frame (g := f) (y := y) (M := M) hn hfs hf nbs (fun k => by rw [e3]; exact hg k)
      (by rw [e4]; exact hb) hL0 (by rw [e2]; exact Nat.le_of_dvd hNs hLNs) (by rw [e4, e1, e2]; exact hout) hri
      (by rw [e1]; exact hN) (by rw [e1]; exact hLN) (by rw [e5]; exact gd) (hnb k hkm) (by rw [e6, href]; exact hch)
      (hy k (hnb k hkm) ch (List.mem_of_getElem? hch)) (by rw [hM k hkm, hone k hkm]) hq (by rw [e5]; exact hk) hev
      (.inl ⟨by rw [e7]; exact hfus, hone k hkm⟩) (by rw [e1, e6]; exact hw.2)
    have e8 : i' = j := by
      rw [ht, e2] at h1
      have hq : ((j : ℚ)) = i' := by
        have hz : (g.Ns : ℚ) ≠ 0 := by exact_mod_cast hNs.ne'
        field_simp at h1
        exact h1
      exact_mod_cast hq.symm
    subst e8
    have e9 : i' * f.Ns / L * L = i' * g.Ns := by
      rw [e2]
      exact Nat.div_mul_cancel (Dvd.dvd.mul_left hLNs i')
    rw [hz, h4, h6 (by rw [e9, e1]; exact hjN), e9, e1]

end
end Danse
